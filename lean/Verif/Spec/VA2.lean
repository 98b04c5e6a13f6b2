/-!
# Specification: the game's VarAction2 machine (type 0x89/0x8a, dword sized)

Written from the NewGRF documentation of VariationalAction2 and `VarAction2Advanced`, not from grf-py.
A program is a sequence of variable accesses; each access fetches a value, shifts and masks it and
combines it with the accumulator by the operator that precedes it (the first access just sets the
accumulator). Bit 5 of the adjust byte tells that another access follows.
-/
namespace Spec

abbrev Word := BitVec 32

/-- Storage visible to a program. -/
structure Mach where
  /-- temporary registers -/
  temp : Nat → Word
  /-- persistent storage -/
  perm : Nat → Word

/-- Number of temporary registers in the game; accesses beyond are ignored/return 0. -/
def numTemp : Nat := 0x110

def Mach.readTemp (m : Mach) (i : Nat) : Word := if i < numTemp then m.temp i else 0

def Mach.storeTemp (m : Mach) (i : Nat) (v : Word) : Mach :=
  if i < numTemp then { m with temp := fun j => if j = i then v else m.temp j } else m

def Mach.storePerm (m : Mach) (i : Nat) (v : Word) : Mach :=
  { m with perm := fun j => if j = i then v else m.perm j }

/-- What the rest of the game supplies: values of ordinary variables and procedure calls. -/
structure World where
  var : Nat → Word → Mach → Word
  call : Nat → Mach → Word × Mach

/-- Value of variable `v` with parameter `p`. `0x1A` is all ones, `0x7C` persistent storage,
`0x7D` temporary storage. -/
def getVar (w : World) (v : Nat) (p : Word) (m : Mach) : Word :=
  if v = 0x1a then BitVec.allOnes 32
  else if v = 0x7c then m.perm p.toNat
  else if v = 0x7d then m.readTemp p.toNat
  else w.var v p m

/-- One variable access. `type` 1/2 is the add-and-divide/modulo form. -/
structure Access where
  var : Nat
  param : Nat
  shift : Nat
  mask : Word
  type : Nat := 0
  add : Word := 0
  divmod : Word := 1
deriving DecidableEq, Repr

/-- Variables `0x60..0x7F` take a parameter byte. -/
def hasParam (v : Nat) : Bool := 0x60 ≤ v && v < 0x80

/-- Shift, mask and the optional add/div/mod. -/
def adjust (a : Access) (x : Word) : Word :=
  let y := (x >>> a.shift) &&& a.mask
  if a.type = 0 then y
  else
    let d := if a.divmod = 0 then 1 else a.divmod
    if a.type = 1 then (y + a.add).sdiv d else (y + a.add).srem d

/-- Fetch the value of an access when the accumulator holds `acc`. `0x7E` calls a procedure,
`0x7B` uses the accumulator as parameter of the variable given by the parameter byte. -/
def fetch (w : World) (acc : Word) (a : Access) (m : Mach) : Word × Mach :=
  if a.var = 0x7e then
    let (x, m') := w.call a.param m
    (adjust a x, m')
  else if a.var = 0x7b then (adjust a (getVar w a.param acc m), m)
  else (adjust a (getVar w a.var (BitVec.ofNat 32 a.param) m), m)

/-- 0, 1, 2 for less, equal, greater. -/
def cmp3 (lt eq : Bool) : Word := if eq then 1 else if lt then 0 else 2

/-- The operators. -/
def evalOp (op : Nat) (a b : Word) (m : Mach) : Word × Mach :=
  match op with
  | 0x00 => (a + b, m)
  | 0x01 => (a - b, m)
  | 0x02 => (if a.slt b then a else b, m)
  | 0x03 => (if a.slt b then b else a, m)
  | 0x04 => (if a.ult b then a else b, m)
  | 0x05 => (if a.ult b then b else a, m)
  | 0x06 => (if b = 0 then a else a.sdiv b, m)
  | 0x07 => (if b = 0 then a else a.srem b, m)
  | 0x08 => (if b = 0 then a else a.udiv b, m)
  | 0x09 => (if b = 0 then a else a.umod b, m)
  | 0x0a => (a * b, m)
  | 0x0b => (a &&& b, m)
  | 0x0c => (a ||| b, m)
  | 0x0d => (a ^^^ b, m)
  | 0x0e => (a, m.storeTemp b.toNat a)
  | 0x0f => (b, m)
  | 0x10 => (a, m.storePerm b.toNat a)
  | 0x11 => (a.rotateRight (b.toNat % 32), m)
  | 0x12 => (cmp3 (a.slt b) (a == b), m)
  | 0x13 => (cmp3 (a.ult b) (a == b), m)
  | 0x14 => (a <<< (b.toNat % 32), m)
  | 0x15 => (a >>> (b.toNat % 32), m)
  | 0x16 => (a.sshiftRight (b.toNat % 32), m)
  | _ => (b, m)

/-- Execute `(operator, access)` pairs. -/
def exec (w : World) : List (Nat × Access) → Word × Mach → Word × Mach
  | [], s => s
  | (op, a) :: r, (acc, m) =>
    let (x, m') := fetch w acc a m
    exec w r (evalOp op acc x m')

/-- A whole program: the first access has operator "add" on an accumulator of 0. -/
def runProgram (w : World) (p : Access × List (Nat × Access)) (m : Mach) : Word × Mach :=
  exec w ((0, p.1) :: p.2) (0, m)

/-! ## Byte format -/

/-- Little-endian dword. -/
def dword : List UInt8 → Option (Word × List UInt8)
  | a :: b :: c :: d :: r =>
    some (BitVec.ofNat 32 (a.toNat + 256 * b.toNat + 65536 * c.toNat + 16777216 * d.toNat), r)
  | _ => none

/-- One access; the Boolean tells whether another follows. -/
def parseAccess : List UInt8 → Option (Access × Bool × List UInt8)
  | [] => none
  | v :: r => do
    let (p, r) ← (if hasParam v.toNat then match r with
      | [] => none
      | p :: r => some (p.toNat, r)
      else some (0, r))
    match r with
    | [] => none
    | adj :: r => do
      let (mask, r) ← dword r
      let type := adj.toNat / 64
      let cont := adj.toNat / 32 % 2 == 1
      if type = 0 then
        some ({ var := v.toNat, param := p, shift := adj.toNat % 32, mask := mask }, cont, r)
      else do
        let (add, r) ← dword r
        let (dm, r) ← dword r
        some ({ var := v.toNat, param := p, shift := adj.toNat % 32, mask := mask, type := type,
                add := add, divmod := dm }, cont, r)

/-- The rest of a chain: operator byte then access, until an access without continuation. -/
def parseRest : Nat → List UInt8 → Option (List (Nat × Access) × List UInt8)
  | 0, _ => none
  | fuel + 1, bs =>
    match bs with
    | [] => none
    | op :: r => do
      let (a, cont, r) ← parseAccess r
      if cont then do
        let (l, r) ← parseRest fuel r
        some ((op.toNat, a) :: l, r)
      else some ([(op.toNat, a)], r)

/-- A chain of accesses. -/
def parseProgram (bs : List UInt8) : Option ((Access × List (Nat × Access)) × List UInt8) := do
  let (a, cont, r) ← parseAccess bs
  if cont then do
    let (l, r) ← parseRest r.length r
    some ((a, l), r)
  else some ((a, []), r)

end Spec
