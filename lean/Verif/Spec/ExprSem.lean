import Verif.Model.Ast
import Verif.Spec.VA2
/-!
# Specification: meaning of expressions

Direct (denotational) meaning of grf-py expressions, without registers allocated by a compiler. The
temporary registers `0x80..0xff` are reserved for the compiler; a source program touching them has no
defined meaning here (`none`).

Evaluation order (only observable when operands have side effects): a simple right operand is
evaluated after the left operand, a compound right operand before it. For expressions without
assignments, stores and calls the order is irrelevant, see `evalPure`.
-/
namespace Spec
open Grf

/-- Registers reserved for the compiler. -/
def Reserved (r : Nat) : Prop := 0x80 ≤ r ∧ r < 0x100

instance (r : Nat) : Decidable (Reserved r) := by unfold Reserved; infer_instance

/-- Names known to the source program: table variables and procedures. -/
structure Names where
  table : String → Option VarData
  subs : String → Option Nat

/-- Source level state. -/
structure SState where
  mach : Mach
  vars : String → Option Word

/-- Value of a numbered variable; reading reserved registers is undefined, and `0x7B`/`0x7E` are not
values of their own. -/
def readNum (w : World) (v : Nat) (p : Word) (m : Mach) : Option Word :=
  if v = 0x7b ∨ v = 0x7e then none
  else if v = 0x7d ∧ Reserved p.toNat then none
  else some (getVar w v p m)

/-- Shift and mask. -/
def bits (x : Word) (shift : Nat) (mask : Int) : Word := (x >>> shift) &&& BitVec.ofInt 32 mask

/-- Right operands that are a single access to a value. -/
def Simple : Node → Bool
  | .value _ => true
  | .var _ => true
  | .gvar .. => true
  | .gvarP _ _ _ (.value p) => p ≤ 255
  | .temp (.value _) => true
  | .perm (.value _) => true
  | .call _ => true
  | .callName _ => true
  | _ => false

/-- Apply a binary operator; stores to reserved registers are undefined. -/
def applyOp (op : Int) (a b : Word) (m : Mach) : Option (Word × Mach) :=
  if 0 ≤ op ∧ op ≤ 0x16 ∧ op ≠ 0x0f then
    if op = 0x0e ∧ Reserved b.toNat then none else some (evalOp op.toNat a b m)
  else none

/-- Meaning of an expression: its value and the new state. -/
def eval (w : World) (ns : Names) : Node → SState → Option (Word × SState)
  | .value v, s => some (BitVec.ofInt 32 v, s)
  | .var n, s =>
    match ns.table n with
    | some d => do
      let x ← readNum w d.var (BitVec.ofNat 32 (d.param.getD 0)) s.mach
      some (bits x d.start (2 ^ d.size - 1), s)
    | none => do
      let x ← s.vars n
      some (x, s)
  | .gvar v sh mask, s => do
    let x ← readNum w v.toNat 0 s.mach
    some (bits x sh.toNat mask, s)
  | .gvarP v sh mask p, s => do
    let (i, s) ← eval w ns p s
    let x ← readNum w v.toNat i s.mach
    some (bits x sh.toNat mask, s)
  | .gvarDiv .., _ => none
  | .gvarDivP .., _ => none
  | .temp r, s => do
    let (i, s) ← eval w ns r s
    let x ← readNum w 0x7d i s.mach
    some (x, s)
  | .perm r, s => do
    let (i, s) ← eval w ns r s
    some (s.mach.perm i.toNat, s)
  | .call n, s =>
    let (x, m) := w.call n.toNat s.mach
    some (x, { s with mach := m })
  | .callName n, s => do
    let i ← ns.subs n
    let (x, m) := w.call i s.mach
    some (x, { s with mach := m })
  | .expr op a b, s =>
    if Simple b then do
      let (x, s) ← eval w ns a s
      let (y, s) ← eval w ns b s
      let (z, m) ← applyOp op x y s.mach
      some (z, { s with mach := m })
    else do
      let (y, s) ← eval w ns b s
      let (x, s) ← eval w ns a s
      let (z, m) ← applyOp op x y s.mach
      some (z, { s with mach := m })
  | .assign n e, s => do
    let (x, s) ← eval w ns e s
    some (x, { s with vars := fun k => if k = n then some x else s.vars k })

/-- Meaning of a code block: lines are evaluated in order, the value is that of the last line. -/
def evalLines (w : World) (ns : Names) : List Node → SState → Option (Word × SState)
  | [], _ => none
  | [e], s => eval w ns e s
  | e :: es, s => do
    let (_, s) ← eval w ns e s
    evalLines w ns es s

/-- Two machine states that agree on everything a source program can observe: persistent storage and
the temporary registers that are not reserved for the compiler. -/
def Agree (a b : Mach) : Prop := (∀ i, a.perm i = b.perm i) ∧ ∀ r, ¬ Reserved r → a.temp r = b.temp r

/-- Assumption on the rest of the game: variables and procedures do not look at the reserved
registers, and procedures do not change them. -/
structure World.Ok (w : World) : Prop where
  var_ok : ∀ v p a b, Agree a b → w.var v p a = w.var v p b
  call_val : ∀ n a b, Agree a b → (w.call n a).1 = (w.call n b).1
  call_agree : ∀ n a b, Agree a b → Agree (w.call n a).2 (w.call n b).2
  call_keeps : ∀ n a r, Reserved r → (w.call n a).2.temp r = a.temp r

/-- Operators without side effects as a function of two words. -/
def pureOp (op : Int) (a b : Word) : Option Word :=
  if 0 ≤ op ∧ op ≤ 0x16 ∧ op ≠ 0x0e ∧ op ≠ 0x0f ∧ op ≠ 0x10 then
    some (evalOp op.toNat a b ⟨fun _ => 0, fun _ => 0⟩).1
  else none

/-- Order-free meaning of side-effect free expressions (no assignment, store or call). -/
def evalPure (w : World) (ns : Names) : Node → SState → Option Word
  | .value v, _ => some (BitVec.ofInt 32 v)
  | .var n, s =>
    match ns.table n with
    | some d => do
      let x ← readNum w d.var (BitVec.ofNat 32 (d.param.getD 0)) s.mach
      some (bits x d.start (2 ^ d.size - 1))
    | none => s.vars n
  | .gvar v sh mask, s => do
    let x ← readNum w v.toNat 0 s.mach
    some (bits x sh.toNat mask)
  | .gvarP v sh mask p, s => do
    let i ← evalPure w ns p s
    let x ← readNum w v.toNat i s.mach
    some (bits x sh.toNat mask)
  | .temp r, s => do
    let i ← evalPure w ns r s
    readNum w 0x7d i s.mach
  | .perm r, s => do
    let i ← evalPure w ns r s
    some (s.mach.perm i.toNat)
  | .expr op a b, s => do
    let x ← evalPure w ns a s
    let y ← evalPure w ns b s
    pureOp op x y
  | _, _ => none

end Spec
