import Verif.Spec.Supported
/-!
# Specification: linked procedures, and what the emitted code of any accepted source means (C21, C22)

Here nothing is assumed about the registers a called procedure changes: a procedure is itself the compiled code of a source.
-/
namespace Spec
open Grf

/-- The rest of the game as a source program sees it: variables, and procedures that may be undefined. -/
structure SWorld where
  var : Nat → Word → Mach → Word
  call : Nat → Mach → Option (Word × Mach)

/-- The variables only. -/
def SWorld.vars (w : SWorld) : World := ⟨w.var, fun _ m => (0, m)⟩

/-- The game `w` seen by a source program. -/
def World.src (w : World) : SWorld := ⟨w.var, fun n m => some (w.call n m)⟩

/-- Direct meaning of an expression: `eval` of `Verif/Spec/ExprSem.lean` with procedures that may be undefined. -/
def evalS (w : SWorld) (ns : Names) : Node → SState → Option (Word × SState)
  | .value v, s => some (BitVec.ofInt 32 v, s)
  | .var n, s =>
    match ns.table n with
    | some d => do
      let x ← readNum w.vars d.var (BitVec.ofNat 32 (d.param.getD 0)) s.mach
      some (bits x d.start (2 ^ d.size - 1), s)
    | none => do
      let x ← s.vars n
      some (x, s)
  | .gvar v sh mask, s => do
    let x ← readNum w.vars v.toNat 0 s.mach
    some (bits x sh.toNat mask, s)
  | .gvarP v sh mask p, s => do
    let (i, s) ← evalS w ns p s
    let x ← readNum w.vars v.toNat i s.mach
    some (bits x sh.toNat mask, s)
  | .gvarDiv .., _ => none
  | .gvarDivP .., _ => none
  | .temp r, s => do
    let (i, s) ← evalS w ns r s
    let x ← readNum w.vars 0x7d i s.mach
    some (x, s)
  | .perm r, s => do
    let (i, s) ← evalS w ns r s
    some (s.mach.perm i.toNat, s)
  | .call n, s => do
    let (x, m) ← w.call n.toNat s.mach
    some (x, { s with mach := m })
  | .callName n, s => do
    let i ← ns.subs n
    let (x, m) ← w.call i s.mach
    some (x, { s with mach := m })
  | .expr op a b, s =>
    if Simple b then do
      let (x, s) ← evalS w ns a s
      let (y, s) ← evalS w ns b s
      let (z, m) ← applyOp op x y s.mach
      some (z, { s with mach := m })
    else do
      let (y, s) ← evalS w ns b s
      let (x, s) ← evalS w ns a s
      let (z, m) ← applyOp op x y s.mach
      some (z, { s with mach := m })
  | .assign n e, s => do
    let (x, s) ← evalS w ns e s
    some (x, { s with vars := fun k => if k = n then some x else s.vars k })

/-- Lines in order, the value is that of the last line. -/
def evalLinesS (w : SWorld) (ns : Names) : List Node → SState → Option (Word × SState)
  | [], _ => none
  | [e], s => evalS w ns e s
  | e :: es, s => do
    let (_, s) ← evalS w ns e s
    evalLinesS w ns es s

/-- What stands before an expression: nothing, or the value computed so far with the operator that combines it with the next
operand. -/
abbrev Front := Option (Int × Word)

/-- Combine the value computed so far with the operand `x`. -/
def thread (f : Front) (x : Word) (s : SState) : Option (Word × SState) :=
  match f with
  | none => some (x, s)
  | some (op, a) => do
    let (z, m) ← applyOp op a x s.mach
    some (z, { s with mach := m })

/-- A constant. -/
def constOf : Node → Option Int
  | .value v => some v
  | _ => none

/-- Operands grf-py treats as a single value: single accesses, and variables with any parameter. -/
def ValueLike (e : Node) : Bool := Simple e || DynParam e

/-- What the emitted code of an expression computes when `f` stands before it: the operator of `f` combines with the *first
access* of the code. For operands that are a single access this is the operator applied to the operand; for a variable with a
computed parameter it is applied to the first access of the *parameter*. -/
def evalF (w : SWorld) (ns : Names) : Node → Front → SState → Option (Word × SState)
  | .value v, f, s => thread f (BitVec.ofInt 32 v) s
  | .var n, f, s =>
    match ns.table n with
    | some d => do
      let x ← readNum w.vars d.var (BitVec.ofNat 32 (d.param.getD 0)) s.mach
      thread f (bits x d.start (2 ^ d.size - 1)) s
    | none => do
      let x ← s.vars n
      thread f x s
  | .gvar v sh mask, f, s => do
    let x ← readNum w.vars v.toNat 0 s.mach
    thread f (bits x sh.toNat mask) s
  | .gvarP v sh mask p, f, s =>
    if Simple (.gvarP v sh mask p) then do
      let (i, s) ← evalF w ns p none s
      let x ← readNum w.vars v.toNat i s.mach
      thread f (bits x sh.toNat mask) s
    else do
      let (i, s) ← evalF w ns p f s
      let x ← readNum w.vars v.toNat i s.mach
      some (bits x sh.toNat mask, s)
  | .gvarDiv .., _, _ => none
  | .gvarDivP .., _, _ => none
  | .temp r, f, s =>
    if Simple (.temp r) then do
      let (i, s) ← evalF w ns r none s
      let x ← readNum w.vars 0x7d i s.mach
      thread f x s
    else do
      let (i, s) ← evalF w ns r f s
      let x ← readNum w.vars 0x7d i s.mach
      some (x, s)
  | .perm r, f, s =>
    if Simple (.perm r) then do
      let (i, s) ← evalF w ns r none s
      thread f (s.mach.perm i.toNat) s
    else do
      let (i, s) ← evalF w ns r f s
      some (s.mach.perm i.toNat, s)
  | .call n, f, s => do
    let (x, m) ← w.call n.toNat s.mach
    thread f x { s with mach := m }
  | .callName n, f, s => do
    let i ← ns.subs n
    let (x, m) ← w.call i s.mach
    thread f x { s with mach := m }
  | .expr op a b, f, s =>
    if ValueLike b then do
      let (x, s) ← evalF w ns a f s
      evalF w ns b (some (op, x)) s
    else do
      let (y, s) ← evalF w ns b f s
      let (x, s) ← evalF w ns a none s
      thread (some (op, x)) y s
  | .assign n e, f, s => do
    let (x, s) ← evalF w ns e f s
    some (x, { s with vars := fun k => if k = n then some x else s.vars k })

/-- Lines in order, the value is that of the last line. -/
def evalLinesF (w : SWorld) (ns : Names) : List Node → SState → Option (Word × SState)
  | [], _ => none
  | [e], s => evalF w ns e none s
  | e :: es, s => do
    let (_, s) ← evalF w ns e none s
    evalLinesF w ns es s

/-- Some part of the expression is an assignment to a named variable. -/
def assigns : Node → Bool
  | .gvarP _ _ _ p => assigns p
  | .temp r => assigns r
  | .perm r => assigns r
  | .expr _ a b => assigns a || assigns b
  | .assign .. => true
  | _ => false

/-- Static well-formedness, with variables with computed parameter allowed as right operands (but then no assignment in
either operand). -/
def WfAny (T : Tables) : Node → Prop
  | .value _ => True
  | .var n => ∀ d, T.varTable n = some d → hasParam d.var = d.param.isSome
  | .gvar v _ _ => hasParam v.toNat = false
  | .gvarP v a b p => WfAny T p ∧ (DynParam (.gvarP v a b p) = false → hasParam v.toNat = true)
  | .gvarDiv .. => True
  | .gvarDivP .. => True
  | .temp r => WfAny T r
  | .perm r => WfAny T r
  | .call _ => True
  | .callName _ => True
  | .expr _ a b => WfAny T a ∧ WfAny T b ∧ (DynParam b = true → assigns a = false ∧ assigns b = false)
  | .assign _ e => WfAny T e

/-- No compound right operand and no named variable, and only procedures in `keeps` are called: the code needs no register. -/
def RegFree (T : Tables) (keeps : Nat → Bool) : Node → Bool
  | .gvarP _ _ _ p => RegFree T keeps p
  | .temp r => RegFree T keeps r
  | .perm r => RegFree T keeps r
  | .call n => keeps n.toNat
  | .callName n => match T.names.subs n with
    | some i => keeps i
    | none => true
  | .expr _ a b => RegFree T keeps a && RegFree T keeps b && ValueLike b
  | .assign .. => false
  | _ => true

/-- Calls are made only while no register is live (`live`: some may be), or to procedures in `keeps`. -/
def CallsOk (T : Tables) (keeps : Nat → Bool) : Node → (live : Bool) → Bool
  | .gvarP _ _ _ p, live => CallsOk T keeps p live
  | .temp r, live => CallsOk T keeps r live
  | .perm r, live => CallsOk T keeps r live
  | .call n, live => !live || keeps n.toNat
  | .callName n, live => match T.names.subs n with
    | some i => !live || keeps i
    | none => true
  | .expr _ a b, live =>
    if ValueLike b then CallsOk T keeps a live && CallsOk T keeps b (live || assigns a)
    else CallsOk T keeps b live && CallsOk T keeps a true
  | .assign _ e, live => CallsOk T keeps e live
  | _, _ => true

/-- The same for lines: after an assignment a register is live. -/
def CallsOkLines (T : Tables) (keeps : Nat → Bool) : List Node → Bool → Bool
  | [], _ => true
  | e :: es, live => CallsOk T keeps e live && CallsOkLines T keeps es (live || assigns e)

/-- A procedure: its number, the names it can use, its source, and what the game makes of the computed value (the range table of
the switch, or cutting it to 15 bits). -/
structure Proc where
  id : Nat
  T : Tables
  lines : List Node
  res : Word → Word

/-- Source level meaning of procedures; the first in the list is the one defined last, and it can call the others. -/
def srcWorld (var : Nat → Word → Mach → Word) : List Proc → SWorld
  | [] => ⟨var, fun _ _ => none⟩
  | p :: ps => ⟨var, fun n m =>
      if n = p.id then do
        let (v, s) ← evalLinesS (srcWorld var ps) p.T.names p.lines ⟨m, fun _ => none⟩
        some (p.res v, s.mach)
      else (srcWorld var ps).call n m⟩

/-- The same with the meaning of the emitted code. -/
def codeWorld (var : Nat → Word → Mach → Word) : List Proc → SWorld
  | [] => ⟨var, fun _ _ => none⟩
  | p :: ps => ⟨var, fun n m =>
      if n = p.id then do
        let (v, s) ← evalLinesF (codeWorld var ps) p.T.names p.lines ⟨m, fun _ => none⟩
        some (p.res v, s.mach)
      else (codeWorld var ps).call n m⟩

/-- The procedures that change no reserved register. -/
def keeper : List Proc → Nat → Bool
  | [], _ => false
  | p :: ps, n => if n = p.id then p.lines.all (RegFree p.T (keeper ps)) else keeper ps n

end Spec
