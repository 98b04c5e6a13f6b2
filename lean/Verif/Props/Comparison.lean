import Verif.Props.Link
import Verif.Props.Operators
/-!
# C23 end to end: compiled comparisons, with procedures and side effects
-/
namespace Grf
open Spec

/-- Operands of a binary operator in the compiler's evaluation order, with procedures. -/
def evalPairS (w : SWorld) (ns : Names) (a b : Node) (s : SState) : Option (Word × Word × SState) :=
  if Simple b then do
    let (x, s) ← evalS w ns a s
    let (y, s) ← evalS w ns b s
    some (x, y, s)
  else do
    let (y, s) ← evalS w ns b s
    let (x, s) ← evalS w ns a s
    some (x, y, s)

theorem evalS_expr_pair (w : SWorld) (ns : Names) (op : Int) (a b : Node) (s : SState) :
    evalS w ns (.expr op a b) s = (evalPairS w ns a b s).bind (fun p =>
      (applyOp op p.1 p.2.1 p.2.2.mach).map (fun z => (z.1, { p.2.2 with mach := z.2 }))) := by
  unfold evalPairS
  simp only [evalS]
  split
  · simp only [Option.bind_eq_bind, Option.bind_assoc]
    congr 1; funext p; congr 1; funext q
    simp only [Option.bind_some]
    cases applyOp op p.1 q.1 q.2.mach <;> rfl
  · simp only [Option.bind_eq_bind, Option.bind_assoc]
    congr 1; funext p; congr 1; funext q
    simp only [Option.bind_some]
    cases applyOp op q.1 p.1 q.2.mach <;> rfl

theorem evalS_step {w : SWorld} {ns : Names} {e : Node} {op pv : Int} (hop : SafeOp op) (s : SState) (m0 : Mach) :
    evalS w ns (.expr op e (.value pv)) s =
      (evalS w ns e s).map (fun p => ((evalOp op.toNat p.1 (BitVec.ofInt 32 pv) m0).1, p.2)) := by
  simp only [evalS, Simple, if_true, Option.bind_eq_bind, Option.bind_some]
  cases evalS w ns e s with
  | none => rfl
  | some p => simp [applyOp_safe hop _ _ _ m0]

/-- The source of a comparison means: evaluate both operands, then 1 if the relation holds and 0 otherwise. -/
theorem comparison_means (c : Cmp) (w : SWorld) (ns : Names) (a b : Node) (s : SState) :
    evalS w ns (lowerCmp c a b) s =
      (evalPairS w ns a b s).map (fun p => (if Cmp.holds c p.1 p.2.1 then 1 else 0, p.2.2)) := by
  obtain ⟨h1, h2, h3⟩ := lowering_safe c
  have m0 : Mach := ⟨fun _ => 0, fun _ => 0⟩
  have hv := fun x y => chain_value c x y m0
  unfold lowerCmp
  unfold chain at hv
  generalize c.lowering = l at h1 h2 h3 hv
  obtain ⟨o, ⟨p, pv⟩, q⟩ := l
  simp only at h1 h2 h3 hv ⊢
  have base : evalS w ns (Node.expr o a b) s =
      (evalPairS w ns a b s).map (fun p => ((evalOp o.toNat p.1 p.2.1 m0).1, p.2.2)) := by
    rw [evalS_expr_pair]
    cases evalPairS w ns a b s with
    | none => rfl
    | some r => simp [applyOp_safe h1 _ _ _ m0]
  cases q with
  | none =>
    simp only at hv ⊢
    rw [evalS_step h2 s m0, base, Option.map_map]
    congr 1
    funext r
    simp only [Function.comp, hv]
    rfl
  | some q =>
    obtain ⟨q, qv⟩ := q
    simp only at hv ⊢
    rw [evalS_step (h3 _ rfl) s m0, evalS_step h2 s m0, base, Option.map_map, Option.map_map]
    congr 1
    funext r
    simp only [Function.comp, hv]
    rfl

/-- **C23** (whole programs) The bytes emitted for a comparison of any two operands inside the boundary of C21 (nested to any depth, with
side effects and calls) evaluate both operands, and the program ends with 1 if the relation holds between the two values and with 0
otherwise, in the state the operands leave. -/
theorem compiled_comparison (c : Cmp) (var : Nat → Word → Mach → Word) (hvar : ∀ v p a b, Agree a b → var v p a = var v p b)
    (ps : List Proc) (hps : WellLinked ps) (hpw : ∀ p ∈ ps, ∀ x ∈ p.lines, WfNode p.T x)
    (T : Tables) (a b : Node) (bs rest : Bytes) (hwa : WfNode T a) (hwb : WfNode T b) (hd : DynParam b = false)
    (hco : CallsOkLines T (keeper ps) [lowerCmp c a b] false = true) (hc : compileSwitch T [lowerCmp c a b] = some bs) :
    ∃ prog, parseProgram (bs ++ rest) = some (prog, rest) ∧
      ∀ m x y s', evalPairS (srcWorld var ps) T.names a b (SState.start m) = some (x, y, s') →
        ∃ m', runProgram (machWorld var ps) prog m = (if Cmp.holds c x y then 1 else 0, m') ∧ Agree s'.mach m' := by
  have hwf : WfNode T (lowerCmp c a b) := by
    have hv : ∀ k, DynParam (.value k) = false := fun _ => rfl
    cases c <;> simp [lowerCmp, Cmp.lowering, WfNode, hwa, hwb, hd, hv]
  obtain ⟨prog, h1, h2⟩ := compiled_program_computes_source var hvar ps hps hpw T [lowerCmp c a b] bs rest
    (by simpa using hwf) hco hc
  refine ⟨prog, h1, fun m x y s' he => ?_⟩
  refine h2 m _ s' ?_
  show evalS (srcWorld var ps) T.names (lowerCmp c a b) (SState.start m) = _
  rw [comparison_means, he]
  rfl

/-- `TEMP[1] - 7 > PERM[2] + var(0x40)`. -/
def cmpCase : Node :=
  lowerCmp .GT (.expr OP_SUB (.temp (.value 1)) (.value 7)) (.expr 0x00 (.perm (.value 2)) (.gvar 0x40 0 0xff))

/-- Nested operands meet the hypotheses of `compiled_comparison`. -/
example : (compileSwitch emptyTables [cmpCase]).isSome = true ∧ CallsOkLines emptyTables (keeper []) [cmpCase] false = true ∧
    WfNode emptyTables (.expr OP_SUB (.temp (.value 1)) (.value 7)) ∧
    WfNode emptyTables (.expr 0x00 (.perm (.value 2)) (.gvar 0x40 0 0xff)) :=
  ⟨by decide +kernel, by decide +kernel, by simp [WfNode, DynParam], by simp [WfNode, DynParam, hasParam]⟩

end Grf
