import Verif.Spec.DecodedSem
import Verif.Props.Compile
/-!
# C23, C24: comparison operators, simplification and decoding
-/
set_option linter.unusedSimpArgs false
namespace Grf
open Spec

theorem evalOp_cmp (x y : Word) (m : Mach) :
    (x.toInt < y.toInt ∧ evalOp 0x12 x y m = (0, m)) ∨ (x = y ∧ evalOp 0x12 x y m = (1, m)) ∨
    (y.toInt < x.toInt ∧ evalOp 0x12 x y m = (2, m)) := by
  simp only [evalOp, cmp3]
  by_cases h : x = y
  · right; left; simp [h]
  · have hne : x.toInt ≠ y.toInt := fun e => h (BitVec.eq_of_toInt_eq e)
    by_cases hl : x.toInt < y.toInt
    · left
      refine ⟨hl, ?_⟩
      have : x.slt y = true := by rw [BitVec.slt_iff_toInt_lt]; exact hl
      simp [h, this]
    · right; right
      refine ⟨by omega, ?_⟩
      have : x.slt y = false := by
        rw [Bool.eq_false_iff]; intro hs
        rw [BitVec.slt_iff_toInt_lt] at hs; exact hl hs
      simp [h, this]

theorem shru_and_one (x : Word) (n : Nat) :
    (x >>> n) &&& 1#32 = if x.getLsbD n = true then 1#32 else 0#32 := by
  apply BitVec.eq_of_getLsbD_eq
  intro i hi
  by_cases h0 : i = 0
  · subst h0
    by_cases hx : x.getLsbD n = true
    · simp [hx]
    · simp [hx]
  · have : (1#32).getLsbD i = false := by simp [BitVec.getLsbD_one, h0]
    rw [BitVec.getLsbD_and, this, Bool.and_false]
    split
    · rw [this]
    · simp

/-- The word computed by a lowering. -/
def chain (c : Cmp) (x y : Word) (m : Mach) : Word :=
  let (o, (p, pv), q) := c.lowering
  let r := (evalOp p.toNat (evalOp o.toNat x y m).1 (BitVec.ofInt 32 pv) m).1
  match q with
  | some (q, qv) => (evalOp q.toNat r (BitVec.ofInt 32 qv) m).1
  | none => r

theorem chain_value (c : Cmp) (x y : Word) (m : Mach) : chain c x y m = Cmp.value c x y := by
  have h12 : (OP_CMP).toNat = 0x12 := rfl
  have h15 : (OP_SHRU).toNat = 0x15 := rfl
  have h01 : OP_SUB.toNat = 0x01 := rfl
  have h02 : OP_MIN.toNat = 0x02 := rfl
  have h03 : OP_MAX.toNat = 0x03 := rfl
  have h0b : OP_AND.toNat = 0x0b := rfl
  have h0d : OP_XOR.toNat = 0x0d := rfl
  cases c
  case HASBIT =>
    simp only [chain, Cmp.lowering, h15, Cmp.value]
    show (x >>> (y.toNat % 32)) &&& BitVec.ofInt 32 1 = _
    have := shru_and_one x (y.toNat % 32)
    have e : (BitVec.ofInt 32 1) = 1#32 := rfl
    rw [e, this]
    by_cases hx : x.getLsbD (y.toNat % 32) = true
    · rw [if_pos hx, if_pos (c := Cmp.holds .HASBIT x y) hx]; rfl
    · rw [if_neg hx, if_neg (c := Cmp.holds .HASBIT x y) hx]; rfl
  case NHASBIT =>
    simp only [chain, Cmp.lowering, h15, Cmp.value]
    show ((x >>> (y.toNat % 32)) &&& BitVec.ofInt 32 1) ^^^ BitVec.ofInt 32 1 = _
    have := shru_and_one x (y.toNat % 32)
    have e : (BitVec.ofInt 32 1) = 1#32 := rfl
    rw [e, this]
    by_cases hx : x.getLsbD (y.toNat % 32) = true
    · rw [if_pos hx, if_neg (c := Cmp.holds .NHASBIT x y) (show ¬ (_ = false) by simp [hx])]; rfl
    · rw [if_neg hx, if_pos (c := Cmp.holds .NHASBIT x y) (show _ = false by simpa using hx)]; rfl
  all_goals
    simp only [chain, Cmp.lowering, h12, Cmp.value]
    rcases evalOp_cmp x y m with ⟨h, e⟩ | ⟨rfl, e⟩ | ⟨h, e⟩
  all_goals rw [e]
  case LT.inl => rw [if_pos (c := Cmp.holds .LT x y) (show (x.toInt < y.toInt) from h)]; simp only [h01, h02, h03, h0b, h0d, evalOp]; decide
  case LT.inr.inl => rw [if_neg (c := Cmp.holds .LT x x) (show ¬ (x.toInt < x.toInt) from (by omega))]; simp only [h01, h02, h03, h0b, h0d, evalOp]; decide
  case LT.inr.inr => rw [if_neg (c := Cmp.holds .LT x y) (show ¬ (x.toInt < y.toInt) from (by omega))]; simp only [h01, h02, h03, h0b, h0d, evalOp]; decide
  case GT.inl => rw [if_neg (c := Cmp.holds .GT x y) (show ¬ (y.toInt < x.toInt) from (by omega))]; simp only [h01, h02, h03, h0b, h0d, evalOp]; decide
  case GT.inr.inl => rw [if_neg (c := Cmp.holds .GT x x) (show ¬ (x.toInt < x.toInt) from (by omega))]; simp only [h01, h02, h03, h0b, h0d, evalOp]; decide
  case GT.inr.inr => rw [if_pos (c := Cmp.holds .GT x y) (show (y.toInt < x.toInt) from h)]; simp only [h01, h02, h03, h0b, h0d, evalOp]; decide
  case LE.inl => rw [if_pos (c := Cmp.holds .LE x y) (show (x.toInt ≤ y.toInt) from (by omega))]; simp only [h01, h02, h03, h0b, h0d, evalOp]; decide
  case LE.inr.inl => rw [if_pos (c := Cmp.holds .LE x x) (show (x.toInt ≤ x.toInt) from (by omega))]; simp only [h01, h02, h03, h0b, h0d, evalOp]; decide
  case LE.inr.inr => rw [if_neg (c := Cmp.holds .LE x y) (show ¬ (x.toInt ≤ y.toInt) from (by omega))]; simp only [h01, h02, h03, h0b, h0d, evalOp]; decide
  case GE.inl => rw [if_neg (c := Cmp.holds .GE x y) (show ¬ (y.toInt ≤ x.toInt) from (by omega))]; simp only [h01, h02, h03, h0b, h0d, evalOp]; decide
  case GE.inr.inl => rw [if_pos (c := Cmp.holds .GE x x) (show (x.toInt ≤ x.toInt) from (by omega))]; simp only [h01, h02, h03, h0b, h0d, evalOp]; decide
  case GE.inr.inr => rw [if_pos (c := Cmp.holds .GE x y) (show (y.toInt ≤ x.toInt) from (by omega))]; simp only [h01, h02, h03, h0b, h0d, evalOp]; decide
  case EQ.inl => rw [if_neg (c := Cmp.holds .EQ x y) (show ¬ (x = y) from (by rintro rfl; omega))]; simp only [h01, h02, h03, h0b, h0d, evalOp]; decide
  case EQ.inr.inl => rw [if_pos (c := Cmp.holds .EQ x x) (show (x = x) from rfl)]; simp only [h01, h02, h03, h0b, h0d, evalOp]; decide
  case EQ.inr.inr => rw [if_neg (c := Cmp.holds .EQ x y) (show ¬ (x = y) from (by rintro rfl; omega))]; simp only [h01, h02, h03, h0b, h0d, evalOp]; decide
  case NEQ.inl => rw [if_pos (c := Cmp.holds .NEQ x y) (show (x ≠ y) from (by rintro rfl; omega))]; simp only [h01, h02, h03, h0b, h0d, evalOp]; decide
  case NEQ.inr.inl => rw [if_neg (c := Cmp.holds .NEQ x x) (show ¬ (x ≠ x) from (by simp))]; simp only [h01, h02, h03, h0b, h0d, evalOp]; decide
  case NEQ.inr.inr => rw [if_pos (c := Cmp.holds .NEQ x y) (show (x ≠ y) from (by rintro rfl; omega))]; simp only [h01, h02, h03, h0b, h0d, evalOp]; decide

/-! ## C23 -/

/-- Operands of a binary operator in the compiler's evaluation order. -/
def evalPair (w : World) (ns : Names) (a b : Node) (s : SState) : Option (Word × Word × SState) :=
  if Simple b then do
    let (x, s) ← eval w ns a s
    let (y, s) ← eval w ns b s
    some (x, y, s)
  else do
    let (y, s) ← eval w ns b s
    let (x, s) ← eval w ns a s
    some (x, y, s)

theorem eval_expr_pair (w : World) (ns : Names) (op : Int) (a b : Node) (s : SState) :
    eval w ns (.expr op a b) s = (evalPair w ns a b s).bind (fun p =>
      (applyOp op p.1 p.2.1 p.2.2.mach).map (fun z => (z.1, { p.2.2 with mach := z.2 }))) := by
  unfold evalPair
  simp only [eval]
  split
  · simp only [Option.bind_eq_bind, Option.bind_assoc]
    congr 1; funext p; congr 1; funext q
    simp only [Option.bind_some]
    cases applyOp op p.1 q.1 q.2.mach <;> rfl
  · simp only [Option.bind_eq_bind, Option.bind_assoc]
    congr 1; funext p; congr 1; funext q
    simp only [Option.bind_some]
    cases applyOp op q.1 p.1 q.2.mach <;> rfl

/-- Operators used in lowerings have no side effect. -/
def SafeOp (op : Int) : Prop := op ∈ [OP_SUB, OP_MIN, OP_MAX, OP_AND, OP_XOR, OP_CMP, OP_SHRU]

theorem applyOp_safe {op : Int} (h : SafeOp op) (x y : Word) (m m0 : Mach) :
    applyOp op x y m = some ((evalOp op.toNat x y m0).1, m) := by
  simp only [SafeOp, List.mem_cons, List.not_mem_nil, or_false] at h
  rcases h with rfl | rfl | rfl | rfl | rfl | rfl | rfl <;> rfl

theorem lowering_safe (c : Cmp) : SafeOp c.lowering.1 ∧ SafeOp c.lowering.2.1.1 ∧
    ∀ q ∈ c.lowering.2.2, SafeOp q.1 := by
  cases c <;> simp [Cmp.lowering, SafeOp]

theorem eval_step {w : World} {ns : Names} {e : Node} {op pv : Int} (hop : SafeOp op) (s : SState) (m0 : Mach) :
    eval w ns (.expr op e (.value pv)) s =
      (eval w ns e s).map (fun p => ((evalOp op.toNat p.1 (BitVec.ofInt 32 pv) m0).1, p.2)) := by
  simp only [eval, Simple, if_true, Option.bind_eq_bind, Option.bind_some]
  cases eval w ns e s with
  | none => rfl
  | some p => simp [applyOp_safe hop _ _ _ m0]

/-- **C23** The code built for each comparison (and bit test) evaluates its operands as usual and
yields 1 if the relation holds and 0 otherwise. -/
theorem comparison_value (c : Cmp) (w : World) (ns : Names) (a b : Node) (s : SState) :
    eval w ns (lowerCmp c a b) s =
      (evalPair w ns a b s).map (fun p => (if Cmp.holds c p.1 p.2.1 then 1 else 0, p.2.2)) := by
  obtain ⟨h1, h2, h3⟩ := lowering_safe c
  have m0 : Mach := ⟨fun _ => 0, fun _ => 0⟩
  have hv := fun x y => chain_value c x y m0
  unfold lowerCmp
  unfold chain at hv
  generalize c.lowering = l at h1 h2 h3 hv
  obtain ⟨o, ⟨p, pv⟩, q⟩ := l
  simp only at h1 h2 h3 hv ⊢
  have base : eval w ns (Node.expr o a b) s =
      (evalPair w ns a b s).map (fun p => ((evalOp o.toNat p.1 p.2.1 m0).1, p.2.2)) := by
    rw [eval_expr_pair]
    cases evalPair w ns a b s with
    | none => rfl
    | some r => simp [applyOp_safe h1 _ _ _ m0]
  cases q with
  | none =>
    simp only at hv ⊢
    rw [eval_step h2 s m0, base, Option.map_map]
    congr 1
    funext r
    simp only [Function.comp, hv]
    rfl
  | some q =>
    obtain ⟨q, qv⟩ := q
    simp only at hv ⊢
    rw [eval_step (h3 _ rfl) s m0, eval_step h2 s m0, base, Option.map_map, Option.map_map]
    congr 1
    funext r
    simp only [Function.comp, hv]
    rfl

/-- **C23**, end to end (partial in the sense of C21): compiled code for a comparison of two
side-effect free expressions yields 1 or 0 on the machine. -/
theorem compiled_comparison_partial (c : Cmp) (T : Tables) (a b : Node) (bs bs' rest : Bytes) (c' : Ctx)
    (hwa : WfNode T a) (hwb : WfNode T b) (hd : DynParam b = false)
    (hc : compileLines T [lowerCmp c a b] Ctx.init = some (bs, c')) (he : markEnd bs = some bs') :
    ∃ prog, parseProgram (bs' ++ rest) = some (prog, rest) ∧
      ∀ w : World, w.Ok → ∀ m x y, evalPure w T.names a (SState.start m) = some x →
        evalPure w T.names b (SState.start m) = some y →
        ∃ m', runProgram w prog m = (if Cmp.holds c x y then 1 else 0, m') ∧ Agree m m' := by
  have hwf : WfNode T (lowerCmp c a b) := by
    have hv : ∀ k, DynParam (.value k) = false := fun _ => rfl
    cases c <;> simp [lowerCmp, Cmp.lowering, WfNode, hwa, hwb, hd, hv]
  obtain ⟨prog, h1, h2⟩ := compiled_switch_computes_source_partial T [lowerCmp c a b] bs bs' rest c'
    (by simpa using hwf) hc he
  refine ⟨prog, h1, fun w hw m x y hx hy => ?_⟩
  refine h2 w hw m _ (SState.start m) ?_
  show eval w T.names (lowerCmp c a b) (SState.start m) = _
  rw [comparison_value]
  have : evalPair w T.names a b (SState.start m) = some (x, y, SState.start m) := by
    unfold evalPair
    simp [eval_of_evalPure _ _ _ _ _ hx, eval_of_evalPure _ _ _ _ _ hy]
  rw [this]; rfl

/-- Non-vacuity: `var(0x40) <= TEMP[1] - 7`. -/
example : let a : Node := .gvar 0x40 0 0xffff
    let b : Node := .expr 0x01 (.temp (.value 1)) (.value 7)
    WfNode emptyTables a ∧ WfNode emptyTables b ∧ DynParam b = false ∧
    (compileSwitch emptyTables [lowerCmp .LE a b]).isSome = true ∧
    evalPure exampleWorld emptyTables.names a (SState.start zeroMach) = some 0x2345 ∧
    evalPure exampleWorld emptyTables.names b (SState.start zeroMach) = some (-7) := by
  refine ⟨by simp [WfNode, hasParam], by simp [WfNode, DynParam], rfl, by decide, by decide, by decide⟩

end Grf
