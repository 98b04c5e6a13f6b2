import Verif.Props.Registers
/-!
# C21/C22: which expressions the compiler accepts
-/
namespace Grf
open Spec

/-- Every number of the expression fits the field of the byte format it goes to, and all names are
known (`V`: assigned variables). -/
def Fits (T : Tables) (V : List (String × Nat)) : Node → Prop
  | .value _ => True
  | .var n => match T.varTable n with
    | some d => d.var < 256 ∧ d.start < 32 ∧ d.param.getD 0 < 256
    | none => V.lookup n ≠ none
  | .gvar v sh _ => 0 ≤ v ∧ v < 256 ∧ 0 ≤ sh ∧ sh < 32
  | .gvarP v sh _ p => 0 ≤ v ∧ v < 256 ∧ 0 ≤ sh ∧ sh < 32 ∧ Fits T V p ∧
      match p with | .value k => 0 ≤ k ∧ k < 2 ^ 32 | _ => True
  | .gvarDiv .. => False
  | .gvarDivP .. => False
  | .temp r => Fits T V r ∧ match r with | .value k => 0 ≤ k ∧ k < 256 | _ => True
  | .perm r => Fits T V r ∧ match r with | .value k => 0 ≤ k ∧ k < 256 | _ => True
  | .call n => 0 ≤ n ∧ n < 256
  | .callName n => ∃ i, T.subs n = some i ∧ 0 ≤ i ∧ i < 256
  | .expr op a b => 0 ≤ op ∧ op < 256 ∧ Fits T V a ∧ Fits T V b
  | .assign .. => False

/-- Number of registers needed: a compound right operand is kept in one register while the left operand is
evaluated. -/
def need : Node → Nat
  | .gvarP _ _ _ p => need p
  | .temp r => need r
  | .perm r => need r
  | .expr _ a b => if Simple b || DynParam b then max (need b) (need a) else max (need b) (need a + 1)
  | _ => 0

def freeRegs (c : Ctx) : Nat := ((List.range' 0x80 128).filter (fun r => decide (r ∉ c.used))).length

structure CtxFull (c : Ctx) : Prop where
  min_ge : 0x80 ≤ c.minReg
  full : ∀ r, 0x80 ≤ r → r < c.minReg → r ∈ c.used
  vars : ∀ n r, c.vars.lookup n = some r → 0x80 ≤ r ∧ r < 0x100

theorem packU_ok {k : Nat} {v : Int} (h0 : 0 ≤ v) (h1 : v < 256 ^ k) : ∃ b, packU k v = some b := by
  simp only [packU]
  rw [if_pos ⟨h0, h1⟩]; exact ⟨_, rfl⟩

theorem cat_ok {l : List (Option Bytes)} (h : ∀ x ∈ l, ∃ b, x = some b) : ∃ b, cat l = some b := by
  induction l with
  | nil => exact ⟨_, rfl⟩
  | cons x l ih =>
    obtain ⟨b, rfl⟩ := h _ List.mem_cons_self
    obtain ⟨r, hr⟩ := ih (fun y hy => h y (List.mem_cons_of_mem _ hy))
    simp [cat, hr]

theorem cat_cons_ok {x : Option Bytes} {l : List (Option Bytes)} (h : ∃ b, x = some b) (hl : ∃ b, cat l = some b) :
    ∃ b, cat (x :: l) = some b := by
  obtain ⟨b, rfl⟩ := h
  obtain ⟨r, hr⟩ := hl
  simp [cat, hr]

theorem cat_nil_ok : ∃ b, cat [] = some b := ⟨_, rfl⟩

theorem pyOr_ok {s : Int} (h0 : 0 ≤ s) (h1 : s < 32) : ∃ b, packU 1 (pyOr 0x20 s) = some b := by
  obtain ⟨n, rfl⟩ := Int.eq_ofNat_of_zero_le h0
  rw [pyOr32_nat n (by omega)]
  exact packU_ok (by omega) (by omega)

theorem freeRegs_congr {c c' : Ctx} (h : ∀ r, r ∈ c'.used ↔ r ∈ c.used) : freeRegs c' = freeRegs c := by
  unfold freeRegs
  congr 1
  apply List.filter_congr
  intro x _
  simp [h x]

theorem mask_ok (m : Int) : ∃ b, packU 4 (pyAnd FULL m) = some b := by
  rw [pyAnd_full_left]
  exact packU_ok (Int.emod_nonneg _ (by decide)) (Int.emod_lt_of_pos _ (by decide))

theorem mask_le (m : Int) : pyAnd FULL m ≤ 0xffffffff := by
  rw [pyAnd_full_left]
  have := Int.emod_lt_of_pos m (show (0 : Int) < 4294967296 by decide)
  omega

theorem full_ok : ∃ b, packU 4 FULL = some b := packU_ok (by decide) (by decide)

theorem guard_ok {s m : Int} (h1 : s < 32) (h2 : m ≤ 0xffffffff) : guardShift s m = some () := by
  unfold guardShift; rw [if_pos ⟨h1, h2⟩]

theorem packVar_ok {v s m : Int} (h0 : 0 ≤ v) (h1 : v < 256) (h2 : 0 ≤ s) (h3 : s < 32)
    (hm : ∃ b, packU 4 m = some b) : ∃ b, packVar v s m = some b := by
  apply cat_ok
  intro x hx
  simp only [List.mem_cons, List.not_mem_nil, or_false] at hx
  rcases hx with rfl | rfl | rfl
  · exact packU_ok h0 (by omega)
  · exact pyOr_ok h2 h3
  · exact hm

theorem packVarP_ok {v p s m : Int} (h0 : 0 ≤ v) (h1 : v < 256) (p0 : 0 ≤ p) (p1 : p < 256) (h2 : 0 ≤ s)
    (h3 : s < 32) (hm : ∃ b, packU 4 m = some b) : ∃ b, packVarP v p s m = some b := by
  apply cat_ok
  intro x hx
  simp only [List.mem_cons, List.not_mem_nil, or_false] at hx
  rcases hx with rfl | rfl | rfl | rfl
  · exact packU_ok h0 (by omega)
  · exact packU_ok p0 (by omega)
  · exact pyOr_ok h2 h3
  · exact hm

theorem pack7b_ok {v s m : Int} (h0 : 0 ≤ v) (h1 : v < 256) (h2 : 0 ≤ s) (h3 : s < 32)
    (hm : ∃ b, packU 4 m = some b) :
    ∃ b, cat [packU 1 0x0f, packU 1 0x7b, packU 1 v, packU 1 (pyOr 0x20 s), packU 4 m] = some b := by
  apply cat_ok
  intro x hx
  simp only [List.mem_cons, List.not_mem_nil, or_false] at hx
  rcases hx with rfl | rfl | rfl | rfl | rfl
  · exact packU_ok (by decide) (by decide)
  · exact packU_ok (by decide) (by decide)
  · exact packU_ok h0 (by omega)
  · exact pyOr_ok h2 h3
  · exact hm

/-- The outcome of a successful compilation that leaves the registers in use as they were. -/
def Compiles (T : Tables) (e : Node) (c : Ctx) (isv : Bool) : Prop :=
  ∃ bs c', compile T e 0 FULL c = some (isv, bs, c') ∧ c'.vars = c.vars ∧
    (∀ r, r ∈ c'.used ↔ r ∈ c.used) ∧ CtxFull c'

theorem reserve_ok {c : Ctx} (hf : CtxFull c) (h : 0 < freeRegs c) :
    ∃ r c', c.reserve = some (r, c') := by
  cases hr : c.reserve with
  | some p => exact ⟨p.1, p.2, rfl⟩
  | none =>
    exfalso
    unfold freeRegs at h
    obtain ⟨x, hx⟩ := List.exists_mem_of_length_pos h
    rw [List.mem_filter, List.mem_range'_1] at hx
    obtain ⟨hx1, hx2⟩ := hx
    simp only [decide_eq_true_eq] at hx2
    unfold Ctx.reserve at hr
    split at hr
    · next hn =>
      rw [List.find?_eq_none] at hn
      rcases Nat.lt_or_ge x c.minReg with hlt | hge
      · exact hx2 (hf.full x hx1.1 hlt)
      · have := hn x (by rw [List.mem_range'_1]; omega)
        simp only [decide_eq_true_eq, not_not] at this
        exact hx2 this
    · simp at hr

theorem filter_length_remove {l : List Nat} (hn : l.Nodup) (p : Nat → Bool) (r : Nat) (hr : r ∈ l)
    (hp : p r = true) : (l.filter p).length = (l.filter (fun x => p x && decide (x ≠ r))).length + 1 := by
  induction l with
  | nil => simp at hr
  | cons a l ih =>
    rw [List.nodup_cons] at hn
    by_cases ha : a = r
    · subst ha
      have : l.filter (fun x => p x && decide (x ≠ a)) = l.filter p := by
        apply List.filter_congr
        intro x hx
        have : x ≠ a := by rintro rfl; exact hn.1 hx
        simp [this]
      rw [List.filter_cons, if_pos hp, List.filter_cons, if_neg (by simp), this]
      simp
    · have hr' : r ∈ l := by simpa [Ne.symm ha] using hr
      have := ih hn.2 hr'
      rw [List.filter_cons, List.filter_cons]
      by_cases hpa : p a = true
      · rw [if_pos hpa, if_pos (by simp [hpa, ha])]; simp [this]
      · rw [if_neg hpa, if_neg (by simp [hpa])]; exact this

theorem reserve_free {c c' : Ctx} {r : Nat} (hf : CtxFull c) (h : c.reserve = some (r, c')) :
    CtxFull c' ∧ freeRegs c = freeRegs c' + 1 ∧ c'.vars = c.vars ∧ r ∉ c.used ∧ 0x80 ≤ r ∧ r < 256 ∧
    (∀ x, x ∈ c'.used ↔ x = r ∨ x ∈ c.used) := by
  have hfirst := reserve_first h
  obtain ⟨h1, h2, h3, rfl⟩ := reserve_some h
  have hm := hf.min_ge
  refine ⟨⟨by simp; omega, ?_, hf.vars⟩, ?_, rfl, h1, by omega, h3, by simp⟩
  · intro x hx1 hx2
    simp only at hx2
    rcases Nat.lt_or_ge x c.minReg with hlt | hge
    · exact List.mem_cons_of_mem _ (hf.full x hx1 hlt)
    · rcases Nat.lt_or_ge x r with h4 | h4
      · exact List.mem_cons_of_mem _ (hfirst x hge h4)
      · have : x = r := by omega
        subst this; exact List.mem_cons_self
  · unfold freeRegs
    rw [filter_length_remove (List.nodup_range' 1) (fun x => decide (x ∉ c.used)) r (by rw [List.mem_range'_1]; omega) (by simpa using h1)]
    congr 2
    apply List.filter_congr
    intro x _
    by_cases hx : x = r <;> simp [hx]

theorem release_ok {c : Ctx} {r : Nat} (hf : CtxFull c) (h : r ∈ c.used) (hr : 0x80 ≤ r) :
    ∃ c', c.release r = some c' ∧ CtxFull c' ∧ c'.vars = c.vars ∧
      ∀ x, x ∈ c'.used ↔ x ∈ c.used ∧ x ≠ r := by
  refine ⟨_, if_pos h, ⟨?_, ?_, hf.vars⟩, rfl, ?_⟩
  · have := hf.min_ge; simp only [Nat.le_min]; omega
  · intro x h1 h2
    simp only [Nat.lt_min] at h2
    rw [List.mem_filter]
    exact ⟨hf.full x h1 h2.1, by simp; omega⟩
  · intro x; simp

theorem compile_expr_spill {T : Tables} {op : Int} {a b : Node} {sh m : Int} {c c1 cr c2 c3 : Ctx} {isa : Bool}
    {bs st as tl : Bytes} {r : Nat} (h1 : compile T b sh m c = some (false, bs, c1)) (h2 : c1.reserve = some (r, cr))
    (h3 : cat [packU 1 0x0e, packU 1 0x1a, packU 1 0x20, packU 4 (r : Int), packU 1 0x0f] = some st)
    (h4 : compile T a sh m cr = some (isa, as, c2))
    (h5 : cat [packU 1 op, packU 1 0x7d, packU 1 (r : Int), packU 1 0x20, packU 4 0xffffffff] = some tl)
    (h6 : c2.release r = some c3) :
    compile T (.expr op a b) sh m c = some (false, bs ++ st ++ as ++ tl, c3) := by
  simp only [compile, Option.bind_eq_bind, Option.bind_eq_some_iff]
  refine ⟨(false, bs, c1), h1, ?_⟩
  rw [if_neg Bool.false_ne_true]
  simp only [Option.bind_eq_some_iff]
  exact ⟨(r, cr), h2, st, h3, (isa, as, c2), h4, tl, h5, c3, h6, rfl⟩

theorem compile_accepts_aux (T : Tables) (e : Node) : ∀ c : Ctx, Fits T c.vars e → CtxFull c →
    need e ≤ freeRegs c → Compiles T e c (Simple e || DynParam e) := by
  induction e with
  | value v =>
    intro c _ hf _
    obtain ⟨b, hb⟩ := packVar_ok (v := 0x1a) (s := 0) (by decide) (by decide) (by decide) (by decide) (mask_ok v)
    refine ⟨b, c, ?_, rfl, fun _ => Iff.rfl, hf⟩
    simp only [compile, Int.toNat_zero, pyShr_zero]
    rw [pyAnd_full_left] at hb
    rw [guard_ok (by decide) (by decide), pyAnd_full_right]
    simp [hb, Simple]
  | var n =>
    intro c h hf _
    simp only [Fits] at h
    cases ht : T.varTable n with
    | none =>
      rw [ht] at h
      cases hl : c.vars.lookup n with
      | none => exact absurd hl h
      | some r =>
        have hr := hf.vars n r hl
        obtain ⟨b, hb⟩ := packVarP_ok (v := 0x7d) (p := r) (s := 0) (by decide) (by decide) (by omega) (by omega)
          (by decide) (by decide) full_ok
        refine ⟨b, c, ?_, rfl, fun _ => Iff.rfl, hf⟩
        simp [compile, ht, hl, hb, Simple]
    | some d =>
      rw [ht] at h
      obtain ⟨h1, h2, h3⟩ := h
      cases hp : d.param with
      | none =>
        obtain ⟨b, hb⟩ := packVar_ok (v := d.var) (s := d.start) (by omega) (by omega) (by omega) (by omega)
          (mask_ok (2 ^ d.size - 1))
        refine ⟨b, c, ?_, rfl, fun _ => Iff.rfl, hf⟩
        simp only [compile, ht, hp, Int.toNat_zero, pyShr_zero, Int.zero_add]
        rw [guard_ok (by omega) (mask_le _)]
        simp [hb, Simple]
      | some p =>
        rw [hp] at h3
        obtain ⟨b, hb⟩ := packVarP_ok (v := d.var) (p := p) (s := d.start) (by omega) (by omega) (by omega)
          (by simp at h3; omega) (by omega) (by omega) (mask_ok (2 ^ d.size - 1))
        refine ⟨b, c, ?_, rfl, fun _ => Iff.rfl, hf⟩
        simp only [compile, ht, hp, Int.toNat_zero, pyShr_zero, Int.zero_add]
        rw [guard_ok (by omega) (mask_le _)]
        simp [hb, Simple]
  | gvar v sh m =>
    intro c h hf _
    obtain ⟨h0, h1, h2, h3⟩ := h
    obtain ⟨b, hb⟩ := packVar_ok h0 h1 h2 h3 (mask_ok m)
    refine ⟨b, c, ?_, rfl, fun _ => Iff.rfl, hf⟩
    simp only [compile, Int.toNat_zero, pyShr_zero, Int.zero_add]
    rw [guard_ok h3 (mask_le _)]
    simp [hb, Simple]
  | gvarP v sh m p ih =>
    intro c h hf hn
    obtain ⟨h0, h1, h2, h3, h4, h5⟩ := h
    have hsd : (Simple (.gvarP v sh m p) || DynParam (.gvarP v sh m p)) = true := by
      cases p <;> simp [Simple, DynParam]
      omega
    rw [hsd]
    simp only [Compiles, compile, Int.toNat_zero, pyShr_zero, Int.zero_add]
    rw [guard_ok h3 (mask_le _)]
    by_cases hv : ∃ k, p = .value k
    · obtain ⟨k, rfl⟩ := hv
      simp only at h5
      by_cases hk : k > 255
      · obtain ⟨b, hb⟩ : ∃ b, cat [packU 1 0x1a, packU 1 0x20, packU 4 k, packU 1 0x0f, packU 1 0x7b, packU 1 v,
          packU 1 (pyOr 0x20 sh), packU 4 (pyAnd FULL m)] = some b := by
          apply cat_ok
          intro x hx
          simp only [List.mem_cons, List.not_mem_nil, or_false] at hx
          rcases hx with rfl | rfl | rfl | rfl | rfl | rfl | rfl | rfl
          · exact packU_ok (by decide) (by decide)
          · exact packU_ok (by decide) (by decide)
          · exact packU_ok h5.1 (by omega)
          · exact packU_ok (by decide) (by decide)
          · exact packU_ok (by decide) (by decide)
          · exact packU_ok h0 (by omega)
          · exact pyOr_ok h2 h3
          · exact mask_ok m
        refine ⟨b, c, ?_, rfl, fun _ => Iff.rfl, hf⟩
        simp [Node.constEval, hk, hb]
      · obtain ⟨b, hb⟩ := packVarP_ok (p := k) h0 h1 h5.1 (by omega) h2 h3 (mask_ok m)
        refine ⟨b, c, ?_, rfl, fun _ => Iff.rfl, hf⟩
        simp [Node.constEval, hk, hb]
    · have hce : p.constEval = none := by
        cases p <;> simp [Node.constEval]
        exact hv ⟨_, rfl⟩
      obtain ⟨bs, c', hc, hcv, hu, hf'⟩ := ih c h4 hf hn
      obtain ⟨b, hb⟩ := pack7b_ok h0 h1 h2 h3 (mask_ok m)
      refine ⟨bs ++ b, c', ?_, hcv, hu, hf'⟩
      simp [hce, hc, hb]
  | gvarDiv => intro c h; exact h.elim
  | gvarDivP => intro c h; exact h.elim
  | temp r ih =>
    intro c h hf hn
    obtain ⟨h1, h2⟩ := h
    by_cases hv : ∃ k, r = .value k
    · obtain ⟨k, rfl⟩ := hv
      simp only at h2
      obtain ⟨b, hb⟩ := packVarP_ok (v := 0x7d) (p := k) (s := 0) (by decide) (by decide) h2.1 h2.2
        (by decide) (by decide) full_ok
      refine ⟨b, c, ?_, rfl, fun _ => Iff.rfl, hf⟩
      simp [compile, guard_ok (s := 0) (m := FULL) (by decide) (by decide), hb, Simple]
    · have hnv : ∀ k, r ≠ .value k := fun k e => hv ⟨k, e⟩
      obtain ⟨bs, c', hc, hcv, hu, hf'⟩ := ih c h1 hf hn
      obtain ⟨b, hb⟩ := pack7b_ok (v := 0x7d) (s := 0) (by decide) (by decide) (by decide) (by decide) full_ok
      have hsd : (Simple (.temp r) || DynParam (.temp r)) = false := by
        cases r <;> simp [Simple, DynParam]
        exact hv ⟨_, rfl⟩
      rw [hsd]
      refine ⟨bs ++ b, c', ?_, hcv, hu, hf'⟩
      simp [compile, guard_ok (s := 0) (m := FULL) (by decide) (by decide), hb, hc]
  | perm r ih =>
    intro c h hf hn
    obtain ⟨h1, h2⟩ := h
    by_cases hv : ∃ k, r = .value k
    · obtain ⟨k, rfl⟩ := hv
      simp only at h2
      obtain ⟨b, hb⟩ := packVarP_ok (v := 0x7c) (p := k) (s := 0) (by decide) (by decide) h2.1 h2.2
        (by decide) (by decide) full_ok
      refine ⟨b, c, ?_, rfl, fun _ => Iff.rfl, hf⟩
      simp [compile, guard_ok (s := 0) (m := FULL) (by decide) (by decide), hb, Simple]
    · have hnv : ∀ k, r ≠ .value k := fun k e => hv ⟨k, e⟩
      obtain ⟨bs, c', hc, hcv, hu, hf'⟩ := ih c h1 hf hn
      obtain ⟨b, hb⟩ := pack7b_ok (v := 0x7c) (s := 0) (by decide) (by decide) (by decide) (by decide) full_ok
      have hsd : (Simple (.perm r) || DynParam (.perm r)) = false := by
        cases r <;> simp [Simple, DynParam]
        exact hv ⟨_, rfl⟩
      rw [hsd]
      refine ⟨bs ++ b, c', ?_, hcv, hu, hf'⟩
      simp [compile, guard_ok (s := 0) (m := FULL) (by decide) (by decide), hb, hc]
  | call n =>
    intro c h hf _
    obtain ⟨b, hb⟩ := packVarP_ok (v := 0x7e) (p := n) (s := 0) (by decide) (by decide) h.1 h.2
      (by decide) (by decide) full_ok
    refine ⟨b, c, ?_, rfl, fun _ => Iff.rfl, hf⟩
    simp [compile, guard_ok (s := 0) (m := FULL) (by decide) (by decide), hb, Simple]
  | callName n =>
    intro c h hf _
    obtain ⟨i, hi, h0, h1⟩ := h
    obtain ⟨b, hb⟩ := packVarP_ok (v := 0x7e) (p := i) (s := 0) (by decide) (by decide) h0 h1
      (by decide) (by decide) full_ok
    refine ⟨b, c, ?_, rfl, fun _ => Iff.rfl, hf⟩
    simp [compile, guard_ok (s := 0) (m := FULL) (by decide) (by decide), hi, hb, Simple]
  | expr op a b iha ihb =>
    intro c h hf hn
    obtain ⟨h0, h1, ha, hb⟩ := h
    have hsd : (Simple (.expr op a b) || DynParam (.expr op a b)) = false := rfl
    rw [hsd]
    obtain ⟨o, ho⟩ := packU_ok (k := 1) h0 (by omega)
    by_cases hs : (Simple b || DynParam b) = true
    · rw [need, if_pos hs] at hn
      obtain ⟨bs, c1, hc1, hv1, hu1, hf1⟩ := ihb c hb hf (by omega)
      obtain ⟨as, c2, hc2, hv2, hu2, hf2⟩ := iha c1 (by rw [hv1]; exact ha) hf1
        (by rw [freeRegs_congr hu1]; omega)
      refine ⟨as ++ o ++ bs, c2, ?_, by rw [hv2, hv1], fun r => (hu2 r).trans (hu1 r), hf2⟩
      rw [hs] at hc1
      simp [compile, hc1, hc2, ho]
    · rw [need, if_neg hs] at hn
      have hs' : (Simple b || DynParam b) = false := by simpa using hs
      obtain ⟨bs, c1, hc1, hv1, hu1, hf1⟩ := ihb c hb hf (by omega)
      rw [hs'] at hc1
      have hfr := freeRegs_congr hu1
      obtain ⟨r, cr, hr⟩ := reserve_ok hf1 (by omega)
      obtain ⟨hfr', hfree, hvr, hnr, hr0, hr1, hur⟩ := reserve_free hf1 hr
      obtain ⟨as, c2, hc2, hv2, hu2, hf2⟩ := iha cr (by rw [hvr, hv1]; exact ha) hfr' (by omega)
      obtain ⟨c3, hc3, hf3, hv3, hu3⟩ := release_ok hf2 ((hu2 r).2 ((hur r).2 (Or.inl rfl))) hr0
      obtain ⟨st, hst⟩ : ∃ b, cat [packU 1 0x0e, packU 1 0x1a, packU 1 0x20, packU 4 (r : Int), packU 1 0x0f] = some b := by
        refine cat_cons_ok (packU_ok (by decide) (by decide)) (cat_cons_ok (packU_ok (by decide) (by decide))
          (cat_cons_ok (packU_ok (by decide) (by decide)) (cat_cons_ok (packU_ok (by omega) ?_)
          (cat_cons_ok (packU_ok (by decide) (by decide)) cat_nil_ok))))
        have : (256 : Int) ≤ 256 ^ 4 := by decide
        omega
      obtain ⟨tl, htl⟩ : ∃ b, cat [packU 1 op, packU 1 0x7d, packU 1 (r : Int), packU 1 0x20, packU 4 0xffffffff] = some b := by
        refine cat_cons_ok ⟨o, ho⟩ (cat_cons_ok (packU_ok (by decide) (by decide))
          (cat_cons_ok (packU_ok (by omega) (by omega)) (cat_cons_ok (packU_ok (by decide) (by decide))
          (cat_cons_ok full_ok cat_nil_ok))))
      refine ⟨bs ++ st ++ as ++ tl, c3, ?_, by rw [hv3, hv2, hvr, hv1], ?_, hf3⟩
      · exact compile_expr_spill hc1 hr hst hc2 htl hc3
      · intro x
        rw [hu3, hu2, hur, hu1]
        constructor
        · rintro ⟨h | h, hx⟩
          · exact absurd h hx
          · exact h
        · intro h
          refine ⟨Or.inr h, ?_⟩
          rintro rfl
          exact hnr ((hu1 _).2 h)
  | assign n e => intro c h; exact h.elim

theorem catlen {l : List (Option Bytes)} {b : Bytes} (h : cat l = some b) (x : Option Bytes) (hx : x ∈ l) :
    ∃ y, x = some y ∧ y.length ≤ b.length := by
  induction l generalizing b with
  | nil => simp at hx
  | cons a l ih =>
    simp only [cat, Option.bind_eq_bind, Option.bind_eq_some_iff, Option.some.injEq] at h
    obtain ⟨a', rfl, r, hr, rfl⟩ := h
    rcases List.mem_cons.1 hx with rfl | hx
    · exact ⟨a', rfl, by simp⟩
    · obtain ⟨y, h1, h2⟩ := ih hr hx
      exact ⟨y, h1, by simp; omega⟩

theorem cat2_len {x y : Option Bytes} {l : List (Option Bytes)} {b : Bytes} (h : cat (x :: y :: l) = some b) :
    ∃ a c d, x = some a ∧ y = some c ∧ cat l = some d ∧ b.length = a.length + c.length + d.length := by
  simp only [cat, Option.bind_eq_bind, Option.bind_eq_some_iff, Option.some.injEq] at h
  obtain ⟨a, rfl, _, ⟨c, rfl, d, hd, rfl⟩, rfl⟩ := h
  exact ⟨a, c, d, rfl, rfl, hd, by simp; omega⟩

theorem packVar_len {v s m : Int} {b : Bytes} (h : packVar v s m = some b) : b.length = 6 := by
  obtain ⟨a, c, d, h1, h2, h3, h4⟩ := cat2_len h
  simp only [cat, Option.bind_eq_bind, Option.bind_eq_some_iff, Option.some.injEq] at h3
  obtain ⟨e, h5, _, rfl, rfl⟩ := h3
  rw [h4, packU_length h1, packU_length h2, List.length_append, packU_length h5]; rfl

theorem packVarP_len {v p s m : Int} {b : Bytes} (h : packVarP v p s m = some b) : b.length = 7 := by
  obtain ⟨a, c, d, h1, h2, h3, h4⟩ := cat2_len h
  obtain ⟨a', c', d', h1', h2', h3', h4'⟩ := cat2_len h3
  simp only [cat, Option.some.injEq] at h3'
  subst h3'
  rw [h4, h4', packU_length h1, packU_length h2, packU_length h1', packU_length h2']; rfl

theorem compile_len (T : Tables) (e : Node) : ∀ (sh m : Int) (c c' : Ctx) (isv : Bool) (bs : Bytes),
    compile T e sh m c = some (isv, bs, c') → 5 ≤ bs.length := by
  induction e with
  | value v =>
    intro sh m c c' isv bs h
    simp only [compile, Option.bind_eq_bind, Option.bind_eq_some_iff] at h
    obtain ⟨_, _, h⟩ := h
    split at h
    · simp at h
    · simp only [Option.bind_eq_some_iff, Option.some.injEq, Prod.mk.injEq] at h
      obtain ⟨_, hp, _, rfl, _⟩ := h
      rw [packVar_len hp]; decide
  | var n =>
    intro sh m c c' isv bs h
    simp only [compile] at h
    split at h
    · split at h
      · simp at h
      · simp only [Option.bind_eq_bind, Option.bind_eq_some_iff, Option.some.injEq, Prod.mk.injEq] at h
        obtain ⟨_, hp, _, rfl, _⟩ := h
        rw [packVarP_len hp]; decide
    · split at h
      · simp at h
      · simp only [Option.bind_eq_bind, Option.bind_eq_some_iff] at h
        obtain ⟨_, _, h⟩ := h
        split at h
        · simp only [Option.bind_eq_some_iff, Option.some.injEq, Prod.mk.injEq] at h
          obtain ⟨_, hp, _, rfl, _⟩ := h
          rw [packVarP_len hp]; decide
        · simp only [Option.bind_eq_some_iff, Option.some.injEq, Prod.mk.injEq] at h
          obtain ⟨_, hp, _, rfl, _⟩ := h
          rw [packVar_len hp]; decide
  | gvar v a b =>
    intro sh m c c' isv bs h
    simp only [compile] at h
    split at h
    · simp at h
    · simp only [Option.bind_eq_bind, Option.bind_eq_some_iff, Option.some.injEq, Prod.mk.injEq] at h
      obtain ⟨_, _, _, hp, _, rfl, _⟩ := h
      rw [packVar_len hp]; decide
  | gvarP v a b p ih =>
    intro sh m c c' isv bs h
    simp only [compile] at h
    split at h
    · simp at h
    · simp only [Option.bind_eq_bind, Option.bind_eq_some_iff] at h
      obtain ⟨_, _, h⟩ := h
      split at h
      · simp only [Option.bind_eq_some_iff, Option.some.injEq, Prod.mk.injEq] at h
        obtain ⟨⟨_, _, c1⟩, hc, _, _, _, rfl, _⟩ := h
        have := ih _ _ _ _ _ _ hc
        simp at this ⊢; omega
      · split at h
        · simp only [Option.bind_eq_some_iff, Option.some.injEq, Prod.mk.injEq] at h
          obtain ⟨_, hp, _, rfl, _⟩ := h
          obtain ⟨_, _, d, h1, h2, h3, h4⟩ := cat2_len hp
          obtain ⟨_, _, d', h1', h2', h3', h4'⟩ := cat2_len h3
          rw [h4, h4', packU_length h1, packU_length h2, packU_length h1', packU_length h2']; omega
        · simp only [Option.bind_eq_some_iff, Option.some.injEq, Prod.mk.injEq] at h
          obtain ⟨_, hp, _, rfl, _⟩ := h
          rw [packVarP_len hp]; decide
  | gvarDiv => intro sh m c c' isv bs h; simp [compile] at h
  | gvarDivP => intro sh m c c' isv bs h; simp [compile] at h
  | temp r ih =>
    intro sh m c c' isv bs h
    by_cases hv : ∃ k, r = .value k
    · obtain ⟨k, rfl⟩ := hv
      simp only [compile, Option.bind_eq_bind, Option.bind_eq_some_iff, Option.some.injEq, Prod.mk.injEq] at h
      obtain ⟨_, _, _, hp, _, rfl, _⟩ := h
      rw [packVarP_len hp]; decide
    · have hnv : ∀ k, r ≠ .value k := fun k e => hv ⟨k, e⟩
      simp only [compile, Option.bind_eq_bind, Option.bind_eq_some_iff, Option.some.injEq, Prod.mk.injEq] at h
      obtain ⟨_, _, ⟨_, _, c1⟩, hc, _, _, _, rfl, _⟩ := h
      have := ih _ _ _ _ _ _ hc
      simp at this ⊢; omega
  | perm r ih =>
    intro sh m c c' isv bs h
    by_cases hv : ∃ k, r = .value k
    · obtain ⟨k, rfl⟩ := hv
      simp only [compile, Option.bind_eq_bind, Option.bind_eq_some_iff, Option.some.injEq, Prod.mk.injEq] at h
      obtain ⟨_, _, _, hp, _, rfl, _⟩ := h
      rw [packVarP_len hp]; decide
    · have hnv : ∀ k, r ≠ .value k := fun k e => hv ⟨k, e⟩
      simp only [compile, Option.bind_eq_bind, Option.bind_eq_some_iff, Option.some.injEq, Prod.mk.injEq] at h
      obtain ⟨_, _, ⟨_, _, c1⟩, hc, _, _, _, rfl, _⟩ := h
      have := ih _ _ _ _ _ _ hc
      simp at this ⊢; omega
  | call n =>
    intro sh m c c' isv bs h
    simp only [compile, Option.bind_eq_bind, Option.bind_eq_some_iff, Option.some.injEq, Prod.mk.injEq] at h
    obtain ⟨_, _, _, hp, _, rfl, _⟩ := h
    rw [packVarP_len hp]; decide
  | callName n =>
    intro sh m c c' isv bs h
    simp only [compile, Option.bind_eq_bind, Option.bind_eq_some_iff, Option.some.injEq, Prod.mk.injEq] at h
    obtain ⟨_, _, _, _, _, hp, _, rfl, _⟩ := h
    rw [packVarP_len hp]; decide
  | expr op a b iha ihb =>
    intro sh m c c' isv bs h
    simp only [compile, Option.bind_eq_bind, Option.bind_eq_some_iff] at h
    obtain ⟨⟨isb, bb, cb⟩, hb, h⟩ := h
    have := ihb _ _ _ _ _ _ hb
    split at h
    · simp only [Option.bind_eq_some_iff, Option.some.injEq, Prod.mk.injEq] at h
      obtain ⟨⟨_, _, ca⟩, ha, _, _, _, rfl, _⟩ := h
      simp at this ⊢; omega
    · simp only [Option.bind_eq_some_iff, Option.some.injEq, Prod.mk.injEq] at h
      obtain ⟨⟨r, cr⟩, hr, _, _, ⟨_, _, ca⟩, ha, _, _, cf, hrel, _, rfl, _⟩ := h
      simp at this ⊢; omega
  | assign n e ih =>
    intro sh m c c' isv bs h
    simp only [compile, Option.bind_eq_bind, Option.bind_eq_some_iff, Option.some.injEq, Prod.mk.injEq] at h
    obtain ⟨⟨_, _, c1⟩, hc, ⟨r, cr⟩, hr, _, _, _, rfl, _⟩ := h
    have := ih _ _ _ _ _ _ hc
    simp at this ⊢; omega

/-- **C22** The compiler runs out of registers only if it must: every assignment-free expression whose
numbers fit the format and in which at most 128 compound right operands are pending at a time is
accepted (register exhaustion is the only other reason for refusal). -/
theorem compile_accepts (T : Tables) (e : Node) (hf : Fits T [] e) (hn : need e ≤ 128) :
    ∃ bs c', compileLines T [e] Ctx.init = some (bs, c') ∧ (markEnd bs).isSome = true := by
  have hfull : CtxFull Ctx.init := ⟨by simp [Ctx.init], fun r h1 h2 => absurd h2 (by simp [Ctx.init]; omega), by simp [Ctx.init]⟩
  have hfree : freeRegs Ctx.init = 128 := by simp [freeRegs, Ctx.init]
  obtain ⟨bs, c', h, _⟩ := compile_accepts_aux T e Ctx.init hf hfull (by omega)
  refine ⟨bs, c', by simp [compileLines, h], ?_⟩
  have hl := compile_len T e _ _ _ _ _ _ h
  unfold markEnd
  rw [if_neg (by omega)]
  have : 0 < (bs.drop (bs.length - 5)).length := by rw [List.length_drop]; omega
  cases hd : bs.drop (bs.length - 5) with
  | nil => rw [hd] at this; simp at this
  | cons b r => simp [hd]

/-- Non-vacuity: a deeply nested expression with a named variable and a computed storage index. -/
example : let T : Tables := ⟨fun n => if n = "age" then some ⟨0x40, 8, 8, none⟩ else none, fun _ => none⟩
    let e : Node := .expr 0x00 (.var "age") (.expr 0x0a (.temp (.expr 0x00 (.value 1) (.value 2)))
      (.expr 0x01 (.value (-5)) (.expr 0x06 (.perm (.value 3)) (.gvarP 0x61 3 0xff (.value 9)))))
    Fits T [] e ∧ need e ≤ 128 := by
  refine ⟨?_, by decide⟩
  simp [Fits]

end Grf
