import Verif.Model.Compile
/-!
# Register allocator lemmas (proof support for C21, C22)
-/
namespace Grf

structure CtxInv (c : Ctx) : Prop where
  used_range : ∀ r ∈ c.used, 0x80 ≤ r ∧ r < 0x100
  min_ge : 0x80 ≤ c.minReg
  vars_used : ∀ n r, c.vars.lookup n = some r → r ∈ c.used
  vars_inj : ∀ n n' r, c.vars.lookup n = some r → c.vars.lookup n' = some r → n = n'

def IsVarReg (c : Ctx) (r : Nat) : Prop := ∃ n, c.vars.lookup n = some r

/-- A register holding an intermediate result. -/
def Spill (c : Ctx) (r : Nat) : Prop := r ∈ c.used ∧ ¬ IsVarReg c r

/-- `c'` has the same intermediate registers as `c` and at least its variables. -/
structure Ext (c c' : Ctx) : Prop where
  vars : ∀ n r, c.vars.lookup n = some r → c'.vars.lookup n = some r
  spill : ∀ r, Spill c' r ↔ Spill c r

theorem Ext.refl (c : Ctx) : Ext c c := ⟨fun _ _ h => h, fun _ => Iff.rfl⟩

theorem Ext.trans {a b c : Ctx} (h1 : Ext a b) (h2 : Ext b c) : Ext a c :=
  ⟨fun n r h => h2.vars n r (h1.vars n r h), fun r => (h2.spill r).trans (h1.spill r)⟩

theorem CtxInv.init : CtxInv Ctx.init :=
  ⟨by simp [Ctx.init], by simp [Ctx.init], by simp [Ctx.init], by simp [Ctx.init]⟩

theorem reserve_some {c c' : Ctx} {r : Nat} (h : c.reserve = some (r, c')) :
    r ∉ c.used ∧ c.minReg ≤ r ∧ r < 256 ∧
    c' = { c with minReg := r + 1, used := r :: c.used } := by
  unfold Ctx.reserve at h
  split at h
  · simp at h
  · next x hx =>
    simp only [Option.some.injEq, Prod.mk.injEq] at h
    obtain ⟨rfl, rfl⟩ := h
    have h1 := List.find?_some hx
    have h2 := List.mem_of_find?_eq_some hx
    rw [List.mem_range'_1] at h2
    simp only [decide_eq_true_eq] at h1
    exact ⟨h1, h2.1, by omega, rfl⟩

theorem reserve_spec {c c' : Ctx} {r : Nat} (hi : CtxInv c) (h : c.reserve = some (r, c')) :
    CtxInv c' ∧ r ∉ c.used ∧ 0x80 ≤ r ∧ r < 0x100 ∧ c'.vars = c.vars ∧
    (∀ x, Spill c' x ↔ Spill c x ∨ x = r) := by
  obtain ⟨h1, h2, h3, rfl⟩ := reserve_some h
  have hm := hi.min_ge
  refine ⟨⟨?_, ?_, ?_, ?_⟩, h1, by omega, h3, rfl, ?_⟩
  · intro x hx
    simp only [List.mem_cons] at hx
    rcases hx with rfl | hx
    · omega
    · exact hi.used_range x hx
  · simp; omega
  · intro n x hx
    exact List.mem_cons_of_mem _ (hi.vars_used n x hx)
  · exact hi.vars_inj
  · intro x
    simp only [Spill, IsVarReg, List.mem_cons]
    constructor
    · rintro ⟨rfl | hx, hv⟩
      · exact Or.inr rfl
      · exact Or.inl ⟨hx, hv⟩
    · rintro (⟨hx, hv⟩ | rfl)
      · exact ⟨Or.inr hx, hv⟩
      · exact ⟨Or.inl rfl, fun ⟨n, hn⟩ => h1 (hi.vars_used n _ hn)⟩

theorem release_spec {c c' : Ctx} {r : Nat} (hi : CtxInv c) (hs : Spill c r)
    (h : c.release r = some c') :
    CtxInv c' ∧ c'.vars = c.vars ∧ (∀ x, Spill c' x ↔ Spill c x ∧ x ≠ r) := by
  unfold Ctx.release at h
  rw [if_pos hs.1] at h
  simp only [Option.some.injEq] at h
  subst h
  have hr := hi.used_range r hs.1
  have hm := hi.min_ge
  refine ⟨⟨?_, ?_, ?_, hi.vars_inj⟩, rfl, ?_⟩
  · intro x hx
    simp only [List.mem_filter] at hx
    exact hi.used_range x hx.1
  · simp only [Nat.le_min]; omega
  · intro n x hx
    simp only [List.mem_filter, decide_eq_true_eq]
    refine ⟨hi.vars_used n x hx, ?_⟩
    intro he
    subst he
    exact hs.2 ⟨n, hx⟩
  · intro x
    simp only [Spill, IsVarReg, List.mem_filter, decide_eq_true_eq]
    constructor
    · rintro ⟨⟨a, b⟩, c⟩; exact ⟨⟨a, c⟩, b⟩
    · rintro ⟨⟨a, c⟩, b⟩; exact ⟨⟨a, b⟩, c⟩

theorem lookup_cons' (n k : String) (r : Nat) (l : List (String × Nat)) :
    List.lookup n ((k, r) :: l) = if n = k then some r else l.lookup n := by
  by_cases h : n = k
  · subst h; simp
  · have : (n == k) = false := by simp [h]
    rw [List.lookup_cons, this]
    simp [h]

theorem reserveVariable_spec {c c' : Ctx} {r : Nat} {n : String} (hi : CtxInv c)
    (h : c.reserveVariable n = some (r, c')) :
    CtxInv c' ∧ Ext c c' ∧ c'.vars.lookup n = some r ∧ 0x80 ≤ r ∧ r < 0x100 ∧ ¬ Spill c r ∧
    (∀ k, k ≠ n → ∀ x, c'.vars.lookup k = some x → c.vars.lookup k = some x ∧ x ≠ r) := by
  unfold Ctx.reserveVariable at h
  split at h
  · next x hx =>
    simp only [Option.some.injEq, Prod.mk.injEq] at h
    obtain ⟨rfl, rfl⟩ := h
    have hr := hi.used_range _ (hi.vars_used _ _ hx)
    refine ⟨hi, Ext.refl _, hx, hr.1, hr.2, fun hs => hs.2 ⟨n, hx⟩, ?_⟩
    intro k hk y hy
    refine ⟨hy, ?_⟩
    rintro rfl
    exact hk (hi.vars_inj _ _ _ hy hx)
  · next hx =>
    simp only [Option.bind_eq_bind, Option.bind_eq_some_iff] at h
    obtain ⟨⟨r1, c1⟩, h1, h2⟩ := h
    simp only [Option.some.injEq, Prod.mk.injEq] at h2
    obtain ⟨rfl, rfl⟩ := h2
    obtain ⟨hi1, hnu, hr0, hr1, hv, hsp⟩ := reserve_spec hi h1
    have hused : ∀ x, x ∈ c.used → x ∈ c1.used := by
      obtain ⟨_, _, _, rfl⟩ := reserve_some h1
      intro x hx; exact List.mem_cons_of_mem _ hx
    have hrused : r1 ∈ c1.used := by
      obtain ⟨_, _, _, rfl⟩ := reserve_some h1
      exact List.mem_cons_self
    have hlook : ∀ k x, c.vars.lookup k = some x → k ≠ n := by
      rintro k x hk rfl
      rw [hx] at hk; simp at hk
    refine ⟨⟨hi1.used_range, hi1.min_ge, ?_, ?_⟩, ⟨?_, ?_⟩, ?_, hr0, hr1, ?_, ?_⟩
    · intro k x hk
      simp only [lookup_cons', hv] at hk
      split at hk
      · simp only [Option.some.injEq] at hk; subst hk; exact hrused
      · exact hused _ (hi.vars_used _ _ hk)
    · intro k k' x hk hk'
      simp only [lookup_cons', hv] at hk hk'
      split at hk <;> split at hk'
      · next a b => rw [a, b]
      · simp only [Option.some.injEq] at hk; subst hk
        exact absurd (hi.vars_used _ _ hk') hnu
      · simp only [Option.some.injEq] at hk'; subst hk'
        exact absurd (hi.vars_used _ _ hk) hnu
      · exact hi.vars_inj _ _ _ hk hk'
    · intro k x hk
      simp only [lookup_cons', hv]
      rw [if_neg (hlook k x hk)]; exact hk
    · intro x
      constructor
      · rintro ⟨hu, hn⟩
        have : Spill c1 x := by
          refine ⟨hu, ?_⟩
          rintro ⟨k, hk⟩
          apply hn
          refine ⟨k, ?_⟩
          simp only [lookup_cons']
          rw [hv] at hk ⊢
          rw [if_neg (hlook k x hk)]; exact hk
        rcases (hsp x).1 this with h | rfl
        · exact h
        · exfalso; apply hn; exact ⟨n, by simp⟩
      · rintro ⟨hu, hn⟩
        refine ⟨hused _ hu, ?_⟩
        rintro ⟨k, hk⟩
        simp only [lookup_cons', hv] at hk
        split at hk
        · simp only [Option.some.injEq] at hk; subst hk; exact hnu hu
        · exact hn ⟨k, hk⟩
    · simp
    · intro hs; exact hnu hs.1
    · intro k hk x hx2
      simp only [lookup_cons', hv, if_neg hk] at hx2
      refine ⟨hx2, ?_⟩
      rintro rfl
      exact hnu (hi.vars_used _ _ hx2)

end Grf
