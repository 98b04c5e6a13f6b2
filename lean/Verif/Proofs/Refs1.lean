import Verif.Spec.RefsSpec
/-! Phase 1 of `resolve_refs`: the dictionaries describe exactly the reference graph. -/
namespace Grf

theorem lookup_dictSet {α β : Type} [DecidableEq α] [BEq α] [LawfulBEq α] (d : List (α × β)) (k x : α) (v : β) :
    (dictSet d k v).lookup x = if x = k then some v else d.lookup x := by
  induction d with
  | nil =>
    simp only [dictSet, List.lookup_cons, List.lookup_nil]
    by_cases h : x = k
    · simp [h]
    · have : (x == k) = false := by simpa using h
      simp [h, this]
  | cons p d ih =>
    obtain ⟨k', v'⟩ := p
    simp only [dictSet]
    by_cases hk : k' = k
    · subst hk
      rw [if_pos rfl, List.lookup_cons, List.lookup_cons]
      by_cases h : x = k'
      · simp [h]
      · have : (x == k') = false := by simpa using h
        simp [h, this]
    · rw [if_neg hk, List.lookup_cons, List.lookup_cons, ih]
      by_cases h : x = k'
      · subst h; simp [hk]
      · have : (x == k') = false := by simpa using h
        simp [this]

theorem keys_dictSet {α β : Type} [DecidableEq α] (d : List (α × β)) (k : α) (v : β) :
    (dictSet d k v).map (·.1) = if k ∈ d.map (·.1) then d.map (·.1) else d.map (·.1) ++ [k] := by
  induction d with
  | nil => simp [dictSet]
  | cons p d ih =>
    obtain ⟨k', v'⟩ := p
    simp only [dictSet]
    by_cases hk : k' = k
    · subst hk; simp
    · rw [if_neg hk]
      simp only [List.map_cons, ih, List.mem_cons]
      by_cases h : k ∈ d.map (·.1)
      · simp [h]
      · simp [h, Ne.symm hk]

theorem lookup_isNone {α β : Type} [BEq α] [LawfulBEq α] (d : List (α × β)) (k : α) :
    (d.lookup k).isNone = true ↔ k ∉ d.map (·.1) := by
  induction d with
  | nil => simp
  | cons p d ih =>
    obtain ⟨k', v'⟩ := p
    rw [List.lookup_cons]
    by_cases h : k = k'
    · subst h; simp
    · have : (k == k') = false := by simpa using h
      simp only [this]
      simp only [List.map_cons, List.mem_cons, not_or]
      constructor
      · intro hh; exact ⟨h, ih.1 hh⟩
      · intro hh; exact ih.2 hh.2

theorem upd_same {α β : Type} [DecidableEq α] (f : α → β) (k : α) (v : β) : upd f k v k = v := by
  simp [upd]

theorem upd_ne {α β : Type} [DecidableEq α] (f : α → β) (k x : α) (v : β) (h : x ≠ k) : upd f k v x = f x := by
  simp [upd, h]

/-- Number of entries of a reference list that denote `b`. -/
def cntl (W : World) (l : List RefArg) (b : Nat) : Nat :=
  if (W b).referenceable then l.count (.obj b) else 0

/-- Number of references from `a` to `b`. -/
def cnt (W : World) (a b : Nat) : Nat := if (W a).referencing then cntl W (W a).refs b else 0

theorem cnt_pos {W : World} {a b : Nat} : 0 < cnt W a b ↔ Refers W a b := by
  unfold cnt cntl Refers
  by_cases h1 : (W a).referencing = true
  · by_cases h2 : (W b).referenceable = true
    · simp [h1, h2, List.count_pos_iff]
    · simp [h2]
  · simp [h1]

theorem Needs.trans {W : World} {a b c : Nat} (h1 : Needs W a b) (h2 : Needs W b c) : Needs W a c := by
  induction h2 with
  | refl => exact h1
  | step _ h ih => exact .step ih h

theorem Refers.needs {W : World} {a b : Nat} (h : Refers W a b) : Needs W a b := .step .refl h

theorem Within.needs {W : World} {sp : List Nat} {a b : Nat} (h : Within W sp a b) : Needs W a b := by
  induction h with
  | refl => exact .refl
  | step _ h _ ih => exact .step ih h

/-- Keys of `actions`. -/
def RState.keys (st : RState) : List Nat := st.actions.map (·.1)

/-- What is known of the dictionaries between two steps, `s0` being the user's
action that is being resolved. -/
structure GOk (st : RState) (s0 : Nat) : Prop where
  closed : ∀ a b, b ∈ st.ordered a ∨ b ∈ st.unordered a → b ∈ st.keys
  empty : ∀ a, a ∉ st.keys → a ≠ s0 → st.ordered a = [] ∧ st.unordered a = []
  nodup : st.keys.Nodup

def Complete (W : World) (st : RState) (a : Nat) : Prop :=
  ∀ b, b ∈ st.ordered a ∨ b ∈ st.unordered a ↔ Refers W a b

/-- Effect of scanning the references `l` of `s` (while resolving the user's action `s0`). -/
structure Scan (W : World) (sp : List Nat) (s0 s : Nat) (l : List RefArg) (st st' : RState)
    (N : List Nat) : Prop where
  gok : GOk st' s0
  keys : st'.keys = st.keys ++ N
  within : ∀ a ∈ N, Within W sp s0 a ∧ a ∉ sp
  below : ∀ a ∈ N, ∃ r, Refers W s r ∧ Needs W r a
  complete : ∀ a ∈ N, Complete W st' a
  same : ∀ a, a ∉ N → a ≠ s → st'.ordered a = st.ordered a ∧ st'.unordered a = st.unordered a
  children : ∀ b, b ∈ st'.ordered s ∨ b ∈ st'.unordered s ↔
    (b ∈ st.ordered s ∨ b ∈ st.unordered s) ∨ (RefArg.obj b ∈ l ∧ (W b).referenceable = true)
  count : ∀ b, st'.refCount b = st.refCount b + cntl W l b + (N.map (cnt W · b)).sum
  look : ∀ a, st'.actions.lookup a = if a ∈ N then some none else st.actions.lookup a
  refids : st'.refids = st.refids

theorem Scan.nodupN {W : World} {sp : List Nat} {s0 s : Nat} {l : List RefArg} {st st' : RState} {N : List Nat}
    (h : Scan W sp s0 s l st st' N) : N.Nodup ∧ ∀ a ∈ N, a ∉ st.keys := by
  have := h.gok.nodup
  rw [h.keys] at this
  rw [List.nodup_append] at this
  refine ⟨this.2.1, fun a ha hk => this.2.2 a hk a ha rfl⟩

theorem Scan.notSelf {W : World} {sp : List Nat} {s0 s : Nat} {l : List RefArg} {st st' : RState} {N : List Nat}
    (hac : Acyclic W) (h : Scan W sp s0 s l st st' N) : s ∉ N := by
  intro hs
  obtain ⟨r, h1, h2⟩ := h.below s hs
  exact hac s r h1 h2

theorem Scan.nil {W : World} {sp : List Nat} {s0 s : Nat} {st : RState} (h : GOk st s0) :
    Scan W sp s0 s [] st st [] where
  gok := h
  keys := by simp
  within := by simp
  below := by simp
  complete := by simp
  same := by simp
  children := by simp
  count := by simp [cntl]
  look := by simp
  refids := rfl

theorem Scan.append {W : World} {sp : List Nat} {s0 s : Nat} {l1 l2 : List RefArg} {st st1 st2 : RState}
    {N1 N2 : List Nat} (hac : Acyclic W) (h1 : Scan W sp s0 s l1 st st1 N1) (h2 : Scan W sp s0 s l2 st1 st2 N2) :
    Scan W sp s0 s (l1 ++ l2) st st2 (N1 ++ N2) where
  gok := h2.gok
  keys := by rw [h2.keys, h1.keys, List.append_assoc]
  within := by
    intro a ha
    rcases List.mem_append.1 ha with h | h
    · exact h1.within a h
    · exact h2.within a h
  below := by
    intro a ha
    rcases List.mem_append.1 ha with h | h
    · exact h1.below a h
    · exact h2.below a h
  complete := by
    intro a ha
    by_cases h : a ∈ N2
    · exact h2.complete a h
    · have h' : a ∈ N1 := (List.mem_append.1 ha).resolve_right h
      have hs : a ≠ s := fun e => h1.notSelf hac (e ▸ h')
      have := h2.same a h hs
      intro b
      rw [this.1, this.2]
      exact h1.complete a h' b
  same := by
    intro a ha hs
    simp only [List.mem_append, not_or] at ha
    have e1 := h1.same a ha.1 hs
    have e2 := h2.same a ha.2 hs
    exact ⟨e2.1.trans e1.1, e2.2.trans e1.2⟩
  children := by
    intro b
    rw [h2.children, h1.children]
    simp only [List.mem_append]
    constructor
    · rintro ((h | h) | h)
      · exact .inl h
      · exact .inr ⟨.inl h.1, h.2⟩
      · exact .inr ⟨.inr h.1, h.2⟩
    · rintro (h | ⟨h | h, h'⟩)
      · exact .inl (.inl h)
      · exact .inl (.inr ⟨h, h'⟩)
      · exact .inr ⟨h, h'⟩
  count := by
    intro b
    rw [h2.count, h1.count]
    have : cntl W (l1 ++ l2) b = cntl W l1 b + cntl W l2 b := by
      unfold cntl; split <;> simp
    rw [this, List.map_append, List.sum_append]
    omega
  look := by
    intro a
    rw [h2.look, h1.look]
    by_cases ha2 : a ∈ N2 <;> by_cases ha1 : a ∈ N1 <;> simp [ha1, ha2]
  refids := h2.refids.trans h1.refids

/-- Effect of `resolve(s, i)`. -/
structure Res (W : World) (sp : List Nat) (s0 s : Nat) (i : Option Nat) (st st' : RState) (N : List Nat) : Prop where
  closed : ∀ a b, b ∈ st'.ordered a ∨ b ∈ st'.unordered a → b ∈ st'.keys
  empty : ∀ a, a ∉ st'.keys → a ≠ s0 → st'.ordered a = [] ∧ st'.unordered a = []
  nodup : st'.keys.Nodup
  keys : st'.keys = st.keys ++ N ++ (if s ∈ st.keys then [] else [s])
  within : ∀ a ∈ N, Within W sp s0 a ∧ a ∉ sp
  below : ∀ a ∈ N, ∃ r, Refers W s r ∧ Needs W r a
  complete : ∀ a, a = s ∨ a ∈ N → Complete W st' a
  same : ∀ a, a ∉ N → a ≠ s → st'.ordered a = st.ordered a ∧ st'.unordered a = st.unordered a
  count : ∀ b, st'.refCount b = st.refCount b + cnt W s b + (N.map (cnt W · b)).sum
  look : ∀ a, st'.actions.lookup a = if a = s then some i else if a ∈ N then some none else st.actions.lookup a
  refids : st'.refids = st.refids

theorem recordPos_some {s : Nat} {i : Option Nat} {st st' : RState} (h : recordPos s i st = some st') :
    st' = { st with actions := dictSet st.actions s i } := by
  unfold recordPos at h
  split at h
  · split at h
    · simp at h
    · simpa using h.symm
  · simpa using h.symm

theorem scan_to_res {W : World} {sp : List Nat} {s0 s : Nat} {i : Option Nat} {st st1 st' : RState} {N : List Nat}
    {l : List RefArg} (hac : Acyclic W)
    (hl : ∀ b, (RefArg.obj b ∈ l ∧ (W b).referenceable = true) ↔ Refers W s b)
    (hc : ∀ b, cntl W l b = cnt W s b)
    (h0 : st.ordered s = [] ∧ st.unordered s = [])
    (h1 : Scan W sp s0 s l st st1 N) (h2 : recordPos s i st1 = some st') : Res W sp s0 s i st st' N := by
  have e := recordPos_some h2
  have hkeys : st'.keys = if s ∈ st1.keys then st1.keys else st1.keys ++ [s] := by
    rw [e]; exact keys_dictSet _ _ _
  have hsN : s ∉ N := h1.notSelf hac
  have hsk : (s ∈ st1.keys) ↔ s ∈ st.keys := by
    rw [h1.keys, List.mem_append]; simp [hsN]
  have hsub : ∀ a, a ∈ st1.keys → a ∈ st'.keys := by
    intro a ha; rw [hkeys]; split
    · exact ha
    · exact List.mem_append_left _ ha
  have hs' : s ∈ st'.keys := by
    rw [hkeys]; split
    · assumption
    · simp
  constructor
  · intro a b hab
    rw [e] at hab
    exact hsub _ (h1.gok.closed a b hab)
  · intro a ha ha0
    rw [e]
    have : a ∉ st1.keys := fun h => ha (hsub a h)
    exact h1.gok.empty a this ha0
  · rw [hkeys]
    split
    · exact h1.gok.nodup
    · rename_i hns
      rw [List.nodup_append]
      refine ⟨h1.gok.nodup, by simp, ?_⟩
      intro a ha b hb
      simp only [List.mem_singleton] at hb
      subst hb
      intro hab; exact hns (hab ▸ ha)
  · rw [hkeys]
    by_cases hk : s ∈ st.keys
    · rw [if_pos (hsk.2 hk), if_pos hk, h1.keys, List.append_nil]
    · rw [if_neg (fun h => hk (hsk.1 h)), if_neg hk, h1.keys]
  · exact h1.within
  · exact h1.below
  · rintro a (rfl | ha)
    · intro b
      rw [e]
      have := h1.children b
      rw [h0.1, h0.2] at this
      rw [this, ← hl b]
      simp
    · have := h1.complete a ha
      rw [e]; exact this
  · intro a ha hs
    rw [e]; exact h1.same a ha hs
  · intro b
    rw [e, ← hc b]; exact h1.count b
  · intro a
    rw [e]
    show (dictSet st1.actions s i).lookup a = _
    rw [lookup_dictSet, h1.look]
  · rw [e]; exact h1.refids

theorem resolve_spec (W : World) (sp : List Nat) (s0 : Nat) (hac : Acyclic W) (hraw : NoRawRefs W)
    (limit : Nat) : ∀ (s : Nat) (i : Option Nat) (st st' : RState), GOk st s0 → s = s0 ∨ s ∈ st.keys →
      st.ordered s = [] ∧ st.unordered s = [] → Within W sp s0 s →
      (∀ a b, Within W sp s0 a → Refers W a b → b ∈ sp → b ∈ st.keys) →
      resolve W limit s i st = some st' → ∃ N, Res W sp s0 s i st st' N := by
  induction limit with
  | zero => intro s i st st' _ _ _ _ _ h; simp [resolve] at h
  | succ limit ih =>
    intro s i st st' hg hreg h0 hw hb h
    simp only [resolve] at h
    by_cases href : (W s).referencing = true
    · rw [if_pos href, Option.bind_eq_some_iff] at h
      obtain ⟨st1, hscan, hrec⟩ := h
      have key : ∀ (l : List RefArg) (st0 st1 : RState), (∀ x ∈ l, x ∈ (W s).refs) → GOk st0 s0 → s = s0 ∨ s ∈ st0.keys →
          (∀ a b, Within W sp s0 a → Refers W a b → b ∈ sp → b ∈ st0.keys) →
          l.foldlM (resolveArg W (fun r st => resolve W limit r none st) s) st0 = some st1 →
          ∃ N, Scan W sp s0 s l st0 st1 N := by
        intro l
        induction l with
        | nil =>
          intro st0 st1 _ hg0 _ _ hf
          simp only [List.foldlM_nil, Option.pure_def, Option.some.injEq] at hf
          subst hf
          exact ⟨[], Scan.nil hg0⟩
        | cons x l ihl =>
          intro st0 st2 hsub hg0 hreg0 hb0 hf
          rw [List.foldlM_cons, Option.bind_eq_bind, Option.bind_eq_some_iff] at hf
          obtain ⟨st1, hx, hf⟩ := hf
          have step : ∃ N, Scan W sp s0 s [x] st0 st1 N := by
            have triv : ∀ (hc : ∀ b, x = RefArg.obj b → (W b).referenceable = false), st1 = st0 →
                ∃ N, Scan W sp s0 s [x] st0 st1 N := by
              intro hc e
              subst e
              refine ⟨[], ⟨hg0, by simp, by simp, by simp, by simp, by simp, ?_, ?_, by simp, rfl⟩⟩
              · intro b
                simp only [List.mem_singleton]
                constructor
                · exact .inl
                · rintro (h | ⟨h, h'⟩)
                  · exact h
                  · rw [hc b h.symm] at h'; simp at h'
              · intro b
                unfold cntl
                by_cases hr : (W b).referenceable = true
                · rw [if_pos hr]
                  have : x ≠ RefArg.obj b := by
                    intro e; rw [hc b e] at hr; simp at hr
                  simp [this]
                · simp [hr]
            cases x with
            | ref cb rid =>
              cases cb with
              | true =>
                simp only [resolveArg, Option.some.injEq] at hx
                exact triv (by simp) hx.symm
              | false => exact absurd (hsub _ (List.mem_cons_self)) (hraw s rid)
            | other =>
              simp only [resolveArg, Option.some.injEq] at hx
              exact triv (by simp) hx.symm
            | obj r =>
              simp only [resolveArg] at hx
              by_cases hrr : (W r).referenceable = false
              · rw [if_pos hrr] at hx
                simp only [Option.some.injEq] at hx
                exact triv (by intro b hb; cases hb; exact hrr) hx.symm
              · rw [if_neg hrr] at hx
                simp only [Bool.not_eq_false] at hrr
                by_cases hrs : r = s
                · rw [if_pos hrs] at hx; simp at hx
                · rw [if_neg hrs] at hx
                  have hsr : Refers W s r := ⟨href, hsub _ (List.mem_cons_self), hrr⟩
                  have hcnt : ∀ b, cntl W [RefArg.obj r] b = if b = r then 1 else 0 := by
                    intro b
                    unfold cntl
                    by_cases e : b = r
                    · subst e; simp [hrr]
                    · have : RefArg.obj r ≠ RefArg.obj b := by simpa using Ne.symm e
                      simp [e, this]
                  by_cases hk : (st0.actions.lookup r).isNone = true
                  · -- first time `r` is seen
                    rw [if_pos hk] at hx
                    have hrk : r ∉ st0.keys := (lookup_isNone _ _).1 hk
                    have hrsp : r ∉ sp := fun h => hrk (hb0 s r hw hsr h)
                    have hrw : Within W sp s0 r := .step hw hsr hrsp
                    obtain ⟨stm, hm⟩ : ∃ stm : RState, stm =
                      { refids := st0.refids, actions := dictSet st0.actions r none, ordered := st0.ordered,
                        unordered := upd st0.unordered s (st0.unordered s ++ [r]),
                        refCount := upd st0.refCount r (st0.refCount r + 1) } := ⟨_, rfl⟩
                    rw [← hm] at hx
                    have hmk : stm.keys = st0.keys ++ [r] := by
                      subst hm
                      exact (keys_dictSet _ _ _).trans (if_neg hrk)
                    have hmo : stm.ordered = st0.ordered := by subst hm; rfl
                    have hmu : stm.unordered = upd st0.unordered s (st0.unordered s ++ [r]) := by subst hm; rfl
                    have hmc : stm.refCount = upd st0.refCount r (st0.refCount r + 1) := by subst hm; rfl
                    have hml : ∀ a, stm.actions.lookup a = if a = r then some none else st0.actions.lookup a := by
                      intro a; subst hm; exact lookup_dictSet _ _ _ _
                    have hmr : stm.refids = st0.refids := by subst hm; rfl
                    clear hm
                    have hr0 : r ≠ s0 := by
                      intro e
                      exact hac s r hsr (e ▸ hw.needs)
                    have hgm : GOk stm s0 := by
                      constructor
                      · intro a b hab
                        rw [hmo, hmu] at hab
                        rw [hmk]
                        by_cases e : a = s
                        · subst e
                          rw [upd_same] at hab
                          rcases hab with h | h
                          · exact List.mem_append_left _ (hg0.closed a b (.inl h))
                          · rcases List.mem_append.1 h with h | h
                            · exact List.mem_append_left _ (hg0.closed a b (.inr h))
                            · exact List.mem_append_right _ h
                        · rw [upd_ne _ _ _ _ e] at hab
                          exact List.mem_append_left _ (hg0.closed a b hab)
                      · intro a ha ha0
                        rw [hmk] at ha
                        have hak : a ∉ st0.keys := fun h => ha (List.mem_append_left _ h)
                        have e : a ≠ s := by
                          rintro rfl
                          exact hreg0.elim ha0 hak
                        rw [hmo, hmu, upd_ne _ _ _ _ e]
                        exact hg0.empty a hak ha0
                      · rw [hmk, List.nodup_append]
                        refine ⟨hg0.nodup, by simp, ?_⟩
                        intro a ha b hb e
                        simp only [List.mem_singleton] at hb
                        exact hrk (hb ▸ e ▸ ha)
                    have hrm : r ∈ stm.keys := by rw [hmk]; simp
                    have hr_e : stm.ordered r = [] ∧ stm.unordered r = [] := by
                      rw [hmo, hmu, upd_ne _ _ _ _ hrs]
                      exact hg0.empty r hrk hr0
                    obtain ⟨N, hN⟩ := ih r none stm st1 hgm (.inr hrm) hr_e hrw (by
                      intro a b h1 h2 h3
                      rw [hmk]
                      exact List.mem_append_left _ (hb0 a b h1 h2 h3)) hx
                    have hkeys : st1.keys = st0.keys ++ (r :: N) := by
                      rw [hN.keys, if_pos hrm, hmk]; simp
                    have hsN : s ∉ N := by
                      intro hs
                      obtain ⟨y, h1, h2⟩ := hN.below s hs
                      exact hac s r hsr (Needs.trans h1.needs h2)
                    have hrN : r ∉ N := by
                      intro hs
                      obtain ⟨y, h1, h2⟩ := hN.below r hs
                      exact hac r y h1 h2
                    refine ⟨r :: N, ⟨⟨hN.closed, hN.empty, hN.nodup⟩, hkeys, ?_, ?_, ?_, ?_, ?_, ?_, ?_, hN.refids.trans hmr⟩⟩
                    · intro a ha
                      rcases List.mem_cons.1 ha with rfl | ha
                      · exact ⟨hrw, hrsp⟩
                      · exact hN.within a ha
                    · intro a ha
                      rcases List.mem_cons.1 ha with rfl | ha
                      · exact ⟨a, hsr, .refl⟩
                      · obtain ⟨y, h1, h2⟩ := hN.below a ha
                        exact ⟨r, hsr, Needs.trans h1.needs h2⟩
                    · intro a ha
                      exact hN.complete a (List.mem_cons.1 ha)
                    · intro a ha has
                      simp only [List.mem_cons, not_or] at ha
                      have := hN.same a ha.2 ha.1
                      rw [hmo, hmu, upd_ne _ _ _ _ has] at this
                      exact this
                    · intro b
                      have := hN.same s hsN (Ne.symm hrs)
                      rw [this.1, this.2, hmo, hmu, upd_same]
                      simp only [List.mem_append, List.mem_singleton, RefArg.obj.injEq]
                      constructor
                      · rintro (h | h | h)
                        · exact .inl (.inl h)
                        · exact .inl (.inr h)
                        · exact .inr ⟨h, h ▸ hrr⟩
                      · rintro ((h | h) | h)
                        · exact .inl h
                        · exact .inr (.inl h)
                        · exact .inr (.inr h.1)
                    · intro b
                      rw [hN.count, hmc, hcnt]
                      simp only [List.map_cons, List.sum_cons]
                      by_cases e : b = r
                      · subst e; rw [upd_same]; simp; omega
                      · rw [upd_ne _ _ _ _ e]; simp [e]; omega
                    · intro a
                      rw [hN.look, hml]
                      by_cases e : a = r
                      · simp [e]
                      · simp [e]
                  · -- `r` was seen before
                    rw [if_neg hk] at hx
                    have hrk : r ∈ st0.keys := by
                      by_cases h : r ∈ st0.keys
                      · exact h
                      · exact absurd ((lookup_isNone _ _).2 h) hk
                    have fin : ∀ (o : Nat → List Nat), (∀ b, b ∈ o s ↔ b ∈ st0.ordered s ∨ b = r) →
                        (∀ a, a ≠ s → o a = st0.ordered a) →
                        st1 = { refids := st0.refids, actions := st0.actions, ordered := o,
                                unordered := st0.unordered,
                                refCount := upd st0.refCount r (st0.refCount r + 1) } →
                        ∃ N, Scan W sp s0 s [RefArg.obj r] st0 st1 N := by
                      intro o ho1 ho2 e
                      have hkeys : st1.keys = st0.keys := by rw [e]; rfl
                      refine ⟨[], ⟨⟨?_, ?_, ?_⟩, by simp [hkeys], by simp, by simp, by simp, ?_, ?_, ?_, by simp [e], by rw [e]⟩⟩
                      · intro a b hab
                        rw [hkeys]
                        rw [e] at hab
                        by_cases ea : a = s
                        · subst ea
                          simp only [ho1] at hab
                          rcases hab with (h | h) | h
                          · exact hg0.closed a b (.inl h)
                          · rw [h]; exact hrk
                          · exact hg0.closed a b (.inr h)
                        · simp only [ho2 a ea] at hab
                          exact hg0.closed a b hab
                      · intro a ha ha0
                        rw [hkeys] at ha
                        have ea : a ≠ s := by
                          rintro rfl
                          exact hreg0.elim ha0 ha
                        rw [e]
                        simp only [ho2 a ea]
                        exact hg0.empty a ha ha0
                      · rw [hkeys]; exact hg0.nodup
                      · intro a _ ea
                        rw [e]
                        exact ⟨ho2 a ea, rfl⟩
                      · intro b
                        rw [e]
                        simp only [ho1, List.mem_singleton, RefArg.obj.injEq]
                        constructor
                        · rintro ((h | h) | h)
                          · exact .inl (.inl h)
                          · exact .inr ⟨h, h ▸ hrr⟩
                          · exact .inl (.inr h)
                        · rintro ((h | h) | h)
                          · exact .inl (.inl h)
                          · exact .inr h
                          · exact .inl (.inr h.1)
                      · intro b
                        rw [e, hcnt]
                        show upd st0.refCount r (st0.refCount r + 1) b = _
                        by_cases eb : b = r
                        · subst eb; rw [upd_same]; simp
                        · rw [upd_ne _ _ _ _ eb]; simp [eb]
                    by_cases ho : r ∈ st0.ordered s
                    · rw [if_pos ho] at hx
                      simp only [Option.some.injEq] at hx
                      refine fin st0.ordered ?_ (fun _ _ => rfl) hx.symm
                      intro b
                      constructor
                      · exact .inl
                      · rintro (h | h)
                        · exact h
                        · rw [h]; exact ho
                    · rw [if_neg ho] at hx
                      simp only [Option.some.injEq] at hx
                      refine fin (upd st0.ordered s (st0.ordered s ++ [r])) ?_ ?_ hx.symm
                      · intro b; rw [upd_same]; simp
                      · intro a ha; rw [upd_ne _ _ _ _ ha]
          obtain ⟨N1, hN1⟩ := step
          have hb1 : ∀ a b, Within W sp s0 a → Refers W a b → b ∈ sp → b ∈ st1.keys := by
            intro a b h1 h2 h3
            rw [hN1.keys]
            exact List.mem_append_left _ (hb0 a b h1 h2 h3)
          obtain ⟨N2, hN2⟩ := ihl st1 st2 (fun x hx => hsub x (List.mem_cons_of_mem _ hx)) hN1.gok
            (hreg0.imp id (fun h => by rw [hN1.keys]; exact List.mem_append_left _ h)) hb1 hf
          exact ⟨N1 ++ N2, by simpa using hN1.append hac hN2⟩
      obtain ⟨N, hN⟩ := key _ _ _ (fun x hx => hx) hg hreg hb hscan
      refine ⟨N, scan_to_res hac ?_ ?_ h0 hN hrec⟩
      · intro b
        unfold Refers
        simp [href]
      · intro b; simp [cnt, href]
    · rw [if_neg href] at h
      refine ⟨[], scan_to_res (l := []) hac ?_ ?_ h0 (Scan.nil hg) h⟩
      · intro b; unfold Refers; simp [href]
      · intro b; simp [cnt, cntl, href]

/-! ## An action added at two positions is refused -/

theorem recordPos_keeps {s : Nat} {i : Option Nat} {st st' : RState} (h : recordPos s i st = some st')
    (x p : Nat) (hx : st.actions.lookup x = some (some p)) (hne : x = s → i ≠ none) :
    st'.actions.lookup x = some (some p) := by
  have e := recordPos_some h
  rw [e]
  show (dictSet st.actions s i).lookup x = _
  rw [lookup_dictSet]
  by_cases hs : x = s
  · rw [if_pos hs]
    subst hs
    unfold recordPos at h
    rw [hx] at h
    cases i with
    | none => exact absurd rfl (hne rfl)
    | some q =>
      simp only [Option.join_some] at h
      by_cases hpq : p = q
      · rw [hpq]
      · rw [if_pos hpq] at h; simp at h
  · rw [if_neg hs]; exact hx

theorem resolve_keeps (W : World) (limit : Nat) : ∀ (s : Nat) (i : Option Nat) (st st' : RState),
    resolve W limit s i st = some st' → ∀ x p, st.actions.lookup x = some (some p) → (x = s → i ≠ none) →
    st'.actions.lookup x = some (some p) := by
  induction limit with
  | zero => intro s i st st' h; simp [resolve] at h
  | succ limit ih =>
    intro s i st st' h x p hx hne
    simp only [resolve] at h
    by_cases href : (W s).referencing = true
    · rw [if_pos href, Option.bind_eq_some_iff] at h
      obtain ⟨st1, hscan, hrec⟩ := h
      refine recordPos_keeps hrec x p ?_ hne
      have key : ∀ (l : List RefArg) (st0 st1 : RState),
          l.foldlM (resolveArg W (fun r st => resolve W limit r none st) s) st0 = some st1 →
          st0.actions.lookup x = some (some p) → st1.actions.lookup x = some (some p) := by
        intro l
        induction l with
        | nil =>
          intro st0 st1 hf h0
          simp only [List.foldlM_nil, Option.pure_def, Option.some.injEq] at hf
          subst hf; exact h0
        | cons y l ihl =>
          intro st0 st2 hf h0
          rw [List.foldlM_cons, Option.bind_eq_bind, Option.bind_eq_some_iff] at hf
          obtain ⟨st1, hy, hf⟩ := hf
          refine ihl st1 st2 hf ?_
          cases y with
          | other =>
            simp only [resolveArg, Option.some.injEq] at hy
            subst hy; exact h0
          | ref cb rid =>
            cases cb with
            | true =>
              simp only [resolveArg, Option.some.injEq] at hy
              subst hy; exact h0
            | false =>
              simp only [resolveArg] at hy
              split at hy
              · simp only [Option.some.injEq] at hy; subst hy; exact h0
              · simp only [Option.some.injEq] at hy; subst hy; exact h0
          | obj r =>
            simp only [resolveArg] at hy
            split at hy
            · simp only [Option.some.injEq] at hy; subst hy; exact h0
            · split at hy
              · simp at hy
              · split at hy
                · rename_i hk
                  have hxr : x ≠ r := by
                    rintro rfl
                    rw [h0] at hk; simp at hk
                  refine ih _ _ _ _ hy x p ?_ (fun e => absurd e hxr)
                  show (dictSet st0.actions r none).lookup x = _
                  rw [lookup_dictSet, if_neg hxr]; exact h0
                · split at hy
                  · simp only [Option.some.injEq] at hy; subst hy; exact h0
                  · simp only [Option.some.injEq] at hy; subst hy; exact h0
      exact key _ _ _ hscan hx
    · rw [if_neg href] at h
      exact recordPos_keeps h x p hx hne

theorem resolve_sets (W : World) (limit s q : Nat) (st st' : RState)
    (h : resolve W limit s (some q) st = some st') : st'.actions.lookup s = some (some q) := by
  have fin : ∀ st1, recordPos s (some q) st1 = some st' → st'.actions.lookup s = some (some q) := by
    intro st1 h1
    rw [recordPos_some h1]
    show (dictSet st1.actions s (some q)).lookup s = _
    rw [lookup_dictSet, if_pos rfl]
  cases limit with
  | zero => simp [resolve] at h
  | succ limit =>
    simp only [resolve] at h
    split at h
    · rw [Option.bind_eq_some_iff] at h
      obtain ⟨st1, _, h1⟩ := h
      exact fin st1 h1
    · exact fin st h

theorem resolveTop_keeps {W : World} {limit : Nat} {st st' : RState} {k s : Nat}
    (h : resolveTop W limit st (k, s) = some st') (x p : Nat) (hx : st.actions.lookup x = some (some p)) :
    st'.actions.lookup x = some (some p) ∧ (x = s → IsAction W s → p = k) := by
  unfold resolveTop at h
  split at h
  · rename_i hn
    simp only [Option.some.injEq] at h; subst h
    refine ⟨hx, fun _ hs => ?_⟩
    unfold IsAction at hs
    simp only [] at hn
    rw [hn.1, hn.2] at hs
    simp at hs
  · rw [Option.map_eq_some_iff] at h
    obtain ⟨st1, h1, h2⟩ := h
    have hst : st'.actions = st1.actions := by
      subst h2
      split
      · split <;> rfl
      · rfl
    have hk := resolve_keeps W limit _ _ _ _ h1 x p hx (by simp)
    rw [hst]
    refine ⟨hk, fun e _ => ?_⟩
    have := resolve_sets W limit _ _ _ _ h1
    simp only [] at this hk
    rw [← e, hk] at this
    simpa using this

theorem resolveTop_sets {W : World} {limit : Nat} {st st' : RState} {k s : Nat}
    (h : resolveTop W limit st (k, s) = some st') (ha : IsAction W s) : st'.actions.lookup s = some (some k) := by
  unfold resolveTop at h
  split at h
  · rename_i hn
    unfold IsAction at ha
    simp only [] at hn
    rw [hn.1, hn.2] at ha
    simp at ha
  · rw [Option.map_eq_some_iff] at h
    obtain ⟨st1, h1, h2⟩ := h
    have hst : st'.actions = st1.actions := by
      subst h2
      split
      · split <;> rfl
      · rfl
    rw [hst]
    exact resolve_sets W limit _ _ _ _ h1

theorem fold_keeps {W : World} {limit : Nat} (x p : Nat) (hx : IsAction W x) : ∀ (l : List Nat) (k : Nat) (st st' : RState),
    (enumFrom k l).foldlM (resolveTop W limit) st = some st' → st.actions.lookup x = some (some p) → p < k →
    x ∉ l := by
  intro l
  induction l with
  | nil => intro k st st' _ _ _; simp
  | cons s l ih =>
    intro k st st' h h0 hp
    simp only [enumFrom] at h
    rw [List.foldlM_cons, Option.bind_eq_bind, Option.bind_eq_some_iff] at h
    obtain ⟨st1, h1, h2⟩ := h
    have hk := resolveTop_keeps h1 x p h0
    simp only [List.mem_cons, not_or]
    refine ⟨?_, ih (k + 1) st1 st' h2 hk.1 (by omega)⟩
    intro e
    have := hk.2 e (e ▸ hx)
    omega

theorem resolvePhase_nodup {W : World} {limit : Nat} : ∀ (l : List Nat) (k : Nat) (st st' : RState),
    (enumFrom k l).foldlM (resolveTop W limit) st = some st' →
    ∀ pre s post, l = pre ++ s :: post → IsAction W s → s ∉ post := by
  intro l
  induction l with
  | nil => intro k st st' _ pre s post h; simp at h
  | cons a l ih =>
    intro k st st' h pre s post hl hs
    simp only [enumFrom] at h
    rw [List.foldlM_cons, Option.bind_eq_bind, Option.bind_eq_some_iff] at h
    obtain ⟨st1, h1, h2⟩ := h
    cases pre with
    | nil =>
      simp only [List.nil_append, List.cons.injEq] at hl
      obtain ⟨rfl, rfl⟩ := hl
      exact fold_keeps a k hs l (k + 1) st1 st' h2 (resolveTop_sets h1 hs) (by omega)
    | cons b pre =>
      simp only [List.cons_append, List.cons.injEq] at hl
      exact ih (k + 1) st1 st' h2 pre s post hl.2 hs

/-! ## The first phase as a whole -/

instance (W : World) (a : Nat) : Decidable (IsAction W a) := by unfold IsAction; infer_instance

/-- After the user's actions `pre` have been processed. -/
structure PhaseOk (W : World) (sp pre : List Nat) (st : RState) : Prop where
  closed : ∀ a b, b ∈ st.ordered a ∨ b ∈ st.unordered a → b ∈ st.keys
  empty : ∀ a, a ∉ st.keys → st.ordered a = [] ∧ st.unordered a = []
  nodup : st.keys.Nodup
  complete : ∀ a ∈ st.keys, Complete W st a
  member : ∀ a ∈ st.keys, ∃ p ∈ pre, IsAction W p ∧ Within W sp p a
  inPre : ∀ a ∈ st.keys, a ∈ sp → a ∈ pre
  order : st.keys.filter (· ∈ sp) = pre.filter (fun a => decide (IsAction W a))
  count : ∀ b, st.refCount b = (st.keys.map (cnt W · b)).sum
  look : ∀ a ∈ st.keys, ∃ v, st.actions.lookup a = some v ∧ (v.isSome = true ↔ a ∈ sp)

theorem PhaseOk.pres {W : World} {sp pre : List Nat} {st : RState} (h : PhaseOk W sp pre st) (p : Nat)
    (hp : p ∈ pre) (ha : IsAction W p) : p ∈ st.keys := by
  have : p ∈ pre.filter (fun a => decide (IsAction W a)) := by
    rw [List.mem_filter]; exact ⟨hp, by simpa using ha⟩
  rw [← h.order, List.mem_filter] at this
  exact this.1

theorem Refers.actions {W : World} {a b : Nat} (h : Refers W a b) : IsAction W a ∧ IsAction W b :=
  ⟨.inl h.1, .inr h.2.2⟩

theorem Before.mem {l : List Nat} {x y : Nat} (h : Before l x y) : x ∈ l := by
  obtain ⟨l1, l2, rfl, h1, _⟩ := h
  exact List.mem_append_left _ h1

theorem Before.split {pre post : List Nat} {x y : Nat} (h : Before (pre ++ y :: post) x y) :
    x ∈ pre := by
  obtain ⟨l1, l2, e, h1, h2⟩ := h
  rw [List.append_eq_append_iff] at e
  rcases e with ⟨c, e1, e2⟩ | ⟨c, e1, e2⟩
  · subst e1
    cases c with
    | nil => simpa using h1
    | cons z c =>
      simp only [List.cons_append, List.cons.injEq] at e2
      exact absurd (by simp [e2.1]) h2
  · rw [e1]; exact List.mem_append_left _ h1

theorem phase_step {W : World} {sp pre post : List Nat} {s limit k : Nat} {st st' : RState} (hac : Acyclic W)
    (hraw : NoRawRefs W) (hbu : AddedBeforeUse W sp) (hsp : sp = pre ++ s :: post)
    (hnd : IsAction W s → s ∉ pre)
    (hok : PhaseOk W sp pre st) (h : resolveTop W limit st (k, s) = some st') : PhaseOk W sp (pre ++ [s]) st' := by
  unfold resolveTop at h
  by_cases hn : (W s).referencing = false ∧ (W s).referenceable = false
  · rw [if_pos hn] at h
    simp only [Option.some.injEq] at h
    subst h
    have hna : ¬ IsAction W s := by unfold IsAction; rw [hn.1, hn.2]; simp
    refine ⟨hok.closed, hok.empty, hok.nodup, hok.complete, ?_, ?_, ?_, hok.count, hok.look⟩
    · intro a ha
      obtain ⟨p, h1, h2⟩ := hok.member a ha
      exact ⟨p, List.mem_append_left _ h1, h2⟩
    · intro a ha ha'; exact List.mem_append_left _ (hok.inPre a ha ha')
    · rw [hok.order, List.filter_append]; simp [hna]
  · rw [if_neg hn] at h
    have ha : IsAction W s := by
      unfold IsAction
      by_cases h1 : (W s).referencing = true
      · exact .inl h1
      · right
        by_cases h2 : (W s).referenceable = true
        · exact h2
        · simp only [Bool.not_eq_true] at h1 h2
          exact absurd ⟨h1, h2⟩ hn
    rw [Option.map_eq_some_iff] at h
    obtain ⟨st1, h1, h2⟩ := h
    have hss : s ∈ sp := by rw [hsp]; simp
    have hsk : s ∉ st.keys := fun hk => hnd ha (hok.inPre s hk hss)
    have hb : ∀ a b, Within W sp s a → Refers W a b → b ∈ sp → b ∈ st.keys := by
      intro a b h1 h2 h3
      have := hbu s hss a b h1 h2 h3
      rw [hsp] at this
      exact hok.pres b this.split h2.actions.2
    obtain ⟨N, hN⟩ := resolve_spec W sp s hac hraw limit s (some k) st st1
      ⟨hok.closed, fun a ha _ => hok.empty a ha, hok.nodup⟩ (.inl rfl) (hok.empty s hsk) .refl hb h1
    have hst : st'.actions = st1.actions ∧ st'.ordered = st1.ordered ∧ st'.unordered = st1.unordered ∧
        st'.refCount = st1.refCount := by
      subst h2
      split
      · split <;> exact ⟨rfl, rfl, rfl, rfl⟩
      · exact ⟨rfl, rfl, rfl, rfl⟩
    have hkeys : st'.keys = st1.keys := by unfold RState.keys; rw [hst.1]
    have hk1 : st'.keys = st.keys ++ N ++ [s] := by rw [hkeys, hN.keys, if_neg hsk]
    refine ⟨?_, ?_, ?_, ?_, ?_, ?_, ?_, ?_, ?_⟩
    · intro a b hab
      rw [hst.2.1, hst.2.2.1] at hab
      rw [hkeys]; exact hN.closed a b hab
    · intro a hnk
      rw [hst.2.1, hst.2.2.1]
      have has : a ≠ s := by
        intro e; exact hnk (by rw [hk1, e]; simp)
      rw [hkeys] at hnk
      exact hN.empty a hnk has
    · rw [hkeys]; exact hN.nodup
    · intro a hak
      have hc : Complete W st1 a := by
        by_cases hs : a = s ∨ a ∈ N
        · exact hN.complete a hs
        · simp only [not_or] at hs
          have := hN.same a hs.2 hs.1
          rw [hk1] at hak
          simp only [List.mem_append, List.mem_singleton] at hak
          have hak' : a ∈ st.keys := by
            rcases hak with (h | h) | h
            · exact h
            · exact absurd h hs.2
            · exact absurd h hs.1
          intro b
          rw [this.1, this.2]
          exact hok.complete a hak' b
      intro b
      rw [hst.2.1, hst.2.2.1]
      exact hc b
    · intro a hak
      rw [hk1] at hak
      simp only [List.mem_append, List.mem_singleton] at hak
      rcases hak with (h | h) | h
      · obtain ⟨p, h1, h2⟩ := hok.member a h
        exact ⟨p, List.mem_append_left _ h1, h2⟩
      · exact ⟨s, by simp, ha, (hN.within a h).1⟩
      · subst h; exact ⟨a, by simp, ha, .refl⟩
    · intro a hak hasp
      rw [hk1] at hak
      simp only [List.mem_append, List.mem_singleton] at hak
      rcases hak with (h | h) | h
      · exact List.mem_append_left _ (hok.inPre a h hasp)
      · exact absurd hasp (hN.within a h).2
      · subst h; simp
    · rw [hk1, List.filter_append, List.filter_append, hok.order, List.filter_append]
      have e1 : N.filter (fun a => decide (a ∈ sp)) = [] := by
        rw [List.filter_eq_nil_iff]
        intro a haN
        simpa using (hN.within a haN).2
      rw [e1]
      simp [hss, ha]
    · intro b
      rw [hst.2.2.2, hN.count, hok.count, hk1]
      simp only [List.map_append, List.sum_append, List.map_cons, List.map_nil, List.sum_cons, List.sum_nil]
      omega
    · intro a hak
      rw [hst.1, hN.look]
      by_cases has : a = s
      · refine ⟨some k, by rw [if_pos has], by simp [has, hss]⟩
      · rw [if_neg has]
        by_cases haN : a ∈ N
        · refine ⟨none, by rw [if_pos haN], by simp [(hN.within a haN).2]⟩
        · rw [if_neg haN]
          rw [hk1] at hak
          simp only [List.mem_append, List.mem_singleton] at hak
          rcases hak with (h | h) | h
          · exact hok.look a h
          · exact absurd h haN
          · exact absurd h has

theorem resolvePhase_ok {W : World} {sp : List Nat} {limit : Nat} {R : RState} (hac : Acyclic W)
    (hraw : NoRawRefs W) (hbu : AddedBeforeUse W sp) (h : resolvePhase W limit sp = some R) :
    PhaseOk W sp sp R := by
  have hnd := resolvePhase_nodup sp 0 _ _ h
  have key : ∀ (post pre : List Nat) (k : Nat) (st : RState), sp = pre ++ post → PhaseOk W sp pre st →
      (enumFrom k post).foldlM (resolveTop W limit) st = some R → PhaseOk W sp sp R := by
    intro post
    induction post with
    | nil =>
      intro pre k st e hok hf
      simp only [enumFrom, List.foldlM_nil, Option.pure_def, Option.some.injEq] at hf
      subst hf
      rw [List.append_nil] at e
      rw [e] at hok ⊢
      exact hok
    | cons s post ih =>
      intro pre k st e hok hf
      simp only [enumFrom] at hf
      rw [List.foldlM_cons, Option.bind_eq_bind, Option.bind_eq_some_iff] at hf
      obtain ⟨st1, h1, h2⟩ := hf
      refine ih (pre ++ [s]) (k + 1) st1 (by simp [e]) ?_ h2
      refine phase_step hac hraw hbu e ?_ hok h1
      intro hs hmem
      obtain ⟨p1, p2, e2⟩ := List.append_of_mem hmem
      exact hnd p1 s (p2 ++ s :: post) (by rw [e, e2]; simp) hs (by simp)
  refine key sp [] 0 {} rfl ?_ h
  constructor <;> simp [RState.keys]

end Grf
