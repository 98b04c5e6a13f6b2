import Verif.Proofs.Refs4
/-!
# The dictionaries `ordered_refs` and `unordered_refs` of one action
-/
namespace Grf

/-- `resolve` of `s` does not touch the entries of an action met before, or not needed. -/
theorem resolve_frozen (W : World) (x : Nat) (limit : Nat) : ∀ (s : Nat) (i : Option Nat) (st st' : RState),
    resolve W limit s i st = some st' → x ≠ s → (x ∈ st.keys ∨ ¬ Needs W s x) →
    st'.ordered x = st.ordered x ∧ st'.unordered x = st.unordered x ∧ (x ∈ st.keys → x ∈ st'.keys) := by
  induction limit with
  | zero => intro s i st st' h; simp [resolve] at h
  | succ limit ih =>
    intro s i st st' h hne hx
    have rec1 : ∀ st1, recordPos s i st1 = some st' → st'.ordered x = st1.ordered x ∧ st'.unordered x = st1.unordered x ∧
        (x ∈ st1.keys → x ∈ st'.keys) := by
      intro st1 h1
      rw [recordPos_some h1]
      refine ⟨rfl, rfl, fun hm => ?_⟩
      show x ∈ (dictSet st1.actions s i).map (·.1)
      rw [keys_dictSet]
      split
      · exact hm
      · exact List.mem_append_left _ hm
    simp only [resolve] at h
    by_cases href : (W s).referencing = true
    · rw [if_pos href, Option.bind_eq_some_iff] at h
      obtain ⟨st1, hscan, hrec⟩ := h
      have key : ∀ (l : List RefArg) (st0 st1 : RState), (∀ y ∈ l, y ∈ (W s).refs) →
          l.foldlM (resolveArg W (fun r st => resolve W limit r none st) s) st0 = some st1 →
          (x ∈ st0.keys ∨ ¬ Needs W s x) →
          st1.ordered x = st0.ordered x ∧ st1.unordered x = st0.unordered x ∧ (x ∈ st0.keys → x ∈ st1.keys) := by
        intro l
        induction l with
        | nil =>
          intro st0 st1 _ hf _
          simp only [List.foldlM_nil, Option.pure_def, Option.some.injEq] at hf
          subst hf; exact ⟨rfl, rfl, id⟩
        | cons y l ihl =>
          intro st0 st2 hl hf h0
          rw [List.foldlM_cons, Option.bind_eq_bind, Option.bind_eq_some_iff] at hf
          obtain ⟨st1, hy, hf⟩ := hf
          have step : st1.ordered x = st0.ordered x ∧ st1.unordered x = st0.unordered x ∧ (x ∈ st0.keys → x ∈ st1.keys) := by
            cases y with
            | other => simp only [resolveArg, Option.some.injEq] at hy; subst hy; exact ⟨rfl, rfl, id⟩
            | ref cb rid =>
              cases cb with
              | true => simp only [resolveArg, Option.some.injEq] at hy; subst hy; exact ⟨rfl, rfl, id⟩
              | false =>
                simp only [resolveArg] at hy
                split at hy <;> (simp only [Option.some.injEq] at hy; subst hy; exact ⟨rfl, rfl, id⟩)
            | obj r =>
              simp only [resolveArg] at hy
              split at hy
              · simp only [Option.some.injEq] at hy; subst hy; exact ⟨rfl, rfl, id⟩
              · rename_i hra
                split at hy
                · simp at hy
                · split at hy
                  · rename_i hk
                    have hrk : r ∉ st0.keys := (lookup_isNone _ _).1 hk
                    have hxr : x ≠ r := by
                      rintro rfl
                      rcases h0 with h0 | h0
                      · exact hrk h0
                      · exact h0 (.step .refl ⟨href, hl _ List.mem_cons_self, by simpa using hra⟩)
                    have hmk : x ∈ st0.keys → x ∈ (dictSet st0.actions r (none : Option Nat)).map (·.1) := by
                      intro hm
                      rw [keys_dictSet]
                      split
                      · exact hm
                      · exact List.mem_append_left _ hm
                    have := ih r none _ st1 hy hxr (by
                      rcases h0 with h0 | h0
                      · exact .inl (hmk h0)
                      · refine .inr (fun hn => h0 (Needs.trans (Refers.needs ⟨href, hl _ List.mem_cons_self, by simpa using hra⟩) hn)))
                    refine ⟨this.1, ?_, fun hm => this.2.2 (hmk hm)⟩
                    rw [this.2.1]
                    exact upd_ne _ _ _ _ hne
                  · split at hy
                    · simp only [Option.some.injEq] at hy; subst hy; exact ⟨rfl, rfl, id⟩
                    · simp only [Option.some.injEq] at hy; subst hy
                      exact ⟨upd_ne _ _ _ _ hne, rfl, id⟩
          have rest := ihl st1 st2 (fun z hz => hl z (List.mem_cons_of_mem _ hz)) hf (h0.imp step.2.2 id)
          exact ⟨rest.1.trans step.1, rest.2.1.trans step.2.1, fun hm => rest.2.2 (step.2.2 hm)⟩
      have a := key _ _ _ (fun _ h => h) hscan hx
      have b := rec1 st1 hrec
      exact ⟨b.1.trans a.1, b.2.1.trans a.2.1, fun hm => b.2.2 (a.2.2 hm)⟩
    · rw [if_neg href] at h
      exact rec1 st h

theorem resolveTop_frozen {W : World} {limit k s x : Nat} {st st' : RState} (h : resolveTop W limit st (k, s) = some st')
    (hne : IsAction W s → x ≠ s) (hx : x ∈ st.keys ∨ ¬ Needs W s x) :
    st'.ordered x = st.ordered x ∧ st'.unordered x = st.unordered x ∧ (x ∈ st.keys → x ∈ st'.keys) := by
  unfold resolveTop at h
  split at h
  · simp only [Option.some.injEq] at h; subst h; exact ⟨rfl, rfl, id⟩
  · rename_i hn
    rw [Option.map_eq_some_iff] at h
    obtain ⟨st1, h1, h2⟩ := h
    have hs : IsAction W s := by
      unfold IsAction
      cases e1 : (W s).referencing <;> cases e2 : (W s).referenceable <;> simp_all
    have := resolve_frozen W x limit s (some k) st st1 h1 (hne hs) hx
    have e : st'.ordered = st1.ordered ∧ st'.unordered = st1.unordered ∧ st'.actions = st1.actions := by
      subst h2
      split
      · split <;> exact ⟨rfl, rfl, rfl⟩
      · exact ⟨rfl, rfl, rfl⟩
    unfold RState.keys
    rw [e.1, e.2.1, e.2.2]
    exact this

/-- Later actions do not touch the entries of `x`. -/
theorem fold_frozen {W : World} {limit x : Nat} : ∀ (l : List Nat) (k : Nat) (st st' : RState),
    (enumFrom k l).foldlM (resolveTop W limit) st = some st' → (∀ s ∈ l, IsAction W s → x ≠ s) → (x ∈ st.keys ∨ ∀ s ∈ l, ¬ Needs W s x) →
    st'.ordered x = st.ordered x ∧ st'.unordered x = st.unordered x ∧ (x ∈ st.keys → x ∈ st'.keys) := by
  intro l
  induction l with
  | nil =>
    intro k st st' h _ _
    simp only [enumFrom, List.foldlM_nil, Option.pure_def, Option.some.injEq] at h
    subst h; exact ⟨rfl, rfl, id⟩
  | cons s l ih =>
    intro k st st' h hne hx
    simp only [enumFrom] at h
    rw [List.foldlM_cons, Option.bind_eq_bind, Option.bind_eq_some_iff] at h
    obtain ⟨st1, h1, h2⟩ := h
    have a := resolveTop_frozen h1 (hne s List.mem_cons_self) (hx.imp id (fun h => h s List.mem_cons_self))
    have b := ih (k + 1) st1 st' h2 (fun t ht => hne t (List.mem_cons_of_mem _ ht))
      (hx.imp a.2.2 (fun h t ht => h t (List.mem_cons_of_mem _ ht)))
    exact ⟨b.1.trans a.1, b.2.1.trans a.2.1, fun hm => b.2.2 (a.2.2 hm)⟩

/-- The state when the user's action `M` is looked at, and what its entries are at the end. -/
theorem phase_at {W : World} {sp pre post : List Nat} {M limit : Nat} {R : RState} (hac : Acyclic W)
    (h : resolvePhase W limit sp = some R) (e : sp = pre ++ M :: post) (hM : IsAction W M) :
    ∃ st st1 k, PhaseG W sp pre st ∧ resolve W limit M (some k) st = some st1 ∧
      (∀ x, (∀ p ∈ pre, ¬ Needs W p x) → st.ordered x = [] ∧ st.unordered x = []) ∧
      (∀ x, x ∈ st1.keys → (x = M ∨ x ∉ sp) → R.ordered x = st1.ordered x ∧ R.unordered x = st1.unordered x) := by
  have hnd := resolvePhase_nodup sp 0 _ _ h
  have split : ∀ (l1 l2 : List Nat) (k : Nat) (st : RState) (S : RState), (enumFrom k (l1 ++ l2)).foldlM (resolveTop W limit) st = some S →
      ∃ st1, (enumFrom k l1).foldlM (resolveTop W limit) st = some st1 ∧
        (enumFrom (k + l1.length) l2).foldlM (resolveTop W limit) st1 = some S := by
    intro l1
    induction l1 with
    | nil => intro l2 k st S hf; exact ⟨st, rfl, by simpa using hf⟩
    | cons s l1 ih =>
      intro l2 k st S hf
      simp only [List.cons_append, enumFrom] at hf ⊢
      rw [List.foldlM_cons, Option.bind_eq_bind, Option.bind_eq_some_iff] at hf
      obtain ⟨st1, h1, h2⟩ := hf
      obtain ⟨st2, h3, h4⟩ := ih l2 (k + 1) st1 S h2
      refine ⟨st2, ?_, ?_⟩
      · rw [List.foldlM_cons, Option.bind_eq_bind, h1]; exact h3
      · rw [List.length_cons, show k + (l1.length + 1) = k + 1 + l1.length by omega]; exact h4
  have hh := h
  unfold resolvePhase at hh
  rw [e] at hh
  obtain ⟨st, h1, h2⟩ := split pre (M :: post) 0 {} R hh
  simp only [enumFrom] at h2
  rw [List.foldlM_cons, Option.bind_eq_bind, Option.bind_eq_some_iff] at h2
  obtain ⟨st2, h3, h4⟩ := h2
  have hok : PhaseG W sp pre st := by
    have key : ∀ (l2 l1 : List Nat) (k : Nat) (s0 s1 : RState), l1 ++ l2 = pre → PhaseG W sp l1 s0 →
        (enumFrom k l2).foldlM (resolveTop W limit) s0 = some s1 → PhaseG W sp pre s1 := by
      intro l2
      induction l2 with
      | nil =>
        intro l1 k s0 s1 e1 hk hf
        simp only [enumFrom, List.foldlM_nil, Option.pure_def, Option.some.injEq] at hf
        subst hf
        rw [List.append_nil] at e1; rw [← e1]; exact hk
      | cons a l2 ih =>
        intro l1 k s0 s1 e1 hk hf
        simp only [enumFrom] at hf
        rw [List.foldlM_cons, Option.bind_eq_bind, Option.bind_eq_some_iff] at hf
        obtain ⟨s2, h5, h6⟩ := hf
        have e2 : sp = l1 ++ a :: (l2 ++ M :: post) := by rw [e, ← e1]; simp
        refine ih (l1 ++ [a]) (k + 1) s2 s1 (by simp [e1]) ?_ h6
        refine phaseG_step hac e2 ?_ hk h5
        intro hs hmem
        obtain ⟨p1, p2, e3⟩ := List.append_of_mem hmem
        exact hnd p1 a (p2 ++ a :: (l2 ++ M :: post)) (by rw [e2, e3]; simp) hs (by simp)
    refine key pre [] 0 {} st rfl ?_ h1
    exact phaseG_init
  unfold resolveTop at h3
  rw [if_neg (by rintro ⟨a, b⟩; unfold IsAction at hM; simp only [] at a b; rw [a, b] at hM; simp at hM)] at h3
  rw [Option.map_eq_some_iff] at h3
  obtain ⟨st1, h5, h6⟩ := h3
  have e6 : st2.ordered = st1.ordered ∧ st2.unordered = st1.unordered ∧ st2.actions = st1.actions := by
    subst h6
    split
    · split <;> exact ⟨rfl, rfl, rfl⟩
    · exact ⟨rfl, rfl, rfl⟩
  refine ⟨st, st1, _, hok, h5, ?_, ?_⟩
  · intro x hx
    have hna : ∀ s ∈ pre, IsAction W s → x ≠ s := fun s hs _ e => hx s hs (e ▸ .refl)
    have := fold_frozen pre 0 {} st h1 hna (.inr hx)
    exact ⟨this.1, this.2.1⟩
  · intro x hx hc
    have := fold_frozen (x := x) post _ st2 R h4 (by
      intro s hs ha
      rcases hc with rfl | hc
      · rintro rfl; exact hnd pre x post e hM hs
      · rintro rfl; exact hc (by rw [e]; simp [hs])) (.inl (by unfold RState.keys at hx ⊢; rw [e6.2.2]; exact hx))
    rw [this.1, this.2.1, e6.1, e6.2.1]
    exact ⟨rfl, rfl⟩


/-- `resolve` of `s` registers only actions `s` needs. -/
theorem resolve_keys (W : World) (limit : Nat) : ∀ (s : Nat) (i : Option Nat) (st st' : RState),
    resolve W limit s i st = some st' → (∀ x ∈ st'.keys, x ∈ st.keys ∨ Needs W s x) ∧ (∀ x ∈ st.keys, x ∈ st'.keys) ∧ s ∈ st'.keys := by
  induction limit with
  | zero => intro s i st st' h; simp [resolve] at h
  | succ limit ih =>
    intro s i st st' h
    have rec1 : ∀ st1, recordPos s i st1 = some st' → (∀ x ∈ st'.keys, x ∈ st1.keys ∨ x = s) ∧ (∀ x ∈ st1.keys, x ∈ st'.keys) ∧ s ∈ st'.keys := by
      intro st1 h1
      have e : st'.keys = if s ∈ st1.keys then st1.keys else st1.keys ++ [s] := by
        rw [recordPos_some h1]
        exact keys_dictSet st1.actions s i
      rw [e]
      split
      · rename_i hs
        exact ⟨fun x hx => .inl hx, fun x hx => hx, hs⟩
      · exact ⟨fun x hx => by simpa using hx, fun x hx => List.mem_append_left _ hx, by simp⟩
    simp only [resolve] at h
    by_cases href : (W s).referencing = true
    · rw [if_pos href, Option.bind_eq_some_iff] at h
      obtain ⟨st1, hscan, hrec⟩ := h
      have key : ∀ (l : List RefArg) (st0 st1 : RState), (∀ y ∈ l, y ∈ (W s).refs) →
          l.foldlM (resolveArg W (fun r st => resolve W limit r none st) s) st0 = some st1 →
          (∀ x ∈ st1.keys, x ∈ st0.keys ∨ Needs W s x) ∧ (∀ x ∈ st0.keys, x ∈ st1.keys) := by
        intro l
        induction l with
        | nil =>
          intro st0 st1 _ hf
          simp only [List.foldlM_nil, Option.pure_def, Option.some.injEq] at hf
          subst hf; exact ⟨fun x hx => .inl hx, fun x hx => hx⟩
        | cons y l ihl =>
          intro st0 st2 hl hf
          rw [List.foldlM_cons, Option.bind_eq_bind, Option.bind_eq_some_iff] at hf
          obtain ⟨st1, hy, hf⟩ := hf
          have step : (∀ x ∈ st1.keys, x ∈ st0.keys ∨ Needs W s x) ∧ (∀ x ∈ st0.keys, x ∈ st1.keys) := by
            cases y with
            | other => simp only [resolveArg, Option.some.injEq] at hy; subst hy; exact ⟨fun x hx => .inl hx, fun x hx => hx⟩
            | ref cb rid =>
              cases cb with
              | true => simp only [resolveArg, Option.some.injEq] at hy; subst hy; exact ⟨fun x hx => .inl hx, fun x hx => hx⟩
              | false =>
                simp only [resolveArg] at hy
                split at hy <;> (simp only [Option.some.injEq] at hy; subst hy; exact ⟨fun x hx => .inl hx, fun x hx => hx⟩)
            | obj r =>
              simp only [resolveArg] at hy
              split at hy
              · simp only [Option.some.injEq] at hy; subst hy; exact ⟨fun x hx => .inl hx, fun x hx => hx⟩
              · rename_i hra
                have hsr : Refers W s r := ⟨href, hl _ List.mem_cons_self, by simpa using hra⟩
                split at hy
                · simp at hy
                · split at hy
                  · rename_i hk
                    have hrk : r ∉ st0.keys := (lookup_isNone _ _).1 hk
                    have := ih r none _ st1 hy
                    have ek : ∀ x, x ∈ (dictSet st0.actions r (none : Option Nat)).map (·.1) ↔ x ∈ st0.keys ∨ x = r := by
                      intro x
                      rw [keys_dictSet, if_neg (show r ∉ st0.actions.map (·.1) from hrk)]
                      simp [RState.keys]
                    refine ⟨fun x hx => ?_, fun x hx => this.2.1 x ((ek x).2 (.inl hx))⟩
                    rcases this.1 x hx with h | h
                    · rcases (ek x).1 h with h | h
                      · exact .inl h
                      · exact .inr (h ▸ hsr.needs)
                    · exact .inr (hsr.needs.trans h)
                  · split at hy <;> (simp only [Option.some.injEq] at hy; subst hy; exact ⟨fun x hx => .inl hx, fun x hx => hx⟩)
          have rest := ihl st1 st2 (fun z hz => hl z (List.mem_cons_of_mem _ hz)) hf
          exact ⟨fun x hx => (rest.1 x hx).elim (step.1 x) .inr, fun x hx => rest.2 x (step.2 x hx)⟩
      have a := key _ _ _ (fun _ h => h) hscan
      have b := rec1 st1 hrec
      refine ⟨fun x hx => ?_, fun x hx => b.2.1 x (a.2 x hx), b.2.2⟩
      rcases b.1 x hx with h | h
      · exact a.1 x h
      · exact .inr (h ▸ .refl)
    · rw [if_neg href] at h
      have b := rec1 st h
      refine ⟨fun x hx => ?_, b.2.1, b.2.2⟩
      rcases b.1 x hx with h | h
      · exact .inl h
      · exact .inr (h ▸ .refl)

/-- What scanning the references `l` of `s` does to the entries of `s`. -/
theorem scan_own (W : World) (hac : Acyclic W) (limit s : Nat) (href : (W s).referencing = true) :
    ∀ (l : List RefArg) (st0 st1 : RState), (∀ y ∈ l, y ∈ (W s).refs) →
      l.foldlM (resolveArg W (fun r st => resolve W limit r none st) s) st0 = some st1 →
      (∃ t, st1.ordered s = st0.ordered s ++ t) ∧ (∃ t, st1.unordered s = st0.unordered s ++ t) ∧ (∀ x ∈ st0.keys, x ∈ st1.keys) ∧
      (∀ x ∈ st0.keys, x ≠ s → st1.ordered x = st0.ordered x) ∧
      ((∀ l1 r l2, l = l1 ++ .obj r :: l2 → (W r).referenceable = true → r ∉ st0.keys ∧
          ∀ q, .obj q ∈ l1 → (W q).referenceable = true → ¬ Needs W q r) → st1.ordered s = st0.ordered s) := by
  intro l
  induction l with
  | nil =>
    intro st0 st1 _ hf
    simp only [List.foldlM_nil, Option.pure_def, Option.some.injEq] at hf
    subst hf
    exact ⟨⟨[], by simp⟩, ⟨[], by simp⟩, fun x hx => hx, fun _ _ _ => rfl, fun _ => rfl⟩
  | cons y l ihl =>
    intro st0 st2 hl hf
    rw [List.foldlM_cons, Option.bind_eq_bind, Option.bind_eq_some_iff] at hf
    obtain ⟨st1, hy, hf⟩ := hf
    have step : (∃ t, st1.ordered s = st0.ordered s ++ t) ∧ (∃ t, st1.unordered s = st0.unordered s ++ t) ∧ (∀ x ∈ st0.keys, x ∈ st1.keys) ∧
        (∀ x ∈ st0.keys, x ≠ s → st1.ordered x = st0.ordered x) ∧
        (∀ x ∈ st1.keys, x ∈ st0.keys ∨ ∃ r, y = .obj r ∧ (W r).referenceable = true ∧ Needs W r x) ∧
        ((∀ r, y = .obj r → (W r).referenceable = true → r ∉ st0.keys) → st1.ordered s = st0.ordered s) := by
      have triv : st1 = st0 ∨ (∃ c, st1 = { st0 with refCount := c }) → (∃ t, st1.ordered s = st0.ordered s ++ t) ∧
          (∃ t, st1.unordered s = st0.unordered s ++ t) ∧ (∀ x ∈ st0.keys, x ∈ st1.keys) ∧
          (∀ x ∈ st0.keys, x ≠ s → st1.ordered x = st0.ordered x) ∧
          (∀ x ∈ st1.keys, x ∈ st0.keys ∨ ∃ r, y = .obj r ∧ (W r).referenceable = true ∧ Needs W r x) ∧
          ((∀ r, y = .obj r → (W r).referenceable = true → r ∉ st0.keys) → st1.ordered s = st0.ordered s) := by
        rintro (e | ⟨c, e⟩) <;> subst e <;>
          exact ⟨⟨[], by simp⟩, ⟨[], by simp⟩, fun x hx => hx, fun _ _ _ => rfl, fun x hx => .inl hx, fun _ => rfl⟩
      cases y with
      | other => simp only [resolveArg, Option.some.injEq] at hy; exact triv (.inl hy.symm)
      | ref cb rid =>
        cases cb with
        | true => simp only [resolveArg, Option.some.injEq] at hy; exact triv (.inl hy.symm)
        | false =>
          simp only [resolveArg] at hy
          split at hy
          · simp only [Option.some.injEq] at hy; exact triv (.inl hy.symm)
          · simp only [Option.some.injEq] at hy; exact triv (.inr ⟨_, hy.symm⟩)
      | obj r =>
        simp only [resolveArg] at hy
        split at hy
        · simp only [Option.some.injEq] at hy; exact triv (.inl hy.symm)
        · rename_i hra
          have hra' : (W r).referenceable = true := by simpa using hra
          have hsr : Refers W s r := ⟨href, hl _ List.mem_cons_self, hra'⟩
          split at hy
          · simp at hy
          · rename_i hrs
            split at hy
            · rename_i hk
              have hrk : r ∉ st0.keys := (lookup_isNone _ _).1 hk
              have ek : ∀ x, x ∈ (dictSet st0.actions r (none : Option Nat)).map (·.1) ↔ x ∈ st0.keys ∨ x = r := by
                intro x
                rw [keys_dictSet, if_neg (show r ∉ st0.actions.map (·.1) from hrk)]
                simp [RState.keys]
              have fs := resolve_frozen W s limit r none _ st1 hy (fun e => hrs e.symm) (.inr (hac s r hsr))
              have ks := resolve_keys W limit r none _ st1 hy
              refine ⟨⟨[], ?_⟩, ⟨[r], ?_⟩, fun x hx => ks.2.1 x ((ek x).2 (.inl hx)), ?_, ?_, fun _ => fs.1⟩
              · rw [fs.1, List.append_nil]
              · rw [fs.2.1]; exact upd_same _ _ _
              · intro x hx _
                exact (resolve_frozen W x limit r none _ st1 hy (fun e => hrk (e ▸ hx)) (.inl ((ek x).2 (.inl hx)))).1
              · intro x hx
                rcases ks.1 x hx with h | h
                · rcases (ek x).1 h with h | h
                  · exact .inl h
                  · exact .inr ⟨r, rfl, hra', h ▸ .refl⟩
                · exact .inr ⟨r, rfl, hra', h⟩
            · rename_i hk
              have hrk : r ∈ st0.keys := by
                by_cases h : r ∈ st0.keys
                · exact h
                · exact absurd ((lookup_isNone _ _).2 h) hk
              split at hy
              · simp only [Option.some.injEq] at hy; exact triv (.inr ⟨_, hy.symm⟩)
              · simp only [Option.some.injEq] at hy; subst hy
                refine ⟨⟨[r], upd_same _ _ _⟩, ⟨[], by simp⟩, fun x hx => hx, fun x _ hne => upd_ne _ _ _ _ hne, fun x hx => .inl hx, ?_⟩
                intro hnew
                exact absurd hrk (hnew r rfl hra')
    obtain ⟨⟨t1, a1⟩, ⟨t2, a2⟩, a3, a4, a5, a6⟩ := step
    obtain ⟨⟨u1, b1⟩, ⟨u2, b2⟩, b3, b4, b5⟩ := ihl st1 st2 (fun z hz => hl z (List.mem_cons_of_mem _ hz)) hf
    refine ⟨⟨t1 ++ u1, by rw [b1, a1, List.append_assoc]⟩, ⟨t2 ++ u2, by rw [b2, a2, List.append_assoc]⟩, fun x hx => b3 x (a3 x hx),
      fun x hx hne => (b4 x (a3 x hx) hne).trans (a4 x hx hne), ?_⟩
    intro hnew
    rw [b5, a6]
    · intro r e hr
      exact (hnew [] r l (by rw [e]; rfl) hr).1
    · intro l1 r l2 e hr
      have := hnew (y :: l1) r l2 (by rw [e]; rfl) hr
      refine ⟨fun hm => ?_, fun q hq => this.2 q (List.mem_cons_of_mem _ hq)⟩
      rcases a5 r hm with h | ⟨q, e1, e2, e3⟩
      · exact this.1 h
      · exact this.2 q (by rw [e1]; exact List.mem_cons_self) e2 e3

end Grf
