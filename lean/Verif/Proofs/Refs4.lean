import Verif.Proofs.Refs3
/-! The first phase of `resolve_refs` for any order of the user's actions and with raw references. -/
namespace Grf

/-- Number of raw references in `l` that mean `b` when the numbers are known as `t`. -/
def rawl (t : List (Int × Nat)) (l : List RefArg) (b : Nat) : Nat :=
  l.countP fun x => match x with
    | .ref false rid => decide (t.lookup rid = some b)
    | _ => false

/-- Number of references from `a` to `b`, raw ones included. -/
def tot (W : World) (t : List (Int × Nat)) (a b : Nat) : Nat :=
  cnt W a b + if (W a).referencing then rawl t (W a).refs b else 0

theorem rawl_append (t : List (Int × Nat)) (l1 l2 : List RefArg) (b : Nat) : rawl t (l1 ++ l2) b = rawl t l1 b + rawl t l2 b := by
  simp [rawl, List.countP_append]

theorem rawl_pos {t : List (Int × Nat)} {l : List RefArg} {b : Nat} :
    rawl t l b ≠ 0 ↔ ∃ rid, RefArg.ref false rid ∈ l ∧ t.lookup rid = some b := by
  unfold rawl
  rw [Nat.ne_zero_iff_zero_lt, List.countP_pos_iff]
  constructor
  · rintro ⟨x, hx, h⟩
    cases x with
    | ref cb rid =>
      cases cb with
      | false => exact ⟨rid, hx, by simpa using h⟩
      | true => simp at h
    | obj n => simp at h
    | other => simp at h
  · rintro ⟨rid, hm, h⟩
    exact ⟨_, hm, by simpa using h⟩

/-- `b` was recorded as a reference of `a`. -/
def Child (st : RState) (a b : Nat) : Prop := b ∈ st.ordered a ∨ b ∈ st.unordered a

/-- Invariant of the dictionaries between any two steps. -/
structure GG (W : World) (st : RState) : Prop where
  sound : ∀ a b, Child st a b → Refers W a b
  closed : ∀ a b, Child st a b → b ∈ st.keys
  nodup : st.keys.Nodup

/-- Effect of scanning the references `l` of `s`. -/
structure ScanG (W : World) (s : Nat) (l : List RefArg) (st st' : RState) (N : List Nat) : Prop where
  ok : GG W st'
  keys : st'.keys = st.keys ++ N
  below : ∀ a ∈ N, ∃ r, Refers W s r ∧ Needs W r a
  done : ∀ a ∈ N, ∀ b, Refers W a b → Child st' a b
  mono : ∀ a b, Child st a b → Child st' a b
  children : ∀ b, RefArg.obj b ∈ l → (W b).referenceable = true → Child st' s b
  count : ∀ b, st'.refCount b = st.refCount b + (cntl W l b + rawl st.refids l b) + (N.map (tot W st.refids · b)).sum
  look : ∀ a, st'.actions.lookup a = if a ∈ N then some none else st.actions.lookup a
  refids : st'.refids = st.refids

theorem ScanG.nil {W : World} {s : Nat} {st : RState} (h : GG W st) : ScanG W s [] st st [] where
  ok := h
  keys := by simp
  below := by simp
  done := by simp
  mono := fun _ _ h => h
  children := by simp
  count := by simp [cntl, rawl]
  look := by simp
  refids := rfl

theorem cntl_append (W : World) (l1 l2 : List RefArg) (b : Nat) : cntl W (l1 ++ l2) b = cntl W l1 b + cntl W l2 b := by
  unfold cntl; split <;> simp

theorem ScanG.append {W : World} {s : Nat} {l1 l2 : List RefArg} {st st1 st2 : RState} {N1 N2 : List Nat}
    (h1 : ScanG W s l1 st st1 N1) (h2 : ScanG W s l2 st1 st2 N2) : ScanG W s (l1 ++ l2) st st2 (N1 ++ N2) where
  ok := h2.ok
  keys := by rw [h2.keys, h1.keys, List.append_assoc]
  below := by
    intro a ha
    rcases List.mem_append.1 ha with h | h
    · exact h1.below a h
    · exact h2.below a h
  done := by
    intro a ha b hb
    rcases List.mem_append.1 ha with h | h
    · exact h2.mono _ _ (h1.done a h b hb)
    · exact h2.done a h b hb
  mono := fun a b h => h2.mono _ _ (h1.mono _ _ h)
  children := by
    intro b hb hr
    rcases List.mem_append.1 hb with h | h
    · exact h2.mono _ _ (h1.children b h hr)
    · exact h2.children b h hr
  count := by
    intro b
    rw [h2.count, h1.count, h1.refids, cntl_append, rawl_append, List.map_append, List.sum_append]
    omega
  look := by
    intro a
    rw [h2.look, h1.look]
    by_cases ha2 : a ∈ N2 <;> by_cases ha1 : a ∈ N1 <;> simp [ha1, ha2]
  refids := h2.refids.trans h1.refids

/-- Effect of `resolve(s, i)`. -/
structure ResG (W : World) (s : Nat) (i : Option Nat) (st st' : RState) (N : List Nat) : Prop where
  ok : GG W st'
  keys : st'.keys = st.keys ++ N ++ (if s ∈ st.keys then [] else [s])
  below : ∀ a ∈ N, ∃ r, Refers W s r ∧ Needs W r a
  done : ∀ a, a = s ∨ a ∈ N → ∀ b, Refers W a b → Child st' a b
  mono : ∀ a b, Child st a b → Child st' a b
  count : ∀ b, st'.refCount b = st.refCount b + tot W st.refids s b + (N.map (tot W st.refids · b)).sum
  look : ∀ a, st'.actions.lookup a = if a = s then some i else if a ∈ N then some none else st.actions.lookup a
  refids : st'.refids = st.refids

theorem scanG_to_res {W : World} {s : Nat} {i : Option Nat} {st st1 st' : RState} {N : List Nat} {l : List RefArg}
    (hac : Acyclic W) (hl : ∀ b, Refers W s b → RefArg.obj b ∈ l ∧ (W b).referenceable = true)
    (hc : ∀ b, cntl W l b + rawl st.refids l b = tot W st.refids s b)
    (h1 : ScanG W s l st st1 N) (h2 : recordPos s i st1 = some st') : ResG W s i st st' N := by
  have e := recordPos_some h2
  have hkeys : st'.keys = if s ∈ st1.keys then st1.keys else st1.keys ++ [s] := by
    rw [e]; exact keys_dictSet _ _ _
  have hsN : s ∉ N := by
    intro hs
    obtain ⟨r, h1, h2⟩ := h1.below s hs
    exact hac s r h1 h2
  have hsk : (s ∈ st1.keys) ↔ s ∈ st.keys := by
    rw [h1.keys, List.mem_append]; simp [hsN]
  have hsub : ∀ a, a ∈ st1.keys → a ∈ st'.keys := by
    intro a ha; rw [hkeys]; split
    · exact ha
    · exact List.mem_append_left _ ha
  have hch : ∀ a b, Child st' a b ↔ Child st1 a b := by intro a b; rw [e]; exact Iff.rfl
  refine ⟨⟨?_, ?_, ?_⟩, ?_, h1.below, ?_, ?_, ?_, ?_, ?_⟩
  · intro a b h; exact h1.ok.sound a b ((hch a b).1 h)
  · intro a b h; exact hsub _ (h1.ok.closed a b ((hch a b).1 h))
  · rw [hkeys]
    split
    · exact h1.ok.nodup
    · rename_i hns
      rw [List.nodup_append]
      refine ⟨h1.ok.nodup, by simp, ?_⟩
      intro a ha b hb
      simp only [List.mem_singleton] at hb
      subst hb
      intro hab; exact hns (hab ▸ ha)
  · rw [hkeys]
    by_cases hk : s ∈ st.keys
    · rw [if_pos (hsk.2 hk), if_pos hk, h1.keys, List.append_nil]
    · rw [if_neg (fun h => hk (hsk.1 h)), if_neg hk, h1.keys]
  · rintro a (rfl | ha) b hb
    · obtain ⟨h3, h4⟩ := hl b hb
      exact (hch _ _).2 (h1.children b h3 h4)
    · exact (hch _ _).2 (h1.done a ha b hb)
  · intro a b h; exact (hch _ _).2 (h1.mono a b h)
  · intro b
    rw [e, ← hc b]; exact h1.count b
  · intro a
    rw [e]
    show (dictSet st1.actions s i).lookup a = _
    rw [lookup_dictSet, h1.look]
  · rw [e]; exact h1.refids

theorem resolve_specG (W : World) (hac : Acyclic W) (limit : Nat) : ∀ (s : Nat) (i : Option Nat) (st st' : RState), GG W st →
      resolve W limit s i st = some st' → ∃ N, ResG W s i st st' N := by
  induction limit with
  | zero => intro s i st st' _ h; simp [resolve] at h
  | succ limit ih =>
    intro s i st st' hg h
    simp only [resolve] at h
    by_cases href : (W s).referencing = true
    · rw [if_pos href, Option.bind_eq_some_iff] at h
      obtain ⟨st1, hscan, hrec⟩ := h
      have key : ∀ (l : List RefArg) (st0 st1 : RState), (∀ x ∈ l, x ∈ (W s).refs) → GG W st0 →
          l.foldlM (resolveArg W (fun r st => resolve W limit r none st) s) st0 = some st1 →
          ∃ N, ScanG W s l st0 st1 N := by
        intro l
        induction l with
        | nil =>
          intro st0 st1 _ hg0 hf
          simp only [List.foldlM_nil, Option.pure_def, Option.some.injEq] at hf
          subst hf
          exact ⟨[], ScanG.nil hg0⟩
        | cons x l ihl =>
          intro st0 st2 hsub hg0 hf
          rw [List.foldlM_cons, Option.bind_eq_bind, Option.bind_eq_some_iff] at hf
          obtain ⟨st1, hx, hf⟩ := hf
          have step : ∃ N, ScanG W s [x] st0 st1 N := by
            have cnt0 : ∀ (hc : ∀ b, x = RefArg.obj b → (W b).referenceable = false) b, cntl W [x] b = 0 := by
              intro hc b
              unfold cntl
              by_cases hr : (W b).referenceable = true
              · rw [if_pos hr]
                have : x ≠ RefArg.obj b := by
                  intro e; rw [hc b e] at hr; simp at hr
                simp [this]
              · simp [hr]
            have triv : ∀ (hc : ∀ b, x = RefArg.obj b → (W b).referenceable = false),
                (∀ b, rawl st0.refids [x] b = 0) → st1 = st0 → ∃ N, ScanG W s [x] st0 st1 N := by
              intro hc hz e
              subst e
              refine ⟨[], ⟨hg0, by simp, by simp, by simp, fun _ _ h => h, ?_, ?_, by simp, rfl⟩⟩
              · intro b hb hr
                simp only [List.mem_singleton] at hb
                rw [hc b hb.symm] at hr; simp at hr
              · intro b
                rw [cnt0 hc b, hz b]; simp
            cases x with
            | ref cb rid =>
              cases cb with
              | true =>
                simp only [resolveArg, Option.some.injEq] at hx
                exact triv (by simp) (by simp [rawl]) hx.symm
              | false =>
                simp only [resolveArg] at hx
                split at hx
                · rename_i hn
                  simp only [Option.some.injEq] at hx
                  exact triv (by simp) (by simp [rawl, hn]) hx.symm
                · rename_i r hr
                  simp only [Option.some.injEq] at hx
                  subst hx
                  refine ⟨[], ⟨⟨hg0.sound, hg0.closed, hg0.nodup⟩, by simp [RState.keys], by simp, by simp, fun _ _ h => h, ?_, ?_, by simp, rfl⟩⟩
                  · intro b hb; simp at hb
                  · intro b
                    rw [cnt0 (by simp) b]
                    show upd st0.refCount r (st0.refCount r + 1) b = _
                    by_cases e : b = r
                    · subst e; rw [upd_same]; simp [rawl, hr]
                    · rw [upd_ne _ _ _ _ e]
                      have : ¬ r = b := fun h => e h.symm
                      simp [rawl, hr, this]
            | other =>
              simp only [resolveArg, Option.some.injEq] at hx
              exact triv (by simp) (by simp [rawl]) hx.symm
            | obj r =>
              simp only [resolveArg] at hx
              have hraw0 : ∀ b, rawl st0.refids [RefArg.obj r] b = 0 := by intro b; simp [rawl]
              by_cases hrr : (W r).referenceable = false
              · rw [if_pos hrr] at hx
                simp only [Option.some.injEq] at hx
                exact triv (by intro b hb; cases hb; exact hrr) hraw0 hx.symm
              · rw [if_neg hrr] at hx
                simp only [Bool.not_eq_false] at hrr
                by_cases hrs : r = s
                · rw [if_pos hrs] at hx; simp at hx
                · rw [if_neg hrs] at hx
                  have hsr : Refers W s r := ⟨href, hsub _ (List.mem_cons_self), hrr⟩
                  have hcnt : ∀ b, cntl W [RefArg.obj r] b = if b = r then 1 else 0 := by
                    intro b
                    unfold cntl
                    by_cases e : b = r
                    · subst e; simp [hrr]
                    · have : RefArg.obj r ≠ RefArg.obj b := by simpa using Ne.symm e
                      simp [e, this]
                  by_cases hk : (st0.actions.lookup r).isNone = true
                  · -- first time `r` is seen
                    rw [if_pos hk] at hx
                    have hrk : r ∉ st0.keys := (lookup_isNone _ _).1 hk
                    obtain ⟨stm, hm⟩ : ∃ stm : RState, stm =
                      { refids := st0.refids, actions := dictSet st0.actions r none, ordered := st0.ordered,
                        unordered := upd st0.unordered s (st0.unordered s ++ [r]),
                        refCount := upd st0.refCount r (st0.refCount r + 1) } := ⟨_, rfl⟩
                    rw [← hm] at hx
                    have hmk : stm.keys = st0.keys ++ [r] := by
                      subst hm
                      exact (keys_dictSet _ _ _).trans (if_neg hrk)
                    have hmch : ∀ a b, Child stm a b ↔ Child st0 a b ∨ (a = s ∧ b = r) := by
                      intro a b
                      subst hm
                      unfold Child
                      show b ∈ st0.ordered a ∨ b ∈ upd st0.unordered s (st0.unordered s ++ [r]) a ↔ _
                      by_cases e : a = s
                      · subst e; rw [upd_same]; simp [or_assoc]
                      · rw [upd_ne _ _ _ _ e]; simp [e]
                    have hmc : stm.refCount = upd st0.refCount r (st0.refCount r + 1) := by subst hm; rfl
                    have hml : ∀ a, stm.actions.lookup a = if a = r then some none else st0.actions.lookup a := by
                      intro a; subst hm; exact lookup_dictSet _ _ _ _
                    have hmr : stm.refids = st0.refids := by subst hm; rfl
                    clear hm
                    have hgm : GG W stm := by
                      refine ⟨?_, ?_, ?_⟩
                      · intro a b hab
                        rcases (hmch a b).1 hab with h | ⟨rfl, rfl⟩
                        · exact hg0.sound a b h
                        · exact hsr
                      · intro a b hab
                        rw [hmk]
                        rcases (hmch a b).1 hab with h | ⟨rfl, rfl⟩
                        · exact List.mem_append_left _ (hg0.closed a b h)
                        · simp
                      · rw [hmk, List.nodup_append]
                        refine ⟨hg0.nodup, by simp, ?_⟩
                        intro a ha b hb e
                        simp only [List.mem_singleton] at hb
                        exact hrk (hb ▸ e ▸ ha)
                    have hrm : r ∈ stm.keys := by rw [hmk]; simp
                    obtain ⟨N, hN⟩ := ih r none stm st1 hgm hx
                    have hkeys : st1.keys = st0.keys ++ (r :: N) := by
                      rw [hN.keys, if_pos hrm, hmk]; simp
                    refine ⟨r :: N, ⟨hN.ok, hkeys, ?_, ?_, ?_, ?_, ?_, ?_, hN.refids.trans hmr⟩⟩
                    · intro a ha
                      rcases List.mem_cons.1 ha with rfl | ha
                      · exact ⟨a, hsr, .refl⟩
                      · obtain ⟨y, h1, h2⟩ := hN.below a ha
                        exact ⟨r, hsr, Needs.trans h1.needs h2⟩
                    · intro a ha
                      exact hN.done a (List.mem_cons.1 ha)
                    · intro a b hab
                      exact hN.mono a b ((hmch a b).2 (.inl hab))
                    · intro b hb _
                      simp only [List.mem_singleton, RefArg.obj.injEq] at hb
                      exact hN.mono s b ((hmch s b).2 (.inr ⟨rfl, hb⟩))
                    · intro b
                      rw [hN.count, hmc, hcnt, hraw0, hmr]
                      simp only [List.map_cons, List.sum_cons]
                      by_cases e : b = r
                      · subst e; rw [upd_same]; simp; omega
                      · rw [upd_ne _ _ _ _ e]; simp [e]; omega
                    · intro a
                      rw [hN.look, hml]
                      by_cases e : a = r
                      · simp [e]
                      · simp [e]
                  · -- `r` was seen before
                    rw [if_neg hk] at hx
                    have hrk : r ∈ st0.keys := by
                      by_cases h : r ∈ st0.keys
                      · exact h
                      · exact absurd ((lookup_isNone _ _).2 h) hk
                    have fin : ∀ (o : Nat → List Nat), (∀ b, b ∈ o s ↔ b ∈ st0.ordered s ∨ b = r) →
                        (∀ a, a ≠ s → o a = st0.ordered a) →
                        st1 = { refids := st0.refids, actions := st0.actions, ordered := o,
                                unordered := st0.unordered,
                                refCount := upd st0.refCount r (st0.refCount r + 1) } →
                        ∃ N, ScanG W s [RefArg.obj r] st0 st1 N := by
                      intro o ho1 ho2 e
                      have hkeys : st1.keys = st0.keys := by rw [e]; rfl
                      have hch : ∀ a b, Child st1 a b ↔ Child st0 a b ∨ (a = s ∧ b = r) := by
                        intro a b
                        unfold Child
                        rw [e]
                        show b ∈ o a ∨ b ∈ st0.unordered a ↔ _
                        by_cases ea : a = s
                        · subst ea
                          rw [ho1]
                          constructor
                          · rintro ((h | h) | h)
                            · exact .inl (.inl h)
                            · exact .inr ⟨rfl, h⟩
                            · exact .inl (.inr h)
                          · rintro ((h | h) | ⟨_, h⟩)
                            · exact .inl (.inl h)
                            · exact .inr h
                            · exact .inl (.inr h)
                        · rw [ho2 a ea]; simp [ea]
                      refine ⟨[], ⟨⟨?_, ?_, ?_⟩, by simp [hkeys], by simp, by simp, ?_, ?_, ?_, by simp [e], by rw [e]⟩⟩
                      · intro a b hab
                        rcases (hch a b).1 hab with h | ⟨rfl, rfl⟩
                        · exact hg0.sound a b h
                        · exact hsr
                      · intro a b hab
                        rw [hkeys]
                        rcases (hch a b).1 hab with h | ⟨rfl, rfl⟩
                        · exact hg0.closed a b h
                        · exact hrk
                      · rw [hkeys]; exact hg0.nodup
                      · intro a b hab; exact (hch a b).2 (.inl hab)
                      · intro b hb _
                        simp only [List.mem_singleton, RefArg.obj.injEq] at hb
                        exact (hch s b).2 (.inr ⟨rfl, hb⟩)
                      · intro b
                        rw [e, hcnt, hraw0]
                        show upd st0.refCount r (st0.refCount r + 1) b = _
                        by_cases eb : b = r
                        · subst eb; rw [upd_same]; simp
                        · rw [upd_ne _ _ _ _ eb]; simp [eb]
                    by_cases ho : r ∈ st0.ordered s
                    · rw [if_pos ho] at hx
                      simp only [Option.some.injEq] at hx
                      refine fin st0.ordered ?_ (fun _ _ => rfl) hx.symm
                      intro b
                      constructor
                      · exact .inl
                      · rintro (h | h)
                        · exact h
                        · rw [h]; exact ho
                    · rw [if_neg ho] at hx
                      simp only [Option.some.injEq] at hx
                      refine fin (upd st0.ordered s (st0.ordered s ++ [r])) ?_ ?_ hx.symm
                      · intro b; rw [upd_same]; simp
                      · intro a ha; rw [upd_ne _ _ _ _ ha]
          obtain ⟨N1, hN1⟩ := step
          obtain ⟨N2, hN2⟩ := ihl st1 st2 (fun x hx => hsub x (List.mem_cons_of_mem _ hx)) hN1.ok hf
          exact ⟨N1 ++ N2, by simpa using hN1.append hN2⟩
      obtain ⟨N, hN⟩ := key _ _ _ (fun x hx => hx) hg hscan
      refine ⟨N, scanG_to_res hac ?_ ?_ hN hrec⟩
      · intro b hb; exact ⟨hb.2.1, hb.2.2⟩
      · intro b; simp [tot, cnt, href]
    · rw [if_neg href] at h
      refine ⟨[], scanG_to_res (l := []) hac ?_ ?_ (ScanG.nil hg) h⟩
      · intro b hb; exact absurd hb.1 href
      · intro b; simp [tot, cnt, cntl, rawl, href]

/-! ## The first phase as a whole -/

/-- Not referred to as an object by anything the user's actions need. -/
def NotReferred (W : World) (sp : List Nat) (a : Nat) : Prop := ∀ s ∈ sp, ∀ c, Needs W s c → ¬ Refers W c a

open Classical in
/-- After the user's actions `pre` (of `sp`) have been processed. -/
structure PhaseG (W : World) (sp pre : List Nat) (st : RState) : Prop where
  ok : GG W st
  complete : ∀ a ∈ st.keys, ∀ b, Refers W a b → Child st a b
  member : ∀ a ∈ st.keys, ∃ p ∈ pre, IsAction W p ∧ Needs W p a
  pres : ∀ p ∈ pre, IsAction W p → p ∈ st.keys
  look : ∀ a ∈ st.keys, ∃ v, st.actions.lookup a = some v ∧ (v.isSome = true ↔ a ∈ pre)
  order : st.keys.filter (fun a => decide (NotReferred W sp a)) =
    pre.filter (fun a => decide (IsAction W a ∧ NotReferred W sp a))
  refids : ∀ rid p, st.refids.lookup rid = some p ↔ RawTarget W pre rid p
  count : ∀ b, (st.keys.map (cnt W · b)).sum ≤ st.refCount b
  zero : ∀ b, st.refCount b = 0 ↔ (∀ c ∈ st.keys, ¬ Refers W c b) ∧ ¬ RawReferred W pre b

theorem tot_zero {W : World} {t : List (Int × Nat)} {a b : Nat} : tot W t a b = 0 ↔
    ¬ Refers W a b ∧ ¬ ((W a).referencing = true ∧ ∃ rid, RefArg.ref false rid ∈ (W a).refs ∧ t.lookup rid = some b) := by
  unfold tot
  rw [Nat.add_eq_zero_iff]
  refine and_congr ?_ ?_
  · rw [← cnt_pos]; omega
  · by_cases h : (W a).referencing = true
    · rw [if_pos h, ← rawl_pos]; simp [h]
    · simp [h]

theorem sum_zero_iff (f : Nat → Nat) (l : List Nat) : (l.map f).sum = 0 ↔ ∀ c ∈ l, f c = 0 := by
  induction l with
  | nil => simp
  | cons a l ih => simp [ih, Nat.add_eq_zero_iff]

theorem PhaseG.needs {W : World} {sp pre : List Nat} {st : RState} (h : PhaseG W sp pre st) {a b : Nat} (ha : a ∈ st.keys)
    (hn : Needs W a b) : b ∈ st.keys := by
  induction hn with
  | refl => exact ha
  | step _ hr ih => exact h.ok.closed _ _ (h.complete _ ih _ hr)

theorem Needs.action {W : World} {s a : Nat} (h : Needs W s a) (ha : IsAction W a) : IsAction W s := by
  induction h with
  | refl => exact ha
  | step _ hr ih => exact ih hr.actions.1

theorem rawTarget_snoc {W : World} {pre : List Nat} {s : Nat} {rid : Int} {p : Nat} :
    RawTarget W (pre ++ [s]) rid p ↔
      if (W s).referenceable = true ∧ (W s).refId = some rid then p = s else RawTarget W pre rid p := by
  constructor
  · rintro ⟨l1, l2, e, h1, h2, h3⟩
    rcases List.eq_nil_or_concat l2 with rfl | ⟨l2', q, rfl⟩
    · have := List.append_inj' e rfl
      simp only [List.cons.injEq, and_true] at this
      rw [← this.2] at h1 h2
      rw [if_pos ⟨h1, h2⟩]; exact this.2.symm
    · rw [List.concat_eq_append, ← List.cons_append, ← List.append_assoc] at e
      have := List.append_inj' e rfl
      simp only [List.cons.injEq, and_true] at this
      have hs := h3 s (by rw [this.2]; simp)
      rw [if_neg hs]
      exact ⟨l1, l2', this.1, h1, h2, fun q hq => h3 q (by simp [hq])⟩
  · intro h
    split at h
    · rename_i hs
      subst h
      exact ⟨pre, [], rfl, hs.1, hs.2, by simp⟩
    · rename_i hs
      obtain ⟨l1, l2, e, h1, h2, h3⟩ := h
      refine ⟨l1, l2 ++ [s], by rw [e]; simp, h1, h2, ?_⟩
      intro q hq
      rcases List.mem_append.1 hq with hq | hq
      · exact h3 q hq
      · simp only [List.mem_singleton] at hq
        rw [hq]; exact hs

theorem rawReferred_snoc {W : World} {pre : List Nat} {s b : Nat} :
    RawReferred W (pre ++ [s]) b ↔ RawReferred W pre b ∨
      ∃ c rid, LookedAt W pre s c ∧ (W c).referencing = true ∧ RefArg.ref false rid ∈ (W c).refs ∧ RawTarget W pre rid b := by
  constructor
  · rintro ⟨e, x, l, c, rid, h, hrest⟩
    rcases List.eq_nil_or_concat l with rfl | ⟨l', q, rfl⟩
    · have := List.append_inj' h rfl
      simp only [List.cons.injEq, and_true] at this
      obtain ⟨rfl, rfl⟩ := this
      exact .inr ⟨c, rid, hrest⟩
    · rw [List.concat_eq_append, ← List.cons_append, ← List.append_assoc] at h
      have := List.append_inj' h rfl
      exact .inl ⟨e, x, l', c, rid, this.1, hrest⟩
  · rintro (⟨e, x, l, c, rid, h, hrest⟩ | ⟨c, rid, hrest⟩)
    · exact ⟨e, x, l ++ [s], c, rid, by rw [h]; simp, hrest⟩
    · exact ⟨pre, s, [], c, rid, rfl, hrest⟩

open Classical in
theorem phaseG_step {W : World} {sp pre post : List Nat} {s limit k : Nat} {st st' : RState} (hac : Acyclic W)
    (hsp : sp = pre ++ s :: post) (hnd : IsAction W s → s ∉ pre)
    (hok : PhaseG W sp pre st) (h : resolveTop W limit st (k, s) = some st') : PhaseG W sp (pre ++ [s]) st' := by
  have hss : s ∈ sp := by rw [hsp]; simp
  have hps : ∀ p ∈ pre, p ∈ sp := by intro p hp; rw [hsp]; simp [hp]
  have keysIff : ∀ a, a ∈ st.keys ↔ ∃ p ∈ pre, IsAction W p ∧ Needs W p a := by
    intro a
    constructor
    · exact hok.member a
    · rintro ⟨p, hp, hpa, hn⟩
      exact hok.needs (hok.pres p hp hpa) hn
  unfold resolveTop at h
  by_cases hn : (W s).referencing = false ∧ (W s).referenceable = false
  · rw [if_pos hn] at h
    simp only [Option.some.injEq] at h
    subst h
    have hna : ¬ IsAction W s := by unfold IsAction; rw [hn.1, hn.2]; simp
    refine ⟨hok.ok, hok.complete, ?_, ?_, ?_, ?_, ?_, hok.count, ?_⟩
    · intro a ha
      obtain ⟨p, h1, h2⟩ := hok.member a ha
      exact ⟨p, List.mem_append_left _ h1, h2⟩
    · intro p hp hpa
      rcases List.mem_append.1 hp with hp | hp
      · exact hok.pres p hp hpa
      · simp only [List.mem_singleton] at hp
        exact absurd (hp ▸ hpa) hna
    · intro a ha
      obtain ⟨v, h1, h2⟩ := hok.look a ha
      refine ⟨v, h1, h2.trans ?_⟩
      rw [List.mem_append, List.mem_singleton]
      constructor
      · exact .inl
      · rintro (h | h)
        · exact h
        · obtain ⟨p, hp, hpa, hpn⟩ := hok.member a ha
          exfalso
          subst h
          cases hpn with
          | refl => exact hna hpa
          | step _ hr => exact hna hr.actions.2
    · rw [hok.order, List.filter_append]
      simp [hna]
    · intro rid p
      rw [rawTarget_snoc, if_neg (by rw [hn.2]; simp), hok.refids]
    · intro b
      rw [hok.zero, rawReferred_snoc, not_or]
      constructor
      · rintro ⟨h1, h2⟩
        refine ⟨h1, h2, ?_⟩
        rintro ⟨c, rid, ⟨hl, _⟩, hc, _⟩
        exact hna (hl.action (.inl hc))
      · rintro ⟨h1, h2, _⟩
        exact ⟨h1, h2⟩
  · rw [if_neg hn] at h
    have ha : IsAction W s := by
      unfold IsAction
      by_cases h1 : (W s).referencing = true
      · exact .inl h1
      · right
        by_cases h2 : (W s).referenceable = true
        · exact h2
        · simp only [Bool.not_eq_true] at h1 h2
          exact absurd ⟨h1, h2⟩ hn
    rw [Option.map_eq_some_iff] at h
    obtain ⟨st1, h1, h2⟩ := h
    have hspre := hnd ha
    obtain ⟨N, hN⟩ := resolve_specG W hac limit s (some k) st st1 hok.ok h1
    have hst : st'.actions = st1.actions ∧ st'.ordered = st1.ordered ∧ st'.unordered = st1.unordered ∧
        st'.refCount = st1.refCount := by
      subst h2
      split
      · split <;> exact ⟨rfl, rfl, rfl, rfl⟩
      · exact ⟨rfl, rfl, rfl, rfl⟩
    have hkeys : st'.keys = st1.keys := by unfold RState.keys; rw [hst.1]
    have hch : ∀ a b, Child st' a b ↔ Child st1 a b := by
      intro a b; unfold Child; rw [hst.2.1, hst.2.2.1]
    have hk1 : ∀ a, a ∈ st1.keys ↔ a ∈ st.keys ∨ a ∈ N ∨ a = s := by
      intro a
      rw [hN.keys]
      by_cases hsk : s ∈ st.keys
      · rw [if_pos hsk]
        simp only [List.mem_append, List.not_mem_nil, or_false]
        constructor
        · rintro (h | h)
          · exact .inl h
          · exact .inr (.inl h)
        · rintro (h | h | h)
          · exact .inl h
          · exact .inr h
          · rw [h]; exact .inl hsk
      · rw [if_neg hsk]
        simp only [List.mem_append, List.mem_singleton, or_assoc]
    have hNnew : ∀ a ∈ N, a ∉ st.keys := by
      intro a haN hak
      have := hN.ok.nodup
      rw [hN.keys, List.append_assoc, List.nodup_append] at this
      exact this.2.2 a hak a (List.mem_append_left _ haN) rfl
    have hNnd : N.Nodup := by
      have := hN.ok.nodup
      rw [hN.keys, List.append_assoc, List.nodup_append, List.nodup_append] at this
      exact this.2.1.1
    have hNref : ∀ a ∈ N, ∃ c, Needs W s c ∧ Refers W c a := by
      intro a haN
      obtain ⟨r, hr1, hr2⟩ := hN.below a haN
      cases hr2 with
      | refl => exact ⟨s, .refl, hr1⟩
      | step h3 h4 => exact ⟨_, Needs.trans hr1.needs h3, h4⟩
    have hsN : s ∉ N := by
      intro hs
      obtain ⟨r, hr1, hr2⟩ := hN.below s hs
      exact hac s r hr1 hr2
    have hNneeds : ∀ a ∈ N, Needs W s a := by
      intro a haN
      obtain ⟨c, hc1, hc2⟩ := hNref a haN
      exact .step hc1 hc2
    -- a user's action known before it was added is referred to
    have hskref : s ∈ st.keys → ¬ NotReferred W sp s := by
      intro hk hnr
      obtain ⟨p, hp, hpa, hpn⟩ := hok.member s hk
      cases hpn with
      | refl => exact hspre hp
      | step h3 h4 => exact hnr p (hps p hp) _ h3 h4
    have hcompl : ∀ a ∈ st1.keys, ∀ b, Refers W a b → Child st1 a b := by
      intro a hak b hb
      rcases (hk1 a).1 hak with h | h | h
      · exact hN.mono a b (hok.complete a h b hb)
      · exact hN.done a (.inr h) b hb
      · exact hN.done a (.inl h) b hb
    have hneed1 : ∀ a, Needs W s a → a ∈ st1.keys := by
      intro a hn
      induction hn with
      | refl => exact (hk1 s).2 (.inr (.inr rfl))
      | step _ hr ih => exact hN.ok.closed _ _ (hcompl _ ih _ hr)
    have hNiff : ∀ c, (c = s ∨ c ∈ N) ↔ LookedAt W pre s c := by
      intro c
      constructor
      · rintro (rfl | hc)
        · exact ⟨.refl, .inl rfl⟩
        · refine ⟨hNneeds c hc, .inr ?_⟩
          intro q hq hqn
          obtain ⟨d, _, hd⟩ := hNref c hc
          exact hNnew c hc ((keysIff c).2 ⟨q, hq, hqn.action hd.actions.2, hqn⟩)
      · rintro ⟨hc, h3 | h3⟩
        · exact .inl h3
        · rcases (hk1 c).1 (hneed1 c hc) with h | h | h
          · obtain ⟨p, hp, _, hpn⟩ := hok.member c h
            exact absurd hpn (h3 p hp)
          · exact .inr h
          · exact .inl h
    refine ⟨⟨?_, ?_, ?_⟩, ?_, ?_, ?_, ?_, ?_, ?_, ?_, ?_⟩
    · intro a b hab; exact hN.ok.sound a b ((hch a b).1 hab)
    · intro a b hab; rw [hkeys]; exact hN.ok.closed a b ((hch a b).1 hab)
    · rw [hkeys]; exact hN.ok.nodup
    · intro a hak b hb
      rw [hkeys] at hak
      exact (hch a b).2 (hcompl a hak b hb)
    · intro a hak
      rw [hkeys] at hak
      rcases (hk1 a).1 hak with h | h | h
      · obtain ⟨p, h3, h4⟩ := hok.member a h
        exact ⟨p, List.mem_append_left _ h3, h4⟩
      · exact ⟨s, by simp, ha, hNneeds a h⟩
      · exact ⟨s, by simp, ha, h ▸ .refl⟩
    · intro p hp hpa
      rw [hkeys, hk1]
      rcases List.mem_append.1 hp with hp | hp
      · exact .inl (hok.pres p hp hpa)
      · simp only [List.mem_singleton] at hp
        exact .inr (.inr hp)
    · intro a hak
      rw [hkeys] at hak
      rw [hst.1, hN.look]
      by_cases has : a = s
      · exact ⟨some k, by rw [if_pos has], by simp [has]⟩
      · rw [if_neg has]
        by_cases haN : a ∈ N
        · refine ⟨none, by rw [if_pos haN], ?_⟩
          simp only [Option.isSome_none, Bool.false_eq_true, false_iff, List.mem_append, List.mem_singleton, not_or]
          refine ⟨?_, has⟩
          intro hap
          obtain ⟨d, _, hd⟩ := hNref a haN
          exact hNnew a haN (hok.pres a hap hd.actions.2)
        · rw [if_neg haN]
          have hak' : a ∈ st.keys := by
            rcases (hk1 a).1 hak with h | h | h
            · exact h
            · exact absurd h haN
            · exact absurd h has
          obtain ⟨v, h3, h4⟩ := hok.look a hak'
          refine ⟨v, h3, h4.trans ?_⟩
          simp [has]
    · rw [hkeys, hN.keys, List.filter_append, List.filter_append, hok.order, List.filter_append]
      have e1 : N.filter (fun a => decide (NotReferred W sp a)) = [] := by
        rw [List.filter_eq_nil_iff]
        intro a haN
        simp only [decide_eq_true_eq]
        intro hnr
        obtain ⟨c, hc1, hc2⟩ := hNref a haN
        exact hnr s hss c hc1 hc2
      rw [e1, List.append_nil]
      congr 1
      by_cases hsk : s ∈ st.keys
      · rw [if_pos hsk]
        have := hskref hsk
        simp [this]
      · rw [if_neg hsk]
        by_cases hu : NotReferred W sp s <;> simp [ha, hu]
    · intro rid p
      rw [rawTarget_snoc, ← hok.refids]
      have hrf : st1.refids = st.refids := hN.refids
      subst h2
      simp only
      by_cases hr : (W s).referenceable = true
      · rw [if_pos hr]
        cases hid : (W s).refId with
        | none => simp [hrf]
        | some j =>
          simp only [lookup_dictSet, hrf]
          by_cases hj : rid = j
          · subst hj
            simp [hr, eq_comm]
          · have : ¬ (some j : Option Int) = some rid := by
              intro h; injection h with h; exact hj h.symm
            simp [hj, this]
      · rw [if_neg hr, if_neg (fun h => hr h.1), hrf]
    · intro b
      rw [hst.2.2.2, hN.count]
      have h3 := hok.count b
      have hle : ∀ c, cnt W c b ≤ tot W st.refids c b := by intro c; unfold tot; omega
      have h4 : (N.map (cnt W · b)).sum ≤ (N.map (tot W st.refids · b)).sum := by
        clear hNiff hNneeds hsN hNref hNnd hNnew hk1 hN
        induction N with
        | nil => simp
        | cons c N ih =>
          simp only [List.map_cons, List.sum_cons]
          have := hle c
          omega
      have h5 := hle s
      have h6 : (st'.keys.map (cnt W · b)).sum ≤ (st.keys.map (cnt W · b)).sum + (N.map (cnt W · b)).sum + cnt W s b := by
        rw [hkeys, hN.keys, List.map_append, List.sum_append, List.map_append, List.sum_append]
        split
        · simp
        · simp
      omega
    · intro b
      rw [hst.2.2.2, hN.count, rawReferred_snoc, not_or]
      have hz := hok.zero b
      have e : (st.refCount b + tot W st.refids s b + (N.map (tot W st.refids · b)).sum = 0) ↔
          st.refCount b = 0 ∧ tot W st.refids s b = 0 ∧ ∀ c ∈ N, tot W st.refids c b = 0 := by
        rw [← sum_zero_iff]; omega
      rw [e, hz]
      simp only [tot_zero, hok.refids]
      constructor
      · rintro ⟨⟨h3, h4⟩, ⟨h5, h6⟩, h7⟩
        refine ⟨?_, h4, ?_⟩
        · intro c hc
          rw [hkeys] at hc
          rcases (hk1 c).1 hc with h | h | h
          · exact h3 c h
          · exact (h7 c h).1
          · rw [h]; exact h5
        · rintro ⟨c, rid, hl, hcr, hm, hrt⟩
          rcases (hNiff c).2 hl with rfl | hc
          · exact h6 ⟨hcr, rid, hm, hrt⟩
          · exact (h7 c hc).2 ⟨hcr, rid, hm, hrt⟩
      · rintro ⟨h3, h4, h5⟩
        have raw : ∀ c, c = s ∨ c ∈ N → ¬ ((W c).referencing = true ∧ ∃ rid, RefArg.ref false rid ∈ (W c).refs ∧ RawTarget W pre rid b) := by
          rintro c hc ⟨hcr, rid, hm, hrt⟩
          exact h5 ⟨c, rid, (hNiff c).1 hc, hcr, hm, hrt⟩
        refine ⟨⟨?_, h4⟩, ⟨?_, raw s (.inl rfl)⟩, ?_⟩
        · intro c hc; exact h3 c (by rw [hkeys, hk1]; exact .inl hc)
        · exact h3 s (by rw [hkeys, hk1]; exact .inr (.inr rfl))
        · intro c hc; exact ⟨h3 c (by rw [hkeys, hk1]; exact .inr (.inl hc)), raw c (.inr hc)⟩

theorem phaseG_init {W : World} {sp : List Nat} : PhaseG W sp [] {} := by
  refine ⟨⟨by simp [Child], by simp [Child], by simp [RState.keys]⟩, by simp [RState.keys], by simp [RState.keys], by simp,
    by simp [RState.keys], by simp [RState.keys], ?_, by simp [RState.keys], ?_⟩
  · intro rid p
    constructor
    · intro h; simp at h
    · rintro ⟨l1, l2, e, _⟩; simp at e
  · intro b
    constructor
    · intro _
      refine ⟨by simp [RState.keys], ?_⟩
      rintro ⟨e, s, l, c, rid, he, _⟩
      simp at he
    · intro _; rfl

theorem resolvePhase_okG {W : World} {sp : List Nat} {limit : Nat} {R : RState} (hac : Acyclic W)
    (h : resolvePhase W limit sp = some R) : PhaseG W sp sp R := by
  have hnd := resolvePhase_nodup sp 0 _ _ h
  have key : ∀ (post pre : List Nat) (k : Nat) (st : RState), sp = pre ++ post → PhaseG W sp pre st →
      (enumFrom k post).foldlM (resolveTop W limit) st = some R → PhaseG W sp sp R := by
    intro post
    induction post with
    | nil =>
      intro pre k st e hok hf
      simp only [enumFrom, List.foldlM_nil, Option.pure_def, Option.some.injEq] at hf
      subst hf
      rw [List.append_nil] at e
      rw [e] at hok ⊢
      exact hok
    | cons s post ih =>
      intro pre k st e hok hf
      simp only [enumFrom] at hf
      rw [List.foldlM_cons, Option.bind_eq_bind, Option.bind_eq_some_iff] at hf
      obtain ⟨st1, h1, h2⟩ := hf
      refine ih (pre ++ [s]) (k + 1) st1 (by simp [e]) ?_ h2
      refine phaseG_step hac e ?_ hok h1
      intro hs hmem
      obtain ⟨p1, p2, e2⟩ := List.append_of_mem hmem
      exact hnd p1 s (p2 ++ s :: post) (by rw [e, e2]; simp) hs (by simp)
  exact key sp [] 0 {} rfl phaseG_init h

theorem PhaseG.graph {W : World} {sp : List Nat} {R : RState} (h : PhaseG W sp sp R) : GraphOk W sp R where
  closed := h.ok.closed
  complete := fun a ha b => ⟨h.ok.sound a b, h.complete a ha b⟩
  count := h.count
  look := h.look

theorem rootsG {W : World} {sp : List Nat} {R : RState} (h : PhaseG W sp sp R) (r : Nat) :
    r ∈ roots R ↔ Unreferenced W sp r := by
  unfold roots Unreferenced
  rw [List.mem_filter]
  simp only [decide_eq_true_eq]
  rw [h.zero]
  have hk : R.actions.map (·.1) = R.keys := rfl
  rw [hk]
  constructor
  · rintro ⟨h1, h2, h3⟩
    obtain ⟨p, hp, hpa, hpn⟩ := h.member r h1
    have e : p = r := by
      cases hpn with
      | refl => rfl
      | step h4 h5 => exact absurd h5 (h2 _ (h.needs (h.pres p hp hpa) h4))
    subst e
    refine ⟨hp, hpa, ?_, h3⟩
    intro s hs c hc hr
    exact h2 c (h.needs (h.pres s hs (hc.action hr.actions.1)) hc) hr
  · rintro ⟨h1, h2, h3, h4⟩
    refine ⟨h.pres r h1 h2, ?_, h4⟩
    intro c hc hr
    obtain ⟨p, hp, _, hpn⟩ := h.member c hc
    exact h3 p hp c hpn hr

/-- Everything known at the end, for any order and with raw references. -/
structure FinalG (W : World) (sp : List Nat) (R : RState) (res : Resolved) (log : List (Nat × Nat))
    (segs : List (Nat × List (Nat × Nat))) (D : DState) : Prop where
  phase : PhaseG W sp sp R
  inv : Inv W R sp D log []
  segsOf : log = segs.flatMap (·.2)
  segRoots : segs.map (·.1) = roots R
  segNeeds : Segs W segs
  segPlaced : ∀ s1 s s2, segs = s1 ++ s :: s2 → s.1 ∈ names (s1.flatMap (·.2) ++ s.2)
  segLead : ∀ s1 s s2, segs = s1 ++ s :: s2 → ∀ p z, Lead R s.1 p z → (s.1 :: p).Nodup →
    (∀ y ∈ s.1 :: p, y ∉ names (s1.flatMap (·.2))) → ∃ o L', s.2 = (z, o) :: L'
  run : ∃ limit, resolvePhase W limit sp = some R
  all : ∀ a, a ∈ names log ↔ ∃ r, Unreferenced W sp r ∧ Needs W r a
  uniq : ∀ pre s post, sp = pre ++ s :: post → IsAction W s → s ∉ post
  out : res.out = assemble W D sp
  ids : res.refId = D.refId
  feats : res.feature = D.feature

theorem finalG {W : World} {sp : List Nat} {limit : Nat} {res : Resolved} (hac : Acyclic W)
    (h : resolveRefs W limit sp = some res) : ∃ R log segs D, FinalG W sp R res log segs D := by
  unfold resolveRefs at h
  simp only [Option.bind_eq_bind, Option.bind_eq_some_iff, Option.some.injEq] at h
  obtain ⟨R, hph, D, hD, rfl⟩ := h
  have hR := resolvePhase_okG hac hph
  have hroots : ∀ r ∈ roots R, r ∈ R.keys ∧ r ∈ sp := by
    intro r hr
    have := (rootsG hR r).1 hr
    exact ⟨hR.pres r this.1 this.2.1, this.1⟩
  obtain ⟨segs, e1, i, s, p, q, l⟩ := roots_fold hac hR.graph limit (roots R) _ D [] hroots init_inv hD
  simp only [List.nil_append] at i p q l
  refine ⟨R, segs.flatMap (·.2), segs, D, hR, i, rfl, e1, s, q, l, ⟨limit, hph⟩, ?_, resolvePhase_nodup sp 0 _ _ hph, rfl, rfl, rfl⟩
  intro a
  constructor
  · intro ha
    obtain ⟨x, hx, rfl⟩ := List.mem_map.1 ha
    obtain ⟨sg, hsg, hxs⟩ := List.mem_flatMap.1 hx
    refine ⟨sg.1, (rootsG hR _).1 ?_, (s.needs sg hsg x hxs).1⟩
    rw [← e1]; exact List.mem_map.2 ⟨sg, hsg, rfl⟩
  · rintro ⟨r, hr, hn⟩
    exact i.core.closed (p r ((rootsG hR r).2 hr)) hn

end Grf
