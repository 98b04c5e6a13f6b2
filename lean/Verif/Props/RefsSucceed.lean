import Verif.Props.RefsIds
/-!
# C62: resolution succeeds exactly when it should
-/
namespace Grf

/-! ### Taking an id -/

theorem heappop_spec : ∀ (l : List Int), (l = [] ∧ heappop l = none) ∨
    ∃ m r, heappop l = some (m, r) ∧ List.Perm l (m :: r) ∧ ∀ x ∈ l, m ≤ x := by
  intro l
  induction l with
  | nil => exact .inl ⟨rfl, rfl⟩
  | cons x l ih =>
    right
    rcases ih with ⟨rfl, h⟩ | ⟨m, r, h, hp, hm⟩
    · exact ⟨x, [], by simp [heappop], .refl _, by simp⟩
    · by_cases hx : x ≤ m
      · refine ⟨x, l, by simp [heappop, h, hx], .refl _, ?_⟩
        intro y hy
        rcases List.mem_cons.1 hy with rfl | hy
        · omega
        · have := hm y hy; omega
      · refine ⟨m, x :: r, by simp [heappop, h, hx], (List.Perm.cons x hp).trans (List.Perm.swap _ _ _), ?_⟩
        intro y hy
        rcases List.mem_cons.1 hy with rfl | hy
        · omega
        · exact hm y hy

/-- The highest free id that is not reserved is taken; the other free ones that are not reserved stay. -/
theorem popId_spec (reserved : List Int) : ∀ (n : Nat) (ids : List Int), ids.length < n →
    (popId reserved n ids = none ∧ ∀ x ∈ ids, -x ∈ reserved) ∨
    ∃ i r, popId reserved n ids = some (i, r) ∧ -i ∈ ids ∧ i ∉ reserved ∧ (∀ x ∈ ids, -x ∉ reserved → -x ≤ i) ∧
      (ids.Nodup → r.Nodup) ∧ (∀ x ∈ r, x ∈ ids) ∧
      (ids.filter fun x => decide (-x ∉ reserved)).length = (r.filter fun x => decide (-x ∉ reserved)).length + 1 := by
  intro n
  induction n with
  | zero => intro ids h; omega
  | succ n ih =>
    intro ids hlen
    rcases heappop_spec ids with ⟨rfl, h⟩ | ⟨m, r, h, hp, hm⟩
    · left; simp [popId, h]
    · have hl := hp.length_eq
      simp only [List.length_cons] at hl
      have hf : ids.filter (fun x => decide (-x ∉ reserved)) |>.Perm ((m :: r).filter (fun x => decide (-x ∉ reserved))) := hp.filter _
      by_cases hr : -m ∈ reserved
      · have e : popId reserved (n + 1) ids = popId reserved n r := by simp [popId, h, hr]
        rw [e]
        have hf2 := hf.length_eq
        rw [List.filter_cons_of_neg (by simpa using hr)] at hf2
        rcases ih r (by omega) with ⟨h1, h2⟩ | ⟨i, r', h1, h2, h3, h4, h5, h6, h7⟩
        · left
          refine ⟨h1, fun x hx => ?_⟩
          rcases List.mem_cons.1 (hp.mem_iff.1 hx) with rfl | hx
          · exact hr
          · exact h2 x hx
        · right
          refine ⟨i, r', h1, hp.mem_iff.2 (List.mem_cons_of_mem _ h2), h3, ?_, ?_, ?_, by omega⟩
          · intro x hx hxr
            rcases List.mem_cons.1 (hp.mem_iff.1 hx) with rfl | hx
            · exact absurd hr hxr
            · exact h4 x hx hxr
          · intro hnd; exact h5 (List.nodup_cons.1 (hp.nodup_iff.1 hnd)).2
          · intro x hx; exact hp.mem_iff.2 (List.mem_cons_of_mem _ (h6 x hx))
      · right
        have hf2 := hf.length_eq
        rw [List.filter_cons_of_pos (by simpa using hr), List.length_cons] at hf2
        refine ⟨-m, r, by simp [popId, h, hr], by simpa using hp.mem_iff.2 List.mem_cons_self, hr, ?_, ?_, ?_, hf2⟩
        · intro x hx _; have := hm x hx; omega
        · intro hnd; exact (List.nodup_cons.1 (hp.nodup_iff.1 hnd)).2
        · intro x hx; exact hp.mem_iff.2 (List.mem_cons_of_mem _ hx)

/-- **C62** An action without an id gets the highest id that is free and not reserved by an action with an id of its own; there is none
exactly when the action is refused. -/
theorem taken_id (W : World) (aid : Nat) (st : DState) (hr : (W aid).referenceable = true) (hn : st.refId aid = none) :
    (∀ i, (∃ st', assignId W aid st = some st' ∧ st'.refId aid = some i) ↔
      -i ∈ st.ids ∧ i ∉ st.reserved ∧ ∀ x ∈ st.ids, -x ∉ st.reserved → -x ≤ i) ∧
    (assignId W aid st = none ↔ ∀ x ∈ st.ids, -x ∈ st.reserved) := by
  have e : assignId W aid st = (popId st.reserved (st.ids.length + 1) st.ids).map fun p =>
      { st with ids := p.2, refId := upd st.refId aid (some p.1) } := by simp [assignId, hr, hn]
  rw [e]
  rcases popId_spec st.reserved (st.ids.length + 1) st.ids (by omega) with ⟨h1, h2⟩ | ⟨i0, r, h1, h2, h3, h4, -⟩
  · rw [h1]
    refine ⟨fun i => ⟨?_, ?_⟩, by simpa using h2⟩
    · rintro ⟨st', h, -⟩; simp at h
    · rintro ⟨h3, h4, -⟩; exact absurd (by simpa using h2 _ h3) h4
  · rw [h1]
    refine ⟨fun i => ⟨?_, ?_⟩, ?_⟩
    · rintro ⟨st', h, h'⟩
      simp only [Option.map_some, Option.some.injEq] at h
      subst h
      simp only [upd_same, Option.some.injEq] at h'
      subst h'
      exact ⟨h2, h3, h4⟩
    · rintro ⟨h5, h6, h7⟩
      refine ⟨_, rfl, ?_⟩
      simp only [upd_same, Option.some.injEq]
      have a := h4 (-i) h5 (by simpa using h6)
      have b := h7 (-i0) h2 (by simpa using h3)
      omega
    · simp only [Option.map_some, reduceCtorEq, false_iff]
      intro h; exact h3 (by simpa using h _ h2)

/-! ### The first pass -/

theorem recordPos_none (s : Nat) (st : RState) : recordPos s none st = some { st with actions := dictSet st.actions s none } := by
  unfold recordPos; split <;> simp_all

theorem recordPos_free (s q : Nat) (st : RState) (h : (st.actions.lookup s).join = none) :
    recordPos s (some q) st = some { st with actions := dictSet st.actions s (some q) } := by
  unfold recordPos; rw [h]

/-- Actions found through references get no position. -/
theorem resolve_total (W : World) (rank : Nat → Nat) (hrank : ∀ a b, Refers W a b → rank b < rank a) : ∀ (limit s : Nat) (i : Option Nat) (st : RState),
    rank s < limit → (i = none ∨ (st.actions.lookup s).join = none) →
    ∃ st', resolve W limit s i st = some st' ∧ ∀ x, x ≠ s ∨ i = none → (st.actions.lookup x).join = none → (st'.actions.lookup x).join = none := by
  intro limit
  induction limit with
  | zero => intro s i st h; omega
  | succ limit ih =>
    intro s i st hl hi
    have fin : ∀ st1 : RState, (i = none ∨ (st1.actions.lookup s).join = none) →
        ∃ st', recordPos s i st1 = some st' ∧ ∀ x, x ≠ s ∨ i = none → (st1.actions.lookup x).join = none → (st'.actions.lookup x).join = none := by
      intro st1 h1
      have : ∃ st', recordPos s i st1 = some st' := by
        cases i with
        | none => exact ⟨_, recordPos_none _ _⟩
        | some q => exact ⟨_, recordPos_free _ _ _ (by simpa using h1)⟩
      obtain ⟨st', h⟩ := this
      refine ⟨st', h, ?_⟩
      rw [recordPos_some h]
      intro x hx hn
      show ((dictSet st1.actions s i).lookup x).join = none
      rw [lookup_dictSet]
      split
      · rcases hx with h | rfl
        · contradiction
        · rfl
      · exact hn
    simp only [resolve]
    by_cases href : (W s).referencing = true
    · rw [if_pos href]
      have fold : ∀ (l : List RefArg) (st : RState), (∀ y ∈ l, y ∈ (W s).refs) →
          ∃ st1, l.foldlM (resolveArg W (fun r st => resolve W limit r none st) s) st = some st1 ∧
            ∀ x, (st.actions.lookup x).join = none → (st1.actions.lookup x).join = none := by
        intro l
        induction l with
        | nil => intro st _; exact ⟨st, rfl, fun x h => h⟩
        | cons y l ihl =>
          intro st hy
          have step : ∃ st1, resolveArg W (fun r st => resolve W limit r none st) s st y = some st1 ∧
              ∀ x, (st.actions.lookup x).join = none → (st1.actions.lookup x).join = none := by
            cases y with
            | other => exact ⟨st, rfl, fun x h => h⟩
            | ref c rid =>
              cases c with
              | true => exact ⟨st, rfl, fun x h => h⟩
              | false =>
                simp only [resolveArg]
                split
                · exact ⟨st, rfl, fun x h => h⟩
                · exact ⟨_, rfl, fun x h => h⟩
            | obj r =>
              simp only [resolveArg]
              by_cases hr : (W r).referenceable = false
              · rw [if_pos hr]; exact ⟨st, rfl, fun x h => h⟩
              · rw [if_neg hr]
                have hRef : Refers W s r := ⟨href, hy _ List.mem_cons_self, by simpa using hr⟩
                have hlt := hrank s r hRef
                rw [if_neg (by rintro rfl; omega)]
                split
                · obtain ⟨st', h1, h2⟩ := ih r none _ (by omega) (.inl rfl)
                  refine ⟨st', h1, ?_⟩
                  intro x hx
                  refine h2 x (.inr rfl) ?_
                  show ((dictSet st.actions r none).lookup x).join = none
                  rw [lookup_dictSet]; split
                  · rfl
                  · exact hx
                · split
                  · exact ⟨_, rfl, fun x h => h⟩
                  · exact ⟨_, rfl, fun x h => h⟩
          obtain ⟨st1, h1, h2⟩ := step
          obtain ⟨st2, h3, h4⟩ := ihl st1 (fun z hz => hy z (List.mem_cons_of_mem _ hz))
          exact ⟨st2, by rw [List.foldlM_cons, h1]; exact h3, fun x hx => h4 x (h2 x hx)⟩
      obtain ⟨st1, h1, h2⟩ := fold (W s).refs st (fun _ h => h)
      obtain ⟨st', h3, h4⟩ := fin st1 (hi.imp id (h2 s))
      exact ⟨st', by rw [h1]; exact h3, fun x hx hn => h4 x hx (h2 x hn)⟩
    · rw [if_neg href]; exact fin st hi

theorem acyclic_of_rank {W : World} (rank : Nat → Nat) (hrank : ∀ a b, Refers W a b → rank b < rank a) : Acyclic W := by
  intro a b h hn
  have : ∀ x y, Needs W x y → rank y ≤ rank x := by
    intro x y h
    induction h with
    | refl => exact Nat.le_refl _
    | step _ h ih => have := hrank _ _ h; omega
  have := this b a hn
  have := hrank _ _ h
  omega

/-- The first pass succeeds when no action is added twice. -/
theorem resolvePhase_total {W : World} {sp : List Nat} {limit : Nat} (rank : Nat → Nat) (hrank : ∀ a b, Refers W a b → rank b < rank a)
    (hlim : ∀ s ∈ sp, rank s < limit) (hnd : ∀ pre s post, sp = pre ++ s :: post → IsAction W s → s ∉ post) :
    ∃ R, resolvePhase W limit sp = some R := by
  have hac := acyclic_of_rank rank hrank
  have hpre : ∀ pre s post, sp = pre ++ s :: post → IsAction W s → s ∉ pre := by
    intro pre s post e ha hm
    obtain ⟨p1, p2, e2⟩ := List.append_of_mem hm
    exact hnd p1 s (p2 ++ s :: post) (by rw [e, e2]; simp) ha (by simp)
  have key : ∀ (post pre : List Nat) (k : Nat) (st : RState), sp = pre ++ post → PhaseG W sp pre st →
      ∃ R, (enumFrom k post).foldlM (resolveTop W limit) st = some R := by
    intro post
    induction post with
    | nil => intro pre k st _ _; exact ⟨st, rfl⟩
    | cons s post ih =>
      intro pre k st e hok
      have step : ∃ st', resolveTop W limit st (k, s) = some st' := by
        simp only [resolveTop]
        by_cases h : (W s).referencing = false ∧ (W s).referenceable = false
        · rw [if_pos h]; exact ⟨_, rfl⟩
        · rw [if_neg h]
          have hact : IsAction W s := by
            unfold IsAction
            cases h1 : (W s).referencing <;> cases h2 : (W s).referenceable <;> simp_all
          have hfree : (st.actions.lookup s).join = none := by
            by_cases hk : s ∈ st.keys
            · obtain ⟨v, h1, h2⟩ := hok.look s hk
              rw [h1]
              cases v with
              | none => rfl
              | some p => exact absurd (h2.1 rfl) (hpre pre s post e hact)
            · have := (lookup_isNone st.actions s).2 hk
              rw [Option.isNone_iff_eq_none] at this
              rw [this]; rfl
          obtain ⟨st', h1, -⟩ := resolve_total W rank hrank limit s (some k) st (hlim s (by rw [e]; simp)) (.inr hfree)
          rw [h1]; exact ⟨_, rfl⟩
      obtain ⟨st', h1⟩ := step
      have hok' := phaseG_step hac e (fun ha => hpre pre s post e ha) hok h1
      obtain ⟨R, h2⟩ := ih (pre ++ [s]) (k + 1) st' (by rw [e]; simp) hok'
      exact ⟨R, by rw [enumFrom, List.foldlM_cons, h1]; exact h2⟩
  refine key sp [] 0 {} rfl ?_
  refine ⟨⟨by simp [Child], by simp [Child], by simp [RState.keys]⟩, by simp [RState.keys], by simp [RState.keys], by simp,
    by simp [RState.keys], by simp [RState.keys], ?_, by simp [RState.keys], ?_⟩
  · intro rid p
    constructor
    · intro h; simp at h
    · rintro ⟨l1, l2, e, _⟩; simp at e
  · intro b
    constructor
    · intro _
      refine ⟨by simp [RState.keys], ?_⟩
      rintro ⟨e, s, l, c, rid, he, _⟩
      simp at he
    · intro _; rfl

/-! ### The second pass -/

/-- Between two steps of the second pass; `log` are the actions placed so far. -/
structure Good (W : World) (sp : List Nat) (R : RState) (st : DState) (log : List Nat) : Prop where
  idsNodup : st.ids.Nodup
  visNodup : st.visited.Nodup
  kept : ∀ v ∈ st.visited, Kept W sp v
  assigned : ∀ a ∈ st.visited, (W a).referenceable = true → st.refId a ≠ none
  pool : 255 ≤ (st.ids.filter fun x => decide (-x ∉ st.reserved)).length + (st.visited.filter fun a => (W a).referenceable).length
  logNodup : log.Nodup
  logVis : ∀ x ∈ log, x ∈ st.visited
  logKeys : ∀ x ∈ log, x ∈ R.keys
  count : ∀ b, st.refCount b + (log.map (cnt W · b)).sum = R.refCount b
  own : ∀ a i, (W a).refId = some i → st.refId a = some i

/-- At most 255 actions can be referred to, if some of them have to be given an id. -/
def EnoughIds (W : World) (sprites : List Nat) : Prop :=
  (∃ a, Kept W sprites a ∧ (W a).referenceable = true ∧ (W a).refId = none) →
    ∃ l : List Nat, l.length ≤ 255 ∧ ∀ a, Kept W sprites a → (W a).referenceable = true → a ∈ l

theorem filter_erase_one (ids : List Int) (h : ids.Nodup) (reserved : List Int) (rid : Int) :
    (ids.filter fun x => decide (-x ∉ reserved)).length ≤ (ids.filter fun x => decide (-x ∉ rid :: reserved)).length + 1 := by
  induction ids with
  | nil => simp
  | cons x ids ih =>
    have := ih (List.nodup_cons.1 h).2
    by_cases hx : -x = rid
    · have hni : ∀ y ∈ ids, -y ≠ rid := by
        intro y hy e
        exact (List.nodup_cons.1 h).1 (by have : x = y := by omega
                                          rw [this]; exact hy)
      have e : ids.filter (fun x => decide (-x ∉ rid :: reserved)) = ids.filter (fun x => decide (-x ∉ reserved)) := by
        apply List.filter_congr
        intro y hy
        have := hni y hy
        simp [this]
      have e2 : (x :: ids).filter (fun x => decide (-x ∉ rid :: reserved)) = ids.filter (fun x => decide (-x ∉ rid :: reserved)) :=
        List.filter_cons_of_neg (by simp [hx])
      rw [e2, e, List.filter_cons]
      split <;> simp
    · by_cases hr : -x ∈ reserved
      · rw [List.filter_cons_of_neg (by simp [hr]), List.filter_cons_of_neg (by simp [hr])]; exact this
      · rw [List.filter_cons_of_pos (by simp [hr]), List.filter_cons_of_pos (by simp [hr, hx])]
        simp only [List.length_cons]; omega

/-- Taking an id succeeds while at most 255 actions need one. -/
theorem assign_total {W : World} {sp : List Nat} {R : RState} {st : DState} {log : List Nat} {aid : Nat} {fe : Nat → Option Nat}
    (hcap : EnoughIds W sp) (hk : Kept W sp aid) (hv : aid ∉ st.visited)
    (g : Good W sp R st log) : ∃ st', assignId W aid { st with visited := aid :: st.visited, feature := fe } = some st' ∧
      Good W sp R st' log ∧ st'.visited = aid :: st.visited ∧ st'.feature = fe := by
  have base : ∀ (ids reserved : List Int) (refId : Nat → Option Int), ids.Nodup → ((W aid).referenceable = true → refId aid ≠ none) →
      (∀ a, a ≠ aid → refId a = st.refId a) → (∀ a i, (W a).refId = some i → refId a = some i) →
      255 ≤ (ids.filter fun x => decide (-x ∉ reserved)).length + ((aid :: st.visited).filter fun a => (W a).referenceable).length →
      Good W sp R { st with visited := aid :: st.visited, feature := fe, ids := ids, reserved := reserved, refId := refId } log := by
    intro ids reserved refId h1 h2 h3 h5 h4
    refine ⟨h1, List.nodup_cons.2 ⟨hv, g.visNodup⟩, ?_, ?_, h4, g.logNodup, fun x hx => List.mem_cons_of_mem _ (g.logVis x hx), g.logKeys, g.count, h5⟩
    · intro v hv'
      rcases List.mem_cons.1 hv' with rfl | h
      · exact hk
      · exact g.kept v h
    · intro a ha hr
      show refId a ≠ none
      by_cases e : a = aid
      · subst e; exact h2 hr
      · rw [h3 a e]; exact g.assigned a ((List.mem_cons.1 ha).resolve_left e) hr
  unfold assignId
  have hp := g.pool
  by_cases hr : (W aid).referenceable = false
  · rw [if_pos hr]
    refine ⟨_, rfl, base st.ids st.reserved st.refId g.idsNodup (by simp [hr]) (fun _ _ => rfl) g.own ?_, rfl, rfl⟩
    rw [List.filter_cons_of_neg (by simp [hr])]; exact hp
  · rw [if_neg hr]
    simp only [Bool.not_eq_false] at hr
    have hfl : ((aid :: st.visited).filter fun a => (W a).referenceable).length = (st.visited.filter fun a => (W a).referenceable).length + 1 := by
      rw [List.filter_cons_of_pos (by simpa using hr)]; rfl
    cases hid : st.refId aid with
    | some rid =>
      simp only
      refine ⟨_, rfl, base st.ids (rid :: st.reserved) st.refId g.idsNodup (by simp [hid]) (fun _ _ => rfl) g.own ?_, rfl, rfl⟩
      rw [hfl]
      have := filter_erase_one st.ids g.idsNodup st.reserved rid
      omega
    | none =>
      simp only
      have hnone : (W aid).refId = none := by
        cases e : (W aid).refId with
        | none => rfl
        | some j => rw [g.own aid j e] at hid; cases hid
      obtain ⟨cap, hlen, hcap⟩ := hcap ⟨aid, hk, hr, hnone⟩
      have hless : (st.visited.filter fun a => (W a).referenceable).length < 255 := by
        have hnd : (aid :: (st.visited.filter fun a => (W a).referenceable)).Nodup :=
          List.nodup_cons.2 ⟨fun h => hv (List.mem_filter.1 h).1, g.visNodup.filter _⟩
        have := sum_le_of_nodup (fun _ => 1) _ cap hnd (by
          intro x hx
          rcases List.mem_cons.1 hx with rfl | hx
          · exact hcap _ hk hr
          · exact hcap _ (g.kept x (List.mem_filter.1 hx).1) (by simpa using (List.mem_filter.1 hx).2))
        have s1 : ∀ l : List Nat, (l.map (fun _ => 1)).sum = l.length := by
          intro l; induction l with
          | nil => rfl
          | cons a l ih => simp [ih]; omega
        rw [s1, s1, List.length_cons] at this
        omega
      rcases popId_spec st.reserved (st.ids.length + 1) st.ids (by omega) with ⟨-, h2⟩ | ⟨i, r, h1, h2, h3, h4, h5, h6, h7⟩
      · exfalso
        have : st.ids.filter (fun x => decide (-x ∉ st.reserved)) = [] := by
          rw [List.filter_eq_nil_iff]; intro x hx; simpa using h2 x hx
        rw [this] at hp
        simp only [List.length_nil] at hp
        omega
      · rw [h1]
        refine ⟨_, rfl, base r st.reserved (upd st.refId aid (some i)) (h5 g.idsNodup) (by simp [upd_same]) (fun a ha => upd_ne _ _ _ _ ha) ?_ ?_, rfl, rfl⟩
        · intro a j hj
          have hne : a ≠ aid := by rintro rfl; rw [hnone] at hj; cases hj
          rw [upd_ne _ _ _ _ hne]; exact g.own a j hj
        rw [hfl]; omega

/-- Giving ids back succeeds when every reference was counted and its target has an id. -/
theorem release_total {W : World} : ∀ (l : List RefArg) (st : DState), (∀ b, cntl W l b ≤ st.refCount b) →
    (∀ b, RefArg.obj b ∈ l → (W b).referenceable = true → st.refId b ≠ none) → st.ids.Nodup →
    ∃ st', l.foldlM (releaseRef W) st = some st' ∧ st'.ids.Nodup ∧
      (st.ids.filter fun x => decide (-x ∉ st.reserved)).length ≤ (st'.ids.filter fun x => decide (-x ∉ st'.reserved)).length := by
  intro l
  induction l with
  | nil => intro st _ _ hn; exact ⟨st, rfl, hn, Nat.le_refl _⟩
  | cons y l ih =>
    intro st hc hi hn
    have cons : ∀ b, cntl W (y :: l) b = cntl W [y] b + cntl W l b := by
      intro b; unfold cntl; split
      · rw [← List.count_append]; rfl
      · rfl
    have step : ∃ st1, releaseRef W st y = some st1 ∧ st1.ids.Nodup ∧
        (st.ids.filter fun x => decide (-x ∉ st.reserved)).length ≤ (st1.ids.filter fun x => decide (-x ∉ st1.reserved)).length := by
      cases y with
      | other => exact ⟨st, rfl, hn, Nat.le_refl _⟩
      | ref c r => exact ⟨st, rfl, hn, Nat.le_refl _⟩
      | obj r =>
        simp only [releaseRef]
        by_cases hr : (W r).referenceable = false
        · rw [if_pos hr]; exact ⟨st, rfl, hn, Nat.le_refl _⟩
        · rw [if_neg hr]
          simp only [Bool.not_eq_false] at hr
          have h0 : st.refCount r ≠ 0 := by
            have := hc r
            have e : cntl W [.obj r] r = 1 := by simp [cntl, hr]
            rw [cons] at this; omega
          rw [if_neg h0]
          have hid := hi r List.mem_cons_self hr
          cases e : st.refId r with
          | none => exact absurd e hid
          | some rid =>
            simp only
            split
            · refine ⟨_, rfl, ?_, ?_⟩
              · show (if -rid ∈ st.ids then st.ids else -rid :: st.ids).Nodup
                split
                · exact hn
                · exact List.nodup_cons.2 ⟨by assumption, hn⟩
              · show _ ≤ ((if -rid ∈ st.ids then st.ids else -rid :: st.ids).filter fun x => decide (-x ∉ st.reserved.filter (· ≠ rid))).length
                have mono : (st.ids.filter fun x => decide (-x ∉ st.reserved)).length ≤
                    (st.ids.filter fun x => decide (-x ∉ st.reserved.filter (· ≠ rid))).length := by
                  rw [← List.countP_eq_length_filter, ← List.countP_eq_length_filter]
                  apply List.countP_mono_left
                  intro x _ hx
                  simp only [decide_eq_true_eq] at hx ⊢
                  exact fun h => hx (List.mem_filter.1 h).1
                split
                · exact mono
                · rw [List.filter_cons]
                  split
                  · rw [List.length_cons]; omega
                  · exact mono
            · exact ⟨_, rfl, hn, Nat.le_refl _⟩
    obtain ⟨st1, h1, h2, h3⟩ := step
    have h1' : [y].foldlM (releaseRef W) st = some st1 := by rw [List.foldlM_cons, h1]; rfl
    obtain ⟨-, -, -, e4, e5⟩ := release_frame [y] st st1 h1'
    obtain ⟨st2, h4, h5, h6⟩ := ih st1 (by
        intro b
        have := hc b
        rw [cons] at this
        have := e5 b
        omega) (by
        intro b hb hr
        rw [e4]; exact hi b (List.mem_cons_of_mem _ hb) hr) h2
    exact ⟨st2, by rw [List.foldlM_cons, h1]; exact h4, h5, by omega⟩

/-- The second pass from one action on succeeds. -/
structure Went (W : World) (sp : List Nat) (R : RState) (aid f : Nat) (st st' : DState) (log : List Nat) (L : List Nat) : Prop where
  good : Good W sp R st' (log ++ L)
  fresh : ∀ x ∈ L, x ∉ st.visited
  mono : ∀ v ∈ st.visited, v ∈ st'.visited
  feat : ∀ a, st'.feature a = st.feature a ∨ (st'.feature a = some f ∧ Needs W aid a)

theorem dfs_total {W : World} {sp : List Nat} {R : RState} (hR : GraphOk W sp R) (rank : Nat → Nat)
    (hrank : ∀ a b, Refers W a b → rank b < rank a) (hcap : EnoughIds W sp) :
    ∀ (limit aid : Nat) (owner : Option Nat) (f : Nat) (st : DState) (log : List Nat), rank aid < limit → aid ∈ R.keys →
      (owner ≠ none ∨ aid ∈ sp) → Good W sp R st log → Kept W sp aid → (∀ a, Needs W aid a → st.feature a = none ∨ st.feature a = some f) →
      ∃ st' L, dfs W R limit aid owner f st = some st' ∧ Went W sp R aid f st st' log L ∧ aid ∈ st'.visited := by
  intro limit
  induction limit with
  | zero => intro aid owner f st log h; omega
  | succ limit ih =>
    intro aid owner f st log hl hK hown g hkept hfeat
    obtain ⟨ai, hlook, hai⟩ := hR.look aid hK
    simp only [dfs, hlook]
    rw [if_neg (by
      rintro ⟨h1, h2⟩
      rcases hfeat aid .refl with h | h
      · rw [h] at h1; simp at h1
      · exact h2 h)]
    by_cases hvis : aid ∈ st.visited
    · rw [if_pos hvis]
      exact ⟨st, [], rfl, ⟨by simpa using g, by simp, fun v h => h, fun a => .inl rfl⟩, hvis⟩
    · rw [if_neg hvis]
      obtain ⟨st1, h1, g1, v1, f1⟩ := assign_total (fe := upd st.feature aid (some f)) hcap hkept hvis g
      simp only [h1, Option.bind_eq_bind, Option.bind_some]
      -- the children
      have fold : ∀ (l : List Nat) (st : DState) (log : List Nat) (owner : Option Nat), (∀ x ∈ l, Refers W aid x) → owner ≠ none →
          Good W sp R st log → (∀ a, Needs W aid a → st.feature a = none ∨ st.feature a = some f) →
          ∃ st' L, l.foldlM (fun st x => dfs W R limit x owner f st) st = some st' ∧ Went W sp R aid f st st' log L ∧ ∀ x ∈ l, x ∈ st'.visited := by
        intro l
        induction l with
        | nil => intro st log owner _ _ g _; exact ⟨st, [], rfl, ⟨by simpa using g, by simp, fun v h => h, fun a => .inl rfl⟩, by simp⟩
        | cons x l ihl =>
          intro st log owner hx ho g hf
          have hrx := hx x List.mem_cons_self
          have := hrank _ _ hrx
          obtain ⟨st1, L1, e1, w1, m1⟩ := ih x owner f st log (by omega) (hR.closed aid x ((hR.complete aid hK x).2 hrx)) (.inl ho) g
            (kept_needs hkept hrx.needs) (fun a ha => hf a (hrx.needs.trans ha))
          have hf1 : ∀ a, Needs W aid a → st1.feature a = none ∨ st1.feature a = some f := by
            intro a ha
            rcases w1.feat a with h | h
            · rw [h]; exact hf a ha
            · exact .inr h.1
          obtain ⟨st2, L2, e2, w2, m2⟩ := ihl st1 (log ++ L1) owner (fun y hy => hx y (List.mem_cons_of_mem _ hy)) ho w1.good hf1
          refine ⟨st2, L1 ++ L2, by rw [List.foldlM_cons, e1]; exact e2, ⟨by rw [← List.append_assoc]; exact w2.good, ?_, fun v hv => w2.mono v (w1.mono v hv), ?_⟩, ?_⟩
          · intro y hy
            rcases List.mem_append.1 hy with h | h
            · exact w1.fresh y h
            · exact fun hv => w2.fresh y h (w1.mono y hv)
          · intro a
            rcases w2.feat a with h | h
            · rw [h]
              rcases w1.feat a with h | h
              · exact .inl h
              · exact .inr ⟨h.1, hrx.needs.trans h.2⟩
            · exact .inr h
          · intro y hy
            rcases List.mem_cons.1 hy with rfl | hy
            · exact w2.mono _ m1
            · exact m2 y hy
      have howner : (if ai.isSome then some aid else owner) ≠ none := by
        rcases hown with h | h
        · split
          · simp
          · exact h
        · rw [if_pos (hai.2 h)]; simp
      generalize ho : (if ai.isSome then some aid else owner) = owner' at howner
      -- the list of the owner is no part of the invariant
      have glink : ∀ (st : DState) (log : List Nat) (lk : Nat → Option (List Nat)), Good W sp R st log → Good W sp R { st with linked := lk } log := by
        intro st log lk g; exact ⟨g.idsNodup, g.visNodup, g.kept, g.assigned, g.pool, g.logNodup, g.logVis, g.logKeys, g.count, g.own⟩
      have hstart : ∃ lk, (if ai.isSome then { st1 with linked := upd st1.linked aid (some []) } else st1) = { st1 with linked := lk } := by
        split
        · exact ⟨_, rfl⟩
        · exact ⟨st1.linked, rfl⟩
      obtain ⟨lk, e0⟩ := hstart
      rw [e0]
      have hf0 : ∀ a, Needs W aid a → st1.feature a = none ∨ st1.feature a = some f := by
        intro a ha
        rw [f1]
        by_cases e : a = aid
        · subst e; rw [upd_same]; exact .inr rfl
        · rw [upd_ne _ _ _ _ e]; exact hfeat a ha
      obtain ⟨st2, L2, e2, w2, m2⟩ := fold (R.ordered aid) { st1 with linked := lk } log owner'
        (fun x hx => (hR.complete aid hK x).1 (.inl hx)) howner (glink _ _ _ g1) hf0
      have hf2 : ∀ a, Needs W aid a → st2.feature a = none ∨ st2.feature a = some f := by
        intro a ha
        rcases w2.feat a with h | h
        · rw [h]; exact hf0 a ha
        · exact .inr h.1
      obtain ⟨st3, L3, e3, w3, m3⟩ := fold (R.unordered aid) st2 (log ++ L2) owner'
        (fun x hx => (hR.complete aid hK x).1 (.inr hx)) howner w2.good hf2
      simp only [e2, e3, Option.bind_some]
      obtain ⟨o, hoo⟩ : ∃ o, owner' = some o := by
        cases owner' with
        | none => exact absurd rfl howner
        | some o => exact ⟨o, rfl⟩
      rw [hoo]
      simp only [appendLinked, Option.bind_some]
      generalize hst4 : ({ st3 with linked := upd st3.linked o (some ((st3.linked o).getD [] ++ [aid])) } : DState) = st4
      have g4 : Good W sp R st4 (log ++ L2 ++ L3) := by rw [← hst4]; exact glink _ _ _ w3.good
      have v4 : st4.visited = st3.visited := by rw [← hst4]
      have f4 : st4.feature = st3.feature := by rw [← hst4]
      have vis1 : ∀ v, v = aid ∨ v ∈ st.visited → v ∈ ({ st1 with linked := lk } : DState).visited := by
        intro v hv
        show v ∈ st1.visited
        rw [v1]
        rcases hv with rfl | h
        · exact List.mem_cons_self
        · exact List.mem_cons_of_mem _ h
      have vis3 : ∀ v, v = aid ∨ v ∈ st.visited → v ∈ st3.visited := fun v hv => w3.mono v (w2.mono v (vis1 v hv))
      have fresh23 : ∀ x ∈ L2 ++ L3, x ≠ aid ∧ x ∉ st.visited := by
        intro x hx
        have : x ∉ ({ st1 with linked := lk } : DState).visited := by
          rcases List.mem_append.1 hx with h | h
          · exact w2.fresh x h
          · exact fun hv => w3.fresh x h (w2.mono x hv)
        exact ⟨fun e => this (vis1 x (.inl e)), fun e => this (vis1 x (.inr e))⟩
      have hnot : aid ∉ log ++ L2 ++ L3 := by
        rw [List.append_assoc]
        intro h
        rcases List.mem_append.1 h with h | h
        · exact hvis (g.logVis _ h)
        · exact (fresh23 _ h).1 rfl
      have feats : ∀ a, st4.feature a = st.feature a ∨ (st4.feature a = some f ∧ Needs W aid a) := by
        intro a
        rw [f4]
        rcases w3.feat a with h | h
        · rw [h]
          rcases w2.feat a with h | h
          · rw [h]
            show st1.feature a = _ ∨ (st1.feature a = _ ∧ _)
            rw [f1]
            by_cases e : a = aid
            · subst e; rw [upd_same]; exact .inr ⟨rfl, .refl⟩
            · rw [upd_ne _ _ _ _ e]; exact .inl rfl
          · exact .inr h
        · exact .inr h
      have logN : (log ++ (L2 ++ L3 ++ [aid])).Nodup := by
        have := g4.logNodup
        have e : log ++ (L2 ++ L3 ++ [aid]) = (log ++ L2 ++ L3) ++ [aid] := by simp
        rw [e, List.nodup_append]
        refine ⟨this, by simp, ?_⟩
        intro a ha b hb
        simp only [List.mem_singleton] at hb
        subst hb
        rintro rfl; exact hnot ha
      have logV : ∀ x ∈ log ++ (L2 ++ L3 ++ [aid]), x ∈ st4.visited ∧ x ∈ R.keys := by
        intro x hx
        have hx' : x ∈ log ++ L2 ++ L3 ∨ x = aid := by
          simp only [List.mem_append, List.mem_singleton] at hx ⊢
          rcases hx with h | (h | h) | h
          · exact .inl (.inl (.inl h))
          · exact .inl (.inl (.inr h))
          · exact .inl (.inr h)
          · exact .inr h
        rcases hx' with h | rfl
        · exact ⟨g4.logVis x h, g4.logKeys x h⟩
        · exact ⟨by rw [v4]; exact vis3 _ (.inl rfl), hK⟩
      have fresh : ∀ x ∈ L2 ++ L3 ++ [aid], x ∉ st.visited := by
        intro x hx
        rcases List.mem_append.1 hx with h | h
        · exact (fresh23 x h).2
        · simp only [List.mem_singleton] at h; rw [h]; exact hvis
      have sumL : ∀ b, ((log ++ (L2 ++ L3 ++ [aid])).map (cnt W · b)).sum = ((log ++ L2 ++ L3).map (cnt W · b)).sum + cnt W aid b := by
        intro b; simp only [List.map_append, List.sum_append, List.map_cons, List.map_nil, List.sum_cons, List.sum_nil]; omega
      by_cases href : (W aid).referencing = true
      · rw [if_pos href]
        have hcnt : ∀ b, cntl W (W aid).refs b = cnt W aid b := by intro b; simp [cnt, href]
        obtain ⟨st5, e5, n5, p5⟩ := release_total (W := W) (W aid).refs st4 (by
            intro b
            rw [hcnt]
            have h1 := g4.count b
            have h2 := hR.count b
            have h3 := sum_le_of_nodup (cnt W · b) (log ++ (L2 ++ L3 ++ [aid])) R.keys logN (fun x hx => (logV x hx).2)
            rw [sumL] at h3
            omega) (by
            intro b hb hr
            refine g4.assigned b ?_ hr
            rw [v4]
            rcases (hR.complete aid hK b).2 ⟨href, hb, hr⟩ with h | h
            · exact w3.mono _ (m2 b h)
            · exact m3 b h) g4.idsNodup
        obtain ⟨q1, q2, q3, q4, q5⟩ := release_frame _ _ _ e5
        refine ⟨st5, L2 ++ L3 ++ [aid], e5, ⟨⟨n5, by rw [q2]; exact g4.visNodup, by rw [q2]; exact g4.kept, by rw [q2, q4]; exact g4.assigned, ?_, logN,
          fun x hx => by rw [q2]; exact (logV x hx).1, fun x hx => (logV x hx).2, ?_, by rw [q4]; exact g4.own⟩, fresh, ?_, ?_⟩, ?_⟩
        · rw [q2]; have := g4.pool; omega
        · intro b
          rw [sumL]
          have h1 := g4.count b
          have h2 := q5 b
          rw [hcnt] at h2
          omega
        · intro v hv; rw [q2, v4]; exact vis3 v (.inr hv)
        · intro a; rw [q3]; exact feats a
        · rw [q2, v4]; exact vis3 _ (.inl rfl)
      · rw [if_neg href]
        have hz : ∀ b, cnt W aid b = 0 := by intro b; simp [cnt, href]
        refine ⟨st4, L2 ++ L3 ++ [aid], rfl, ⟨⟨g4.idsNodup, g4.visNodup, g4.kept, g4.assigned, g4.pool, logN,
          fun x hx => (logV x hx).1, fun x hx => (logV x hx).2, ?_, g4.own⟩, fresh, ?_, feats⟩, ?_⟩
        · intro b; rw [sumL, hz]; have := g4.count b; omega
        · intro v hv; rw [v4]; exact vis3 v (.inr hv)
        · rw [v4]; exact vis3 _ (.inl rfl)

/-! ### Acceptance -/

/-- No action is added twice (other things may be). -/
def NotTwice (W : World) (sprites : List Nat) : Prop := ∀ pre s post, sprites = pre ++ s :: post → IsAction W s → s ∉ post

/-- Every action nothing refers to has a feature, all it needs has this feature or none, and what two of them need gets the same feature
from both. -/
structure FeaturesAgree (W : World) (sprites : List Nat) : Prop where
  known : ∀ r, Unreferenced W sprites r → (W r).feature ≠ none
  own : ∀ r a, Unreferenced W sprites r → Needs W r a → (W a).feature = none ∨ (W a).feature = (W r).feature
  shared : ∀ r r' a, Unreferenced W sprites r → Unreferenced W sprites r' → Needs W r a → Needs W r' a → (W r).feature = (W r').feature

/-- **C62** Actions whose references are nested less deep than Python's recursion limit, at most 255 of which can be referred to unless all
have ids of their own, are accepted exactly when no action is added twice and the features agree. Nothing else is refused: neither the order in which actions are
added nor how often they refer to each other matters, nor which of them were added themselves or have ids of their own. -/
theorem resolve_accepted_iff (W : World) (limit : Nat) (sprites : List Nat) (rank : Nat → Nat) (hrank : ∀ a b, Refers W a b → rank b < rank a)
    (hlim : ∀ s ∈ sprites, rank s < limit) (hcap : EnoughIds W sprites) :
    (resolveRefs W limit sprites).isSome = true ↔ NotTwice W sprites ∧ FeaturesAgree W sprites := by
  have hac := acyclic_of_rank rank hrank
  constructor
  · intro h
    obtain ⟨res, h⟩ := Option.isSome_iff_exists.1 h
    obtain ⟨f1, f2, -⟩ := features_exactly W limit sprites res hac h
    refine ⟨?_, fun r hr => (f1 r r hr .refl).2, ?_, ?_⟩
    · unfold resolveRefs at h
      simp only [Option.bind_eq_bind, Option.bind_eq_some_iff] at h
      obtain ⟨R, hR, -⟩ := h
      exact resolvePhase_nodup sprites 0 _ _ hR
    · intro r a hr hn
      cases e : (W a).feature with
      | none => exact .inl rfl
      | some f => right; rw [← (f1 r a hr hn).1, f2 a f e]
    · intro r r' a hr hr' h1 h2
      rw [← (f1 r a hr h1).1, ← (f1 r' a hr' h2).1]
  · rintro ⟨hnt, hfa⟩
    obtain ⟨R, hR⟩ := resolvePhase_total rank hrank hlim hnt
    have ph := resolvePhase_okG hac hR
    have hg := ph.graph
    have hroot : ∀ r ∈ roots R, Unreferenced W sprites r := fun r hr => (rootsG ph r).1 hr
    have hneed : ∀ r a, r ∈ sprites → Needs W r a → rank a < limit := by
      intro r a hr hn
      have : rank a ≤ rank r := by
        induction hn with
        | refl => exact Nat.le_refl _
        | step _ h ih => have := hrank _ _ h; omega
      have := hlim r hr
      omega
    have fold : ∀ (l done : List Nat) (st : DState) (log : List Nat), (∀ r ∈ l, r ∈ roots R) → Good W sprites R st log →
        (∀ a, st.feature a = (W a).feature ∨ ∃ r, Unreferenced W sprites r ∧ Needs W r a ∧ st.feature a = (W r).feature) →
        ∃ D, l.foldlM (dfsRoot W R limit) st = some D := by
      intro l
      induction l with
      | nil => intro _ st _ _ _ _; exact ⟨st, rfl⟩
      | cons r l ih =>
        intro done st log hl g hf
        have hr := hroot r (hl r List.mem_cons_self)
        obtain ⟨f, hff⟩ := Option.ne_none_iff_exists'.1 (hfa.known r hr)
        obtain ⟨st', L, e, w, -⟩ := dfs_total hg rank hrank hcap limit r none f st log (hlim r hr.1) (ph.pres r hr.1 hr.2.1) (.inr hr.1) g
          ⟨r, hr, .refl⟩ (by
            intro a ha
            rcases hf a with h | ⟨r', hr', hn', h⟩
            · rw [h]
              rcases hfa.own r a hr ha with h | h
              · exact .inl h
              · right; rw [h, hff]
            · right; rw [h, ← hff]; exact hfa.shared r' r a hr' hr hn' ha)
        obtain ⟨D, hD⟩ := ih (r :: done) st' (log ++ L) (fun x hx => hl x (List.mem_cons_of_mem _ hx)) w.good (by
          intro a
          rcases w.feat a with h | h
          · rw [h]; exact hf a
          · right; exact ⟨r, hr, h.2, by rw [h.1, hff]⟩)
        exact ⟨D, by rw [List.foldlM_cons]; simp only [dfsRoot, hff, e]; exact hD⟩
    obtain ⟨D, hD⟩ := fold (roots R) [] (dfsInit W R) [] (fun r hr => hr) (by
      refine ⟨initialIds_nodup, List.nodup_nil, ?_, ?_, ?_, List.nodup_nil, ?_, ?_, ?_, fun a i h => h⟩
      · intro v hv; cases hv
      · intro v hv; cases hv
      · show 255 ≤ (initialIds.filter fun x => decide (-x ∉ ([] : List Int))).length + 0
        decide +kernel
      · intro v hv; cases hv
      · intro v hv; cases hv
      · intro b; rfl) (fun a => .inl rfl)
    unfold resolveRefs
    rw [hR]
    simp only [Option.bind_eq_bind, Option.bind_some, hD]
    rfl

/-- An action that refers to itself is refused. -/
theorem self_reference_refused (W : World) (limit : Nat) (s : Nat) (h : Refers W s s) (pre post : List Nat) :
    resolveRefs W limit (pre ++ s :: post) = none := by
  have one : ∀ i st, resolve W limit s i st = none := by
    intro i st
    cases limit with
    | zero => rfl
    | succ limit =>
      simp only [resolve, if_pos h.1]
      have fold : ∀ (l : List RefArg) (st : RState), RefArg.obj s ∈ l →
          l.foldlM (resolveArg W (fun r st => resolve W limit r none st) s) st = none := by
        intro l
        induction l with
        | nil => intro st hm; cases hm
        | cons y l ih =>
          intro st hm
          rw [List.foldlM_cons]
          by_cases e : y = .obj s
          · subst e
            have : resolveArg W (fun r st => resolve W limit r none st) s st (.obj s) = none := by
              simp [resolveArg, h.2.2]
            rw [this]; rfl
          · have hm' := (List.mem_cons.1 hm).resolve_left (fun h => e h.symm)
            cases resolveArg W (fun r st => resolve W limit r none st) s st y with
            | none => rfl
            | some st1 => exact ih st1 hm'
      rw [fold _ _ h.2.1]; rfl
  have fold : ∀ (pre : List Nat) (k : Nat) (st : RState), (enumFrom k (pre ++ s :: post)).foldlM (resolveTop W limit) st = none := by
    intro pre
    induction pre with
    | nil =>
      intro k st
      rw [List.nil_append, enumFrom, List.foldlM_cons]
      have : resolveTop W limit st (k, s) = none := by
        simp only [resolveTop]
        rw [if_neg (by rw [h.1]; simp), one]; rfl
      rw [this]; rfl
    | cons x pre ih =>
      intro k st
      rw [List.cons_append, enumFrom, List.foldlM_cons]
      cases resolveTop W limit st (k, x) with
      | none => rfl
      | some st1 => exact ih (k + 1) st1
  unfold resolveRefs resolvePhase
  rw [fold]; rfl

/-! ### The hypotheses are met, and each is needed -/

/-- Layouts 0, 1; switch 2 uses both; action 3 uses switch 2 and layout 1. -/
def w5 : List Act := [leafAct, leafAct, swAct [.obj 0, .obj 1], mapAct [.obj 2, .obj 1]]

set_option maxRecDepth 100000 in
example : (∀ a b, Refers (worldOf w5) a b → b < a) ∧ (∀ s ∈ [3], s < 100) ∧ EnoughIds (worldOf w5) [3] ∧
    (resolveRefs (worldOf w5) 100 [3]).isSome = true := by
  refine ⟨?_, by decide, fun _ => ⟨[0, 1, 2], by decide, ?_⟩, by rfl⟩
  · intro a b h
    obtain ⟨h1, h2⟩ := refers_lt h
    have : ∀ a < 4, ∀ b < 4, Refers (worldOf w5) a b → b < a := by decide
    exact this a h1 b h2 h
  · intro a _ hr
    by_cases ha : a < 4
    · have : ∀ a < 4, (worldOf w5 a).referenceable = true → a ∈ [0, 1, 2] := by decide
      exact this a ha hr
    · rw [worldOf_out (by show w5.length ≤ a; simp [w5]; omega)] at hr; cases hr

set_option maxRecDepth 100000 in
/-- Added twice, refused. -/
example : resolveRefs (worldOf w5) 100 [3, 3] = none := by rfl

set_option maxRecDepth 100000 in
/-- An action of another feature is refused. -/
example : resolveRefs (worldOf [{ referenceable := true, feature := some 1 }, mapAct [.obj 0]]) 100 [1] = none := by rfl

set_option maxRecDepth 100000 in
/-- A layout used by actions of two features is refused. -/
example : resolveRefs (worldOf [leafAct, mapAct [.obj 0], { referencing := true, refs := [.obj 0], feature := some 1 }]) 100 [1, 2] = none := by rfl

set_option maxRecDepth 100000 in
/-- Deeper than the recursion limit, refused. -/
theorem too_deep_refused : resolveRefs (worldOf w5) 2 [3] = none := by rfl

set_option maxRecDepth 100000 in
/-- References in a circle are not noticed: two switches that refer to each other are emitted, the first with a reference to the
second, which comes after it. -/
theorem circle_accepted : (resolveRefs (worldOf [swAct [.obj 1], swAct [.obj 0], mapAct [.obj 0]]) 100 [2]).map (·.out) = some [1, 0, 2] := by rfl

end Grf
