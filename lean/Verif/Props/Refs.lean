import Verif.Proofs.Refs3
/-!
# C27 - references resolve to an order where targets come first; C28 - ids never collide while live

All theorems are about `resolveRefs` succeeding (`= some res`): an exception writes no file.
-/
namespace Grf

theorem needs_key {W : World} {sp : List Nat} {R : RState} {res : Resolved} {log : List (Nat × Nat)}
    {segs : List (Nat × List (Nat × Nat))} {D : DState} (F : Final W sp R res log segs D) {s a : Nat} (hs : s ∈ sp)
    (hn : Needs W s a) (ha : IsAction W s) : a ∈ R.keys := F.phase.needs (F.phase.pres s hs ha) hn

theorem needs_action {W : World} {s a b : Nat} (hn : Needs W s a) (hr : Refers W a b) : IsAction W s := by
  have : ∀ x, Needs W s x → x = s ∨ IsAction W s := by
    intro x hx
    induction hx with
    | refl => exact .inl rfl
    | step _ h ih =>
      rcases ih with e | h'
      · right; rw [← e]; exact h.actions.1
      · exact .inr h'
  rcases this a hn with e | h
  · rw [← e]; exact hr.actions.1
  · exact h

/-- What the user's action `r` needs among the user's actions was added before it. -/
theorem needs_backwards {W : World} {sp : List Nat} (hbu : AddedBeforeUse W sp) {r x : Nat} (hr : r ∈ sp)
    (hn : Needs W r x) : ∃ p ∈ sp, Within W sp p x ∧ (p = r ∨ Before sp p r) := by
  induction hn with
  | refl => exact ⟨r, hr, .refl, .inl rfl⟩
  | @step b c _ h ih =>
    obtain ⟨p, hp, hw, ho⟩ := ih
    by_cases hc : c ∈ sp
    · have h1 := hbu p hp b c hw h hc
      refine ⟨c, hc, .refl, .inr ?_⟩
      rcases ho with rfl | ho
      · exact h1
      · exact h1.trans ho
    · exact ⟨p, hp, .step hw h hc, ho⟩

theorem within_sp {W : World} {sp : List Nat} {p x : Nat} (h : Within W sp p x) (hx : x ∈ sp) : x = p := by
  cases h with
  | refl => rfl
  | step _ _ h3 => exact absurd hx h3

theorem Final.rootsSublist {W : World} {sp : List Nat} {R : RState} {res : Resolved} {log : List (Nat × Nat)}
    {segs : List (Nat × List (Nat × Nat))} {D : DState} (F : Final W sp R res log segs D) : (roots R).Sublist sp := by
  have h1 : (roots R).Sublist (R.keys.filter (· ∈ sp)) := by
    have e : roots R = (roots R).filter (· ∈ sp) := by
      symm
      rw [List.filter_eq_self]
      intro r hr
      simpa using (roots_in_sp F.phase r hr).2
    rw [e]
    exact List.filter_sublist.filter _
  rw [F.phase.order] at h1
  exact h1.trans List.filter_sublist

theorem Final.rootsBefore {W : World} {sp : List Nat} {R : RState} {res : Resolved} {log : List (Nat × Nat)}
    {segs : List (Nat × List (Nat × Nat))} {D : DState} (F : Final W sp R res log segs D) {d1 d2 : List Nat} {r q : Nat}
    (e : roots R = d1 ++ r :: d2) (hq : q ∈ d2) : Before sp r q := by
  have h := F.rootsSublist
  rw [e] at h
  have h := (List.sublist_append_right d1 (r :: d2)).trans h
  rw [List.cons_sublist_iff] at h
  obtain ⟨r1, r2, e2, h1, h2⟩ := h
  refine ⟨r1, r2, e2, h1, ?_⟩
  intro hm
  have hq2 : q ∈ r2 := h2.subset hq
  have hqa : IsAction W q := F.actionOf (roots_in_sp F.phase q (by rw [e]; simp [hq])).1
  obtain ⟨p1, p2, ep⟩ := List.append_of_mem hm
  exact F.uniq p1 q (p2 ++ r2) (by rw [e2, ep]; simp) hqa (by simp [hq2])

/-- The owner of an action is the first of the user's actions that needs it. -/
theorem Final.firstOwner {W : World} {sp : List Nat} {R : RState} {res : Resolved} {log : List (Nat × Nat)}
    {segs : List (Nat × List (Nat × Nat))} {D : DState} (F : Final W sp R res log segs D) (hbu : AddedBeforeUse W sp)
    (hfu : FirstUserUnreferenced W sp) {u P Q : Nat} (hP : (u, P) ∈ log) (hu : u ∉ sp) (hQ : Q ∈ sp)
    (hw : Within W sp Q u) : P = Q ∨ Before sp P Q := by
  have hown := F.inv.core.own _ hP
  simp only [] at hown
  -- the first user of `u`
  have hex : ∃ Q0 ∈ sp, Within W sp Q0 u ∧ ∀ r ∈ sp, Within W sp r u → r = Q0 ∨ Before sp Q0 r := by
    have key : ∀ n, ∀ q ∈ sp, Within W sp q u → sp.idxOf q ≤ n →
        ∃ Q0 ∈ sp, Within W sp Q0 u ∧ ∀ r ∈ sp, Within W sp r u → r = Q0 ∨ Before sp Q0 r := by
      intro n
      induction n with
      | zero =>
        intro q hq hwq hn
        refine ⟨q, hq, hwq, ?_⟩
        intro r hr _
        rcases list_before_total hr hq with h | h | h
        · exact .inl h
        · rw [before_iff] at h; omega
        · exact .inr h
      | succ n ih =>
        intro q hq hwq hn
        by_cases hmin : ∃ r ∈ sp, Within W sp r u ∧ Before sp r q
        · obtain ⟨r, hr, hwr, hb⟩ := hmin
          rw [before_iff] at hb
          exact ih r hr hwr (by omega)
        · refine ⟨q, hq, hwq, ?_⟩
          intro r hr hwr
          rcases list_before_total hr hq with h | h | h
          · exact .inl h
          · exact absurd ⟨r, hr, hwr, h⟩ hmin
          · exact .inr h
    exact key _ Q hQ hw (Nat.le_refl _)
  obtain ⟨Q0, hQ0, hw0, hmin⟩ := hex
  have hPQ0 : P = Q0 := by
    rcases hmin P hown.1 hown.2.1 with h | hb
    · exact h
    · exfalso
      have hun := hfu u hu Q0 hQ0 P hown.1 hw0 hown.2.1 hb hmin
      have hQ0ne : Q0 ≠ u := fun e => hu (e ▸ hQ0)
      have hQa : IsAction W Q0 := by
        have : ∀ x, Within W sp Q0 x → x = Q0 ∨ IsAction W Q0 := by
          intro x hx
          induction hx with
          | refl => exact .inl rfl
          | step _ h _ ih =>
            rcases ih with e | h'
            · right; rw [← e]; exact h.actions.1
            · exact .inr h'
        rcases this u hw0 with e | h
        · exact absurd e.symm hQ0ne
        · exact h
      have hQroot : Q0 ∈ roots R := by
        rw [roots_spec F.phase]
        refine ⟨F.phase.pres Q0 hQ0 hQa, ?_⟩
        intro c hc
        obtain ⟨p, hp, hpa, hpw⟩ := F.phase.member c hc
        exact hun c p hp hpw.needs
      -- the segment `u` is in
      have hul := hP
      rw [F.segsOf, List.mem_flatMap] at hul
      obtain ⟨s, hs, hus⟩ := hul
      obtain ⟨s1, s2, es⟩ := List.append_of_mem hs
      have hn := F.segNeeds.needs s hs _ hus
      simp only [] at hn
      have hrs : roots R = s1.map (·.1) ++ s.1 :: s2.map (·.1) := by rw [← F.segRoots, es]; simp
      have hsr := roots_in_sp F.phase s.1 (by rw [hrs]; simp)
      -- `P` is not after the root of the segment
      have hPs : P = s.1 ∨ Before sp P s.1 := by
        obtain ⟨p, _, hpw, hpo⟩ := needs_backwards hbu hsr.2 hn.2
        rw [within_sp hpw hown.1]; exact hpo
      -- the segment's root is not after `Q0`
      have hsQ : s.1 = Q0 ∨ Before sp s.1 Q0 := by
        rw [hrs, List.mem_append, List.mem_cons] at hQroot
        rcases hQroot with h | h | h
        · exfalso
          -- then `u` would have been placed earlier
          obtain ⟨t, ht, et⟩ := List.mem_map.1 h
          obtain ⟨t1, t2, e1⟩ := List.append_of_mem ht
          have hpl := F.segPlaced t1 t (t2 ++ s :: s2) (by rw [es, e1]; simp)
          have hsplit : log = (t1.flatMap (·.2) ++ t.2) ++ (t2.flatMap (·.2) ++ s.2 ++ s2.flatMap (·.2)) := by
            rw [F.segsOf, es, e1]; simp
          have hcl : ∀ b, Needs W t.1 b → b ∈ names (t1.flatMap (·.2) ++ t.2) := by
            intro b hb
            induction hb with
            | refl => exact hpl
            | step _ hr ih =>
              obtain ⟨p, hp, ep⟩ := List.mem_map.1 ih
              obtain ⟨l1, l2, el⟩ := List.append_of_mem hp
              have := F.inv.core.order l1 p (l2 ++ (t2.flatMap (·.2) ++ s.2 ++ s2.flatMap (·.2)))
                (by rw [hsplit, el]; simp) _ (ep ▸ hr)
              rw [el, names_append]
              exact List.mem_append_left _ this
          have hin := hcl u (et ▸ hw0.needs)
          have hnd := F.nodupLog
          rw [hsplit, names_append, List.nodup_append] at hnd
          refine hnd.2.2 u hin u ?_ rfl
          simp only [names_append, List.mem_append]
          exact .inl (.inr (List.mem_map.2 ⟨_, hus, rfl⟩))
        · exact .inl h.symm
        · exact .inr (F.rootsBefore hrs h)
      rcases hPs with e1 | h1 <;> rcases hsQ with e2 | h2
      · rw [e1, e2] at hb; exact hb.asymm hb
      · rw [e1] at hb; exact hb.asymm h2
      · rw [← e2] at hb; exact hb.asymm h1
      · exact (h1.trans h2).asymm hb
  subst hPQ0
  rcases hmin Q hQ hw with h | h
  · exact .inl h.symm
  · exact .inr h

/-- C27, first part: every action that is needed is emitted exactly once, nothing else is emitted, and the
user's own actions keep their order - provided references are acyclic, the user adds an action before
the actions that refer to it, and no raw `Ref` is used. -/
theorem resolved_emits_once_partial (W : World) (limit : Nat) (sprites : List Nat) (res : Resolved)
    (hac : Acyclic W) (hraw : NoRawRefs W) (hbu : AddedBeforeUse W sprites)
    (h : resolveRefs W limit sprites = some res) :
    (∀ s ∈ sprites, IsAction W s → ∀ a, Needs W s a → res.out.count a = 1) ∧
    (∀ a ∈ res.out, ∃ s ∈ sprites, Needs W s a) ∧
    res.out.filter (· ∈ sprites) = sprites := by
  obtain ⟨R, log, segs, D, F⟩ := final hac hraw hbu h
  refine ⟨fun s hs ha a hn => F.count_out (needs_key F hs hn ha), ?_, F.user_order⟩
  intro a ha
  rcases (F.mem_out a).1 ha with h1 | h1
  · exact ⟨a, h1, .refl⟩
  · obtain ⟨p, hp, _, hw⟩ := F.phase.member a h1
    exact ⟨p, hp, hw.needs⟩

/-- C27, second part: every referenced action is emitted before each action referring to it - provided also
that an implicit action shared by several of the user's actions is first needed by an unreferenced one. -/
theorem resolved_targets_first_partial (W : World) (limit : Nat) (sprites : List Nat) (res : Resolved)
    (hac : Acyclic W) (hraw : NoRawRefs W) (hbu : AddedBeforeUse W sprites) (hfu : FirstUserUnreferenced W sprites)
    (h : resolveRefs W limit sprites = some res) (s a b : Nat) (hs : s ∈ sprites) (hn : Needs W s a)
    (hr : Refers W a b) : Before res.out b a ∧ a ∈ res.out := by
  obtain ⟨R, log, segs, D, F⟩ := final hac hraw hbu h
  have hak := needs_key F hs hn (needs_action hn hr)
  have hbk := F.phase.needs hak hr.needs
  refine ⟨?_, (F.mem_out a).2 (.inr hak)⟩
  obtain ⟨P, hP⟩ := F.ownerOf hak
  obtain ⟨Q, hQ⟩ := F.ownerOf hbk
  have hPo := F.inv.core.own _ hP
  have hQo := F.inv.core.own _ hQ
  simp only [] at hPo hQo
  refine F.outBefore hQ hP ?_
  -- `b` precedes `a` in the history
  have hlog : Before (names log) b a := by
    obtain ⟨l1, l2, el⟩ := List.append_of_mem hP
    refine ⟨names l1, names ((a, P) :: l2), by rw [el, names_append], F.inv.core.order l1 _ l2 el b hr, ?_⟩
    intro hm
    have := F.nodupLog
    rw [el, names_append, List.nodup_append] at this
    exact this.2.2 a hm a (by simp [names]) rfl
  by_cases hb : b ∈ sprites
  · have e : Q = b := hQo.2.2.2 hb
    rw [e]
    exact .inr (hbu P hPo.1 a b hPo.2.1 hr hb)
  · rcases F.firstOwner hbu hfu hQ hb hPo.1 (.step hPo.2.1 hr hb) with e | h
    · exact .inl ⟨e, hlog⟩
    · exact .inr h

/-- Features: every emitted action has a feature, equal to that of the actions it refers to, and features the
user set are kept. -/
theorem resolved_features_partial (W : World) (limit : Nat) (sprites : List Nat) (res : Resolved)
    (hac : Acyclic W) (hraw : NoRawRefs W) (hbu : AddedBeforeUse W sprites)
    (h : resolveRefs W limit sprites = some res) :
    (∀ s ∈ sprites, IsAction W s → ∀ a, Needs W s a → (res.feature a).isSome = true ∧
      ∀ b, Refers W a b → res.feature b = res.feature a) ∧
    (∀ a f, (W a).feature = some f → res.feature a = some f) := by
  obtain ⟨R, log, segs, D, F⟩ := final hac hraw hbu h
  rw [F.feats]
  refine ⟨?_, F.inv.core.featKeep⟩
  intro s hs ha a hn
  have hk := needs_key F hs hn ha
  obtain ⟨o, ho⟩ := F.ownerOf hk
  have hv : a ∈ D.visited := (F.inv.core.vis a).2 (.inl (List.mem_map.2 ⟨_, ho, rfl⟩))
  exact ⟨F.inv.core.featSome a hv, fun b hr => (F.inv.core.feat _ ho b hr).symm⟩

/-- Ids the user set are kept. -/
theorem resolved_keeps_user_ids_partial (W : World) (limit : Nat) (sprites : List Nat) (res : Resolved)
    (hac : Acyclic W) (hraw : NoRawRefs W) (hbu : AddedBeforeUse W sprites)
    (h : resolveRefs W limit sprites = some res) (a : Nat) (i : Int) (hi : (W a).refId = some i) :
    res.refId a = some i := by
  obtain ⟨R, log, segs, D, F⟩ := final hac hraw hbu h
  rw [F.ids]
  exact F.inv.core.refKeep a i hi

/-- C28: ids lie in 1..255, and when two emitted actions have the same id, every reference to the earlier one
is emitted before the later one - provided the user adds only actions nobody refers to, and sets no id himself. -/
theorem live_ids_distinct_partial (W : World) (limit : Nat) (sprites : List Nat) (res : Resolved)
    (hac : Acyclic W) (hraw : NoRawRefs W) (hro : OnlyRootsAdded W sprites)
    (hauto : ∀ s ∈ sprites, ∀ a, Needs W s a → (W a).refId = none)
    (h : resolveRefs W limit sprites = some res) :
    (∀ a ∈ res.out, (W a).referenceable = true → ∃ i, res.refId a = some i ∧ 1 ≤ i ∧ i ≤ 255) ∧
    (∀ a b, a ∈ res.out → b ∈ res.out → (W a).referenceable = true → (W b).referenceable = true →
      res.refId a = res.refId b → Before res.out a b →
      ∀ c ∈ res.out, Refers W c a → Before res.out c b) := by
  have hbu : AddedBeforeUse W sprites := by
    intro p hp a b hw hr hb
    exact absurd hr (hro p hp a hw.needs b hb)
  obtain ⟨R, log, segs, D, F⟩ := final hac hraw hbu h
  have hak : ∀ a ∈ R.keys, (W a).refId = none := by
    intro a ha
    obtain ⟨p, hp, _, hw⟩ := F.phase.member a ha
    exact hauto p hp a hw.needs
  have I := F.inv.ids hak
  have hkey : ∀ a ∈ res.out, IsAction W a → a ∈ R.keys := by
    intro a ha hact
    rcases (F.mem_out a).1 ha with h1 | h1
    · exact F.phase.pres a h1 hact
    · exact h1
  have hvis : ∀ a ∈ R.keys, a ∈ D.visited := fun a ha => (F.inv.core.vis a).2 (.inl ((F.all a).2 ha))
  -- the owner is the root of the segment
  have hseg : ∀ s ∈ segs, ∀ p ∈ s.2, p.2 = s.1 := by
    intro s hs p hp
    have hn := (F.segNeeds.needs s hs p hp).2
    have hpl : p ∈ log := by rw [F.segsOf, List.mem_flatMap]; exact ⟨s, hs, hp⟩
    have hpsp := (F.inv.core.own p hpl).1
    have hsr : s.1 ∈ sprites := (roots_in_sp F.phase s.1 (by rw [← F.segRoots]; exact List.mem_map.2 ⟨s, hs, rfl⟩)).2
    have gen : ∀ x, Needs W s.1 x → x ∈ sprites → x = s.1 := by
      intro x hx hxs
      cases hx with
      | refl => rfl
      | step h1 h2 => exact absurd h2 (hro s.1 hsr _ h1 _ hxs)
    exact gen _ hn hpsp
  have hlog : ∀ {x y : Nat}, x ∈ R.keys → y ∈ R.keys → Before (names log) x y → Before res.out x y := by
    intro x y hx hy hb
    obtain ⟨P, hP⟩ := F.ownerOf hx
    obtain ⟨Q, hQ⟩ := F.ownerOf hy
    refine F.outBefore hP hQ ?_
    rcases list_before_total (F.inv.core.own _ hP).1 (F.inv.core.own _ hQ).1 with e | h1 | h1
    · exact .inl ⟨e, hb⟩
    · exact .inr h1
    · exfalso
      simp only [] at h1
      -- then the segment of `Q` comes first
      have hPl := hP
      have hQl := hQ
      rw [F.segsOf, List.mem_flatMap] at hPl hQl
      obtain ⟨s, hs, hPs⟩ := hPl
      obtain ⟨t, ht, hQt⟩ := hQl
      have eP := hseg s hs _ hPs
      have eQ := hseg t ht _ hQt
      simp only [] at eP eQ
      obtain ⟨s1, s2, es⟩ := List.append_of_mem hs
      have hrs : roots R = s1.map (·.1) ++ s.1 :: s2.map (·.1) := by rw [← F.segRoots, es]; simp
      rw [es, List.mem_append, List.mem_cons] at ht
      have hts1 : t ∈ s1 := by
        rcases ht with h | h | h
        · exact h
        · subst h; rw [eP, ← eQ] at h1; exact absurd h1 (fun h => h.asymm h)
        · have := F.rootsBefore hrs (List.mem_map.2 ⟨t, h, rfl⟩)
          rw [← eP, ← eQ] at this
          exact absurd h1 (fun h => this.asymm h)
      have hby : Before (names log) y x := by
        refine ⟨names (s1.flatMap (·.2)), names (s.2 ++ s2.flatMap (·.2)), ?_, ?_, ?_⟩
        · rw [F.segsOf, es, ← names_append]; simp
        · exact List.mem_map.2 ⟨_, List.mem_flatMap.2 ⟨t, hts1, hQt⟩, rfl⟩
        · intro hm
          have hnd := F.nodupLog
          have e : log = s1.flatMap (·.2) ++ (s.2 ++ s2.flatMap (·.2)) := by rw [F.segsOf, es]; simp
          rw [e, names_append, List.nodup_append] at hnd
          exact hnd.2.2 x hm x (List.mem_map.2 ⟨_, List.mem_append_left _ hPs, rfl⟩) rfl
      exact hb.asymm hby
  rw [F.ids]
  refine ⟨fun a ha hra => I.assigned a (hvis a (hkey a ha (.inr hra))) hra, ?_⟩
  intro a b ha hb hra hrb hid hab c hc hca
  have hak' := hkey a ha (.inr hra)
  have hbk' := hkey b hb (.inr hrb)
  have hck' := hkey c hc hca.actions.1
  have hne : a ≠ b := by rintro rfl; exact hab.asymm hab
  obtain ⟨i, hi, _⟩ := I.assigned a (hvis a hak') hra
  rcases I.pair a (hvis a hak') b (hvis b hbk') hne i hi (hid ▸ hi) with h1 | h1
  · exact hlog hck' hbk' (h1.2 c hck' hca)
  · exfalso
    obtain ⟨d, hd, hdb⟩ := h1.1
    have hda := h1.2 d hd hdb
    have hbd : Before (names log) b d := by
      obtain ⟨o, ho⟩ := F.ownerOf hd
      obtain ⟨l1, l2, el⟩ := List.append_of_mem ho
      refine ⟨names l1, names ((d, o) :: l2), by rw [el, names_append], F.inv.core.order l1 _ l2 el b hdb, ?_⟩
      intro hm
      have := F.nodupLog
      rw [el, names_append, List.nodup_append] at this
      exact this.2.2 d hm d (by simp [names]) rfl
    exact hab.asymm (hlog hbk' hak' (hbd.trans hda))


theorem popId_not_reserved {reserved : List Int} : ∀ {n : Nat} {ids r : List Int} {i : Int},
    popId reserved n ids = some (i, r) → i ∉ reserved ∧ -i ∈ ids := by
  have heap : ∀ {ids r : List Int} {m : Int}, heappop ids = some (m, r) → m ∈ ids ∧ r ⊆ ids := by
    intro ids
    induction ids with
    | nil => intro r m h; simp [heappop] at h
    | cons x l ih =>
      intro r m h
      simp only [heappop] at h
      split at h
      · simp only [Option.some.injEq, Prod.mk.injEq] at h
        simp [← h.1, ← h.2]
      · next m' r' h' =>
        obtain ⟨h1, h2⟩ := ih h'
        split at h
        · simp only [Option.some.injEq, Prod.mk.injEq] at h
          simp [← h.1, ← h.2]
        · simp only [Option.some.injEq, Prod.mk.injEq] at h
          rw [← h.1, ← h.2]
          exact ⟨by simp [h1], by simp only [List.cons_subset]; exact ⟨by simp, fun y hy => by simp [h2 hy]⟩⟩
  intro n
  induction n with
  | zero => intro ids r i h; simp [popId] at h
  | succ n ih =>
    intro ids r i h
    simp only [popId] at h
    split at h
    · simp at h
    · next m r' hm =>
      obtain ⟨h1, h2⟩ := heap hm
      split at h
      · obtain ⟨h3, h4⟩ := ih h
        exact ⟨h3, h2 h4⟩
      · next hr =>
        simp only [Option.some.injEq, Prod.mk.injEq] at h
        rw [← h.1]
        exact ⟨hr, by simpa using h1⟩

/-- C28, one step: on the first visit of an action without an id, the id it gets is none of the ids reserved for actions with
explicit ids, and it was free; an explicit id is reserved and kept. (What is missing for the whole run: see
`explicit_id_handed_out`.) -/
theorem assigned_id_not_reserved_partial (W : World) (aid : Nat) (st st' : DState) (hr : (W aid).referenceable = true)
    (h : assignId W aid st = some st') :
    (st.refId aid = none → ∃ i, st'.refId aid = some i ∧ i ∉ st.reserved ∧ -i ∈ st.ids ∧ st'.reserved = st.reserved) ∧
    (∀ i, st.refId aid = some i → st'.refId = st.refId ∧ ∀ x, x ∈ st'.reserved ↔ x = i ∨ x ∈ st.reserved) := by
  simp only [assignId, hr, Bool.true_eq_false, if_false] at h
  constructor
  · intro hn
    simp only [hn, Option.map_eq_some_iff] at h
    obtain ⟨⟨i, r⟩, hp, rfl⟩ := h
    obtain ⟨h1, h2⟩ := popId_not_reserved hp
    exact ⟨i, by simp [upd], h1, h2, rfl⟩
  · intro i hi
    simp only [hi, Option.some.injEq] at h
    subst h
    simp

example : ∃ st', assignId (fun _ => { referenceable := true }) 0
    (DState.mk [-255, -254] [255] (fun _ => none) [] (fun _ => 1) (fun _ => none) (fun _ => none)) = some st' ∧
    st'.refId 0 = some 254 := ⟨_, rfl, rfl⟩

/-- An action added at two positions is refused. -/
theorem added_twice_refused (W : World) (limit : Nat) (pre mid post : List Nat) (s : Nat) (hs : IsAction W s) :
    resolveRefs W limit (pre ++ s :: mid ++ s :: post) = none := by
  cases h : resolveRefs W limit (pre ++ s :: mid ++ s :: post) with
  | none => rfl
  | some res =>
    exfalso
    unfold resolveRefs at h
    rw [Option.bind_eq_bind, Option.bind_eq_some_iff] at h
    obtain ⟨R, h1, _⟩ := h
    exact resolvePhase_nodup _ 0 _ _ h1 pre s (mid ++ s :: post) (by simp) hs (by simp)

/-! ### Concrete cases -/

/-- A switch (referencing and referenceable) of feature 0 with the given references. -/
def swAct (refs : List RefArg) (rid : Option Int := none) : Act :=
  { referencing := true, referenceable := true, refs := refs, feature := some 0, refId := rid }

/-- An Action 3 (referencing only). -/
def mapAct (refs : List RefArg) : Act := { referencing := true, refs := refs, feature := some 0 }

/-- A sprite layout / group (referenceable only) without feature. -/
def leafAct (rid : Option Int := none) : Act := { referenceable := true, refId := rid }

/-- A world given by a finite list of actions. -/
def worldOf (l : List Act) : World := fun n => l.getD n {}

/-- Executable acyclicity criterion for concrete worlds: references go to smaller objects. -/
theorem acyclic_of_down {W : World} (h : ∀ a b, Refers W a b → b < a) : Acyclic W := by
  have : ∀ a b, Needs W a b → b ≤ a := by
    intro a b hn
    induction hn with
    | refl => exact Nat.le_refl _
    | step _ hr ih => exact Nat.le_trans (Nat.le_of_lt (h _ _ hr)) ih
  intro a b hr hn
  have h1 := h a b hr
  have h2 := this b a hn
  omega

theorem worldOf_out {l : List Act} {n : Nat} (h : l.length ≤ n) : worldOf l n = {} := by
  unfold worldOf
  simp [List.getD, h]

theorem refers_lt {l : List Act} {a b : Nat} (h : Refers (worldOf l) a b) : a < l.length ∧ b < l.length := by
  refine ⟨?_, ?_⟩
  · apply Classical.byContradiction
    intro hc
    have := h.1
    rw [worldOf_out (by omega)] at this
    exact absurd this (by decide)
  · apply Classical.byContradiction
    intro hc
    have := h.2.2
    rw [worldOf_out (by omega)] at this
    exact absurd this (by decide)

instance (W : World) (a b : Nat) : Decidable (Refers W a b) := by unfold Refers; infer_instance

theorem noRaw_of {l : List Act} (h : ∀ a ∈ l, ∀ r ∈ a.refs, ∀ i, r ≠ .ref false i) : NoRawRefs (worldOf l) := by
  intro a rid hm
  by_cases ha : a < l.length
  · unfold worldOf at hm
    simp [List.getD, ha] at hm
    exact h _ (List.getElem_mem ha) _ hm rid rfl
  · rw [worldOf_out (by omega)] at hm
    simp at hm

/-- Two action 3s (5, 6); 5 uses switch 4, which uses layouts 0 and 1 and switch 3, which uses layout 1;
6 uses the shared switch 3 and layout 2. -/
def w1 : List Act := [leafAct, leafAct, leafAct, swAct [.obj 1, .other],
  swAct [.obj 0, .obj 1, .obj 3], mapAct [.obj 4, .ref true 7], mapAct [.obj 3, .obj 2]]

set_option maxRecDepth 100000 in
/-- The hypotheses of the C27/C28 theorems hold of a non-trivial set of actions with sharing, and the
resolution succeeds. -/
example : Acyclic (worldOf w1) ∧ NoRawRefs (worldOf w1) ∧ OnlyRootsAdded (worldOf w1) [5, 6] ∧
    AddedBeforeUse (worldOf w1) [5, 6] ∧ FirstUserUnreferenced (worldOf w1) [5, 6] ∧
    (∀ s ∈ [5, 6], ∀ a, Needs (worldOf w1) s a → (worldOf w1 a).refId = none) ∧
    (resolveRefs (worldOf w1) 100 [5, 6]).map (fun r => (r.out, [0, 1, 2, 3, 4].map r.refId)) =
      some ([0, 1, 3, 4, 5, 2, 6], [some 254, some 253, some 255, some 252, some 255]) := by
  have hd : ∀ a b, Refers (worldOf w1) a b → b < a ∧ b < 5 := by
    intro a b h
    obtain ⟨h1, h2⟩ := refers_lt h
    have : ∀ a < 7, ∀ b < 7, Refers (worldOf w1) a b → b < a ∧ b < 5 := by decide
    exact this a h1 b h2 h
  have hro : OnlyRootsAdded (worldOf w1) [5, 6] := by
    intro s _ x _ p hp hr
    have := (hd _ _ hr).2
    simp at hp
    omega
  refine ⟨acyclic_of_down fun a b h => (hd a b h).1, ?_, hro, ?_, ?_, ?_, by rfl⟩
  · refine noRaw_of ?_
    intro a ha r hr i e
    subst e
    simp [w1, leafAct, swAct, mapAct] at ha
    rcases ha with rfl | rfl | rfl | rfl | rfl <;> simp at hr
  · intro p hp a b hw hr hb
    exact absurd hr (hro p hp a hw.needs b hb)
  · intro u _ p hp q _ _ _ _ _ x s hs hn
    exact hro s hs x hn p hp
  · intro s hs a _
    by_cases ha : a < 7
    · have : ∀ a < 7, (worldOf w1 a).refId = none := by decide
      exact this a ha
    · rw [worldOf_out (by show 7 ≤ a; omega)]

/-! ### What does not hold

Each of these is a small input on which the code does something C27/C28 would exclude. They show that the
hypotheses above cannot be dropped. -/

set_option maxRecDepth 100000 in
/-- Forward reference: the user adds Action 3 (1) referring to switch 0, then adds switch 0: it is emitted
after the action that refers to it. -/
theorem forward_reference_emitted_late :
    (resolveRefs (worldOf [swAct [], mapAct [.obj 0]]) 100 [1, 0]).map (·.out) = some [1, 0] := by rfl

set_option maxRecDepth 100000 in
/-- Shared implicit action: sprites X=1, W=2, Z=3; X and W use U=0, Z uses X. All actions are added
before use, but U is placed after X, which refers to it. -/
theorem shared_action_emitted_late :
    (resolveRefs (worldOf [leafAct, swAct [.obj 0], mapAct [.obj 0], mapAct [.obj 1]]) 100 [1, 2, 3]).map (·.out) =
      some [1, 0, 2, 3] := by rfl


set_option maxRecDepth 100000 in
/-- Id clash: U=0, V=1 implicit; X=2 uses U, W=3 uses V, Z=4 uses X; the user adds X, W, Z. V and X both get
id 255, V is emitted between X and Z, so Z's reference to X selects V. -/
theorem id_clash_while_live :
    (resolveRefs (worldOf [leafAct, leafAct, swAct [.obj 0], mapAct [.obj 1], mapAct [.obj 2]]) 100 [2, 3, 4]).map
      (fun r => (r.out, [0, 1, 2].map r.refId)) = some ([0, 2, 1, 3, 4], [some 254, some 255, some 255]) := by rfl

set_option maxRecDepth 100000 in
/-- Explicit id handed out: Action 3 (2) uses layout 0 without id and layout 1 with `ref_id = 255`: both have
id 255, so the reference to 0 selects 1. -/
theorem explicit_id_handed_out :
    (resolveRefs (worldOf [leafAct, leafAct (some 255), mapAct [.obj 0, .obj 1]]) 100 [2]).map
      (fun r => (r.out, [0, 1].map r.refId)) = some ([0, 1, 2], [some 255, some 255]) := by rfl

set_option maxRecDepth 100000 in
/-- A switch referred to only through a raw `Ref` is silently left out. -/
theorem raw_ref_target_dropped :
    (resolveRefs (worldOf [swAct [] (some 5), mapAct [.ref false 5]]) 100 [0, 1]).map (·.out) = some [1] := by rfl

set_option maxRecDepth 100000 in
/-- Two switches referring to each other are silently left out. -/
theorem mutual_references_dropped :
    (resolveRefs (worldOf [swAct [.obj 1], swAct [.obj 0]]) 100 [0, 1]).map (·.out) = some [] := by rfl

end Grf
