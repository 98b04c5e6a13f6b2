import Verif.Props.RefsOrder
/-!
# C28: ids of actions never collide while they are live
-/
namespace Grf

section
variable {W : World} {sp : List Nat} {R : RState} {res : Resolved} {log : List (Nat × Nat)}
  {segs : List (Nat × List (Nat × Nat))} {D : DState}

theorem FinalG.auto (F : FinalG W sp R res log segs D) (hauto : ∀ s ∈ sp, ∀ a, Needs W s a → (W a).refId = none) :
    ∀ a ∈ R.keys, (W a).refId = none := by
  intro a ha
  obtain ⟨p, hp, _, hw⟩ := F.phase.member a ha
  exact hauto p hp a hw

theorem FinalG.key (F : FinalG W sp R res log segs D) {a : Nat} (h : Kept W sp a) : a ∈ R.keys := by
  obtain ⟨r, hr, hn⟩ := h
  exact F.phase.needs (F.phase.pres r hr.1 hr.2.1) hn

theorem FinalG.seen (F : FinalG W sp R res log segs D) {a : Nat} (h : Kept W sp a) : a ∈ D.visited :=
  (F.inv.core.vis a).2 (.inl ((F.all a).2 h))

/-- If only actions nothing refers to are added, the order of the history is that of the output. -/
theorem FinalG.sameOrder (F : FinalG W sp R res log segs D) (hro : ∀ s ∈ sp, Kept W sp s → Unreferenced W sp s) {x y : Nat}
    (hx : Kept W sp x) (hy : Kept W sp y) (hb : Before (names log) x y) : Before res.out x y := by
  have hseg : ∀ s ∈ segs, ∀ p ∈ s.2, p.2 = s.1 := by
    intro s hs p hp
    have hn := (F.segNeeds.needs s hs p hp).2
    have hpl : p ∈ log := by rw [F.segsOf, List.mem_flatMap]; exact ⟨s, hs, hp⟩
    have hpsp := (F.inv.core.own p hpl).1
    have hsr := (rootsG F.phase s.1).1 (by rw [← F.segRoots]; exact List.mem_map.2 ⟨s, hs, rfl⟩)
    have gen : ∀ x, Needs W s.1 x → x ∈ sp → x = s.1 := by
      intro x hx hxs
      cases hx with
      | refl => rfl
      | step h1 h2 => exact absurd h2 ((hro x hxs ⟨s.1, hsr, .step h1 h2⟩).2.2.1 s.1 hsr.1 _ h1)
    exact gen _ hn hpsp
  obtain ⟨P, hP⟩ := F.ownerOf hx
  obtain ⟨Q, hQ⟩ := F.ownerOf hy
  refine F.outBefore hP hQ ?_
  rcases list_before_total (F.inv.core.own _ hP).1 (F.inv.core.own _ hQ).1 with e | h1 | h1
  · exact .inl ⟨e, hb⟩
  · exact .inr h1
  · exfalso
    simp only [] at h1
    have hPl := hP
    have hQl := hQ
    rw [F.segsOf, List.mem_flatMap] at hPl hQl
    obtain ⟨s, hs, hPs⟩ := hPl
    obtain ⟨t, ht, hQt⟩ := hQl
    have eP := hseg s hs _ hPs
    have eQ := hseg t ht _ hQt
    simp only [] at eP eQ
    obtain ⟨s1, s2, es⟩ := List.append_of_mem hs
    have hrs : roots R = s1.map (·.1) ++ s.1 :: s2.map (·.1) := by rw [← F.segRoots, es]; simp
    rw [es, List.mem_append, List.mem_cons] at ht
    have hts1 : t ∈ s1 := by
      rcases ht with h | h | h
      · exact h
      · subst h; rw [eP, ← eQ] at h1; exact absurd h1 (fun h => h.asymm h)
      · have := F.rootsBefore hrs (List.mem_map.2 ⟨t, h, rfl⟩)
        rw [← eP, ← eQ] at this
        exact absurd h1 (fun h => this.asymm h)
    have hby : Before (names log) y x := by
      refine ⟨names (s1.flatMap (·.2)), names (s.2 ++ s2.flatMap (·.2)), ?_, ?_, ?_⟩
      · rw [F.segsOf, es, ← names_append]; simp
      · exact List.mem_map.2 ⟨_, List.mem_flatMap.2 ⟨t, hts1, hQt⟩, rfl⟩
      · intro hm
        have hnd := F.nodupLog
        have e : log = s1.flatMap (·.2) ++ (s.2 ++ s2.flatMap (·.2)) := by rw [F.segsOf, es]; simp
        rw [e, names_append, List.nodup_append] at hnd
        exact hnd.2.2 x hm x (List.mem_map.2 ⟨_, List.mem_append_left _ hPs, rfl⟩) rfl
    exact hb.asymm hby

end

/-- **C28** Ids lie in 1..255, and when two emitted actions have the same id, every reference to the earlier one is emitted before the
later one, so every id a reference is written with selects its target. This holds in every acyclic graph, with raw references or
without, if the emitted actions among the added ones are such that nothing refers to them, and the user sets no ids. -/
theorem live_ids_distinct (W : World) (limit : Nat) (sprites : List Nat) (res : Resolved) (hac : Acyclic W)
    (hro : ∀ s ∈ sprites, Kept W sprites s → Unreferenced W sprites s) (hauto : ∀ s ∈ sprites, ∀ a, Needs W s a → (W a).refId = none)
    (h : resolveRefs W limit sprites = some res) :
    (∀ a, Kept W sprites a → (W a).referenceable = true → ∃ i, res.refId a = some i ∧ 1 ≤ i ∧ i ≤ 255) ∧
    (∀ a b, Kept W sprites a → Kept W sprites b → (W a).referenceable = true → (W b).referenceable = true →
      res.refId a = res.refId b → Before res.out a b → ∀ c, Kept W sprites c → Refers W c a → Before res.out c b) := by
  obtain ⟨R, log, segs, D, F⟩ := finalG hac h
  have I := F.inv.ids (F.auto hauto)
  rw [F.ids]
  refine ⟨fun a ha hra => I.assigned a (F.seen ha) hra, ?_⟩
  intro a b ha hb hra hrb hid hab c hc hca
  have hne : a ≠ b := by rintro rfl; exact hab.asymm hab
  obtain ⟨i, hi, _⟩ := I.assigned a (F.seen ha) hra
  rcases I.pair a (F.seen ha) b (F.seen hb) hne i hi (hid ▸ hi) with h1 | h1
  · exact F.sameOrder hro hc hb (h1.2 c (F.key hc) hca)
  · exfalso
    obtain ⟨d, hd, hdb⟩ := h1.1
    have hda := h1.2 d hd hdb
    have hdl : d ∈ names log := by obtain ⟨l1, l2, e, hm, -⟩ := hda; rw [e]; simp [hm]
    obtain ⟨o, ho⟩ : ∃ o, (d, o) ∈ log := by
      obtain ⟨p, hp, e⟩ := List.mem_map.1 hdl
      exact ⟨p.2, by rw [← e]; exact hp⟩
    exact hab.asymm (F.sameOrder hro hb ha ((F.logBefore ho hdb).trans hda))

/-- The ids of the actions one action refers to are all different, whatever the user added and in whatever order, if he set no ids. -/
theorem targets_have_different_ids (W : World) (limit : Nat) (sprites : List Nat) (res : Resolved) (hac : Acyclic W)
    (hauto : ∀ s ∈ sprites, ∀ a, Needs W s a → (W a).refId = none) (h : resolveRefs W limit sprites = some res) (c a b : Nat)
    (hc : Kept W sprites c) (ha : Refers W c a) (hb : Refers W c b) (hid : res.refId a = res.refId b) : a = b := by
  obtain ⟨R, log, segs, D, F⟩ := finalG hac h
  have I := F.inv.ids (F.auto hauto)
  rw [F.ids] at hid
  by_cases hne : a = b
  · exact hne
  · exfalso
    have hak := kept_needs hc ha.needs
    have hbk := kept_needs hc hb.needs
    obtain ⟨o, ho⟩ := F.ownerOf hc
    obtain ⟨i, hi, _⟩ := I.assigned a (F.seen hak) ha.2.2
    rcases I.pair a (F.seen hak) b (F.seen hbk) hne i hi (hid ▸ hi) with h1 | h1
    · exact (h1.2 c (F.key hc) ha).asymm (F.logBefore ho hb)
    · exact (h1.2 c (F.key hc) hb).asymm (F.logBefore ho ha)

theorem pigeon {n : Nat} : ∀ {l : List Int}, l.Nodup → (∀ x ∈ l, 1 ≤ x ∧ x ≤ n) → l.length ≤ n := by
  induction n with
  | zero =>
    intro l _ h
    cases l with
    | nil => simp
    | cons x l => have := h x (by simp); omega
  | succ n ih =>
    intro l hnd h
    have h1 := ih (l := l.filter (· ≠ ((n : Int) + 1))) (hnd.filter _) (by
      intro x hx
      rw [List.mem_filter] at hx
      have := h x hx.1
      simp only [ne_eq, decide_not, Bool.not_eq_eq_eq_not, Bool.not_true, decide_eq_false_iff_not] at hx
      omega)
    have h2 : l.length = (l.filter (· ≠ ((n : Int) + 1))).length + l.count ((n : Int) + 1) := by
      clear h1 h hnd ih
      induction l with
      | nil => rfl
      | cons y l ih =>
        by_cases e : y = (n : Int) + 1
        · subst e; simp [ih]; omega
        · simp [e, ih]; omega
    have h3 := List.nodup_iff_count.1 hnd ((n : Int) + 1)
    omega

/-- **C28** Running out of ids is an error: an action which refers to more than 255 different actions without ids of their own is
refused. -/
theorem out_of_ids_refused (W : World) (limit : Nat) (sprites : List Nat) (hac : Acyclic W)
    (hauto : ∀ s ∈ sprites, ∀ a, Needs W s a → (W a).refId = none) (c : Nat) (hc : Kept W sprites c) (l : List Nat) (hl : l.Nodup)
    (hr : ∀ b ∈ l, Refers W c b) (hlen : 255 < l.length) : resolveRefs W limit sprites = none := by
  cases h : resolveRefs W limit sprites with
  | none => rfl
  | some res =>
    exfalso
    have hd := targets_have_different_ids W limit sprites res hac hauto h c
    have hrange : ∀ b ∈ l, ∃ i, res.refId b = some i ∧ 1 ≤ i ∧ i ≤ 255 := by
      obtain ⟨R, log, segs, D, F⟩ := finalG hac h
      intro b hb
      rw [F.ids]
      exact (F.inv.ids (F.auto hauto)).assigned b (F.seen (kept_needs hc (hr b hb).needs)) (hr b hb).2.2
    have hnd : (l.map fun b => (res.refId b).getD 0).Nodup := by
      rw [List.nodup_iff_pairwise_ne] at hl ⊢
      rw [List.pairwise_map]
      refine hl.imp_of_mem ?_
      intro a b ha hb hne he
      obtain ⟨i, hi, -⟩ := hrange a ha
      obtain ⟨j, hj, -⟩ := hrange b hb
      rw [hi, hj] at he
      simp only [Option.getD_some] at he
      exact hne (hd a b hc (hr a ha) (hr b hb) (by rw [hi, hj, he]))
    have := pigeon (n := 255) hnd (by
      intro x hx
      obtain ⟨b, hb, rfl⟩ := List.mem_map.1 hx
      obtain ⟨i, hi, h1, h2⟩ := hrange b hb
      rw [hi]
      exact ⟨h1, h2⟩)
    rw [List.length_map] at this
    omega

/-! ### The hypotheses are met -/

/-- Layouts 0, 1; switch 2 uses both; actions 3 and 4 use switch 2 and layout 1. Only 3 and 4 are added. -/
def w4 : List Act := [leafAct, leafAct, swAct [.obj 0, .obj 1], mapAct [.obj 2], mapAct [.obj 1, .obj 5], leafAct]

set_option maxRecDepth 100000 in
/-- Layout 5 gets the id switch 2 had: the only reference to switch 2 is in action 3, which comes before layout 5. -/
example : Acyclic (worldOf w4) ∧ (∀ s ∈ [3, 4], Kept (worldOf w4) [3, 4] s → Unreferenced (worldOf w4) [3, 4] s) ∧
    (∀ s ∈ [3, 4], ∀ a, Needs (worldOf w4) s a → (worldOf w4 a).refId = none) ∧
    (resolveRefs (worldOf w4) 100 [3, 4]).map (fun r => (r.out, [0, 1, 2, 5].map r.refId)) =
      some ([0, 1, 2, 3, 5, 4], [some 254, some 253, some 255, some 255]) := by
  have hd : ∀ a b, Refers (worldOf w4) a b → b ≠ 3 ∧ b ≠ 4 ∧ (b < a ∨ (a = 4 ∧ b = 5)) := by
    intro a b h
    obtain ⟨h1, h2⟩ := refers_lt h
    have : ∀ a < 6, ∀ b < 6, Refers (worldOf w4) a b → (b != 3 && b != 4 && (decide (b < a) || (a == 4 && b == 5))) = true := by decide
    have := this a h1 b h2 h
    simp at this
    omega
  have h5 : ∀ b, ¬ Refers (worldOf w4) 5 b := by
    intro b h
    exact absurd h.1 (by decide)
  have hn : ∀ a, (worldOf w4 a).refId = none := by
    intro a
    by_cases ha : a < 6
    · have : ∀ a < 6, (worldOf w4 a).refId = none := by decide
      exact this a ha
    · have e : worldOf w4 a = {} := by simp [worldOf, w4, List.getD, List.getElem?_eq_none (show [leafAct, leafAct,
        swAct [.obj 0, .obj 1], mapAct [.obj 2], mapAct [.obj 1, .obj 5], leafAct].length ≤ a by simp; omega)]
      rw [e]
  refine ⟨?_, ?_, fun s _ a _ => hn a, by rfl⟩
  · have hnd : ∀ a b, Needs (worldOf w4) a b → b = a ∨ (b < a ∧ a ≠ 5) ∨ (a = 4 ∧ b = 5) := by
      intro a b h
      induction h with
      | refl => exact .inl rfl
      | @step b c _ h1 ih =>
        have := hd _ _ h1
        have : b ≠ 5 := by rintro rfl; exact h5 _ h1
        omega
    intro a b h1 h2
    have e1 := hd _ _ h1
    have e2 := hnd _ _ h2
    have : a ≠ 5 := by rintro rfl; exact h5 _ h1
    omega
  · intro s hs hk
    refine ⟨hs, ?_, ?_, ?_⟩
    · simp only [List.mem_cons, List.not_mem_nil, or_false] at hs
      rcases hs with rfl | rfl <;> exact .inl rfl
    · intro t _ c _ h
      have := hd _ _ h
      simp only [List.mem_cons, List.not_mem_nil, or_false] at hs
      omega
    · rintro ⟨e, t, l, c, rid, _, _, _, hm, _⟩
      have : ∀ c, RefArg.ref false rid ∉ (worldOf w4 c).refs := by
        intro c
        by_cases hc : c < 6
        · have : c = 0 ∨ c = 1 ∨ c = 2 ∨ c = 3 ∨ c = 4 ∨ c = 5 := by omega
          rcases this with rfl | rfl | rfl | rfl | rfl | rfl <;> simp [worldOf, w4, leafAct, swAct, mapAct]
        · have e : worldOf w4 c = {} := by simp [worldOf, w4, List.getD, List.getElem?_eq_none (show [leafAct, leafAct,
            swAct [.obj 0, .obj 1], mapAct [.obj 2], mapAct [.obj 1, .obj 5], leafAct].length ≤ c by simp; omega)]
          rw [e]; simp
      exact this c hm

end Grf
