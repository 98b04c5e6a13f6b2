import Verif.Props.Tables
/-!
# C38 for every sequence of additions, also with repeated labels
-/
namespace Grf.Tables

/-- The labels railtypes are added under (an empty list of labels raises). -/
def heads (adds : List (List Label)) : List Label := adds.filterMap List.head?

theorem eraseDups_snoc (l : List Label) (x : Label) : (l ++ [x]).eraseDups = if x ∈ l then l.eraseDups else l.eraseDups ++ [x] := by
  rw [List.eraseDups_append]
  have : [x].removeAll l = if x ∈ l then [] else [x] := by
    unfold List.removeAll
    by_cases h : x ∈ l <;> simp [h]
  rw [this]
  by_cases h : x ∈ l
  · rw [if_pos h, if_pos h]; simp
  · rw [if_neg h, if_neg h]; rfl

/-- A list is without repetitions exactly when removing repetitions does not shorten it. -/
theorem eraseDups_length_iff (l : List Label) : l.eraseDups.length ≤ l.length ∧ (l.eraseDups.length = l.length ↔ l.Nodup) := by
  induction h : l.reverse generalizing l with
  | nil =>
    have : l = [] := by simpa using h
    subst this; simp
  | cons x r ih =>
    have : l = r.reverse ++ [x] := by have := congrArg List.reverse h; simpa using this
    subst this
    obtain ⟨h1, h2⟩ := ih r.reverse (by simp)
    rw [eraseDups_snoc, List.nodup_append]
    by_cases hx : x ∈ r.reverse
    · rw [if_pos hx, List.length_append, List.length_singleton]
      refine ⟨by omega, ⟨fun e => by omega, fun e => absurd rfl (e.2.2 x hx x (by simp))⟩⟩
    · rw [if_neg hx, List.length_append, List.length_append, List.length_singleton]
      refine ⟨by omega, ?_⟩
      rw [Nat.add_right_cancel_iff, h2]
      simp only [List.mem_singleton, List.nodup_cons, List.not_mem_nil, not_false_eq_true, List.nodup_nil, and_self, true_and]
      constructor
      · intro h; exact ⟨h, by rintro a ha b rfl e; exact hx (e ▸ ha)⟩
      · exact fun h => h.1

/-! ## railtypes -/

theorem railAdds_snoc (adds : List (List Label)) (l : Label) (fb : List Label) (t : RtTable) :
    railAdds t (adds ++ [l :: fb]) = dictSet (railAdds t adds) l ((railAdds t adds).length, l :: fb) := by
  rw [railAdds_append]; rfl

/-- **C38** The table written has each label once, in the order in which they were first added. -/
theorem written_railtypes (adds : List (List Label)) : writtenRailtypes (railAdds [] adds) = (heads adds).eraseDups := by
  induction h : adds.reverse generalizing adds with
  | nil =>
    have : adds = [] := by simpa using h
    subst this; rfl
  | cons x r ih =>
    have : adds = r.reverse ++ [x] := by have := congrArg List.reverse h; simpa using this
    subst this
    have ih := ih r.reverse (by simp)
    cases x with
    | nil =>
      rw [railAdds_append]
      have e : railAdds (railAdds [] r.reverse) [[]] = railAdds [] r.reverse := rfl
      have e2 : heads (r.reverse ++ [[]]) = heads r.reverse := by
        unfold heads; rw [List.filterMap_append]; exact List.append_nil _
      rw [e, ih, e2]
    | cons l fb =>
      rw [railAdds_snoc]
      have e1 : heads (r.reverse ++ [l :: fb]) = heads r.reverse ++ [l] := by simp [heads]
      rw [e1, eraseDups_snoc, ← ih]
      unfold writtenRailtypes
      rw [keys_dictSet]
      have : l ∈ (railAdds [] r.reverse).map (·.1) ↔ l ∈ heads r.reverse := by
        have := List.mem_eraseDups (a := l) (l := heads r.reverse)
        rw [← ih] at this
        exact this
      by_cases hl : l ∈ heads r.reverse
      · rw [if_pos hl, if_pos (this.2 hl)]
      · rw [if_neg hl, if_neg (fun h => hl (this.1 h))]

/-- **C38** Adding a railtype returns the number of different labels added before, and from then on its label has that id until the
label is added again. -/
theorem railtype_id_exact (before after : List (List Label)) (l : Label) (fb : List Label) (ha : l ∉ heads after) :
    (∃ t, addRailtype (railAdds [] before) (l :: fb) = some (t, (heads before).eraseDups.length)) ∧
    getRailtypeId (railAdds [] (before ++ (l :: fb) :: after)) l = some (heads before).eraseDups.length := by
  have hlen : (railAdds [] before).length = (heads before).eraseDups.length := by
    rw [← written_railtypes, writtenRailtypes, List.length_map]
  refine ⟨⟨_, by rw [← hlen]; rfl⟩, ?_⟩
  rw [railAdds_append, railAdds_cons]
  have keep : ∀ (after : List (List Label)) (t : RtTable), l ∉ heads after → (railAdds t after).lookup l = t.lookup l := by
    intro after
    induction after with
    | nil => intro t _; rfl
    | cons a after ih =>
      intro t h
      cases a with
      | nil => exact ih t h
      | cons k fb =>
        simp only [heads, List.filterMap_cons_some (List.head?_cons), List.mem_cons, not_or] at h
        rw [railAdds_cons, ih _ h.2, lookup_dictSet, if_neg h.1]
  rw [getRailtypeId, keep after _ ha, lookup_dictSet, if_pos rfl, hlen]
  rfl

/-- **C38** Every label's id is its position in the table written to the GRF exactly when no label is added twice. -/
theorem railtype_positions_iff (adds : List (List Label)) :
    (∀ l i, getRailtypeId (railAdds [] adds) l = some i → (writtenRailtypes (railAdds [] adds))[i]? = some l) ↔ (heads adds).Nodup := by
  constructor
  · intro h
    apply Classical.byContradiction
    intro hn
    -- the last addition of a repeated label
    have key : ∀ (suf pre : List (List Label)), adds = pre ++ suf → (heads pre).Nodup → ¬ (heads (pre ++ suf)).Nodup →
        ∃ a l fb b, adds = a ++ (l :: fb) :: b ∧ l ∈ heads a := by
      intro suf
      induction suf with
      | nil => intro pre _ h1 h2; simp only [List.append_nil] at h2; exact absurd h1 h2
      | cons x suf ih =>
        intro pre e h1 h2
        cases x with
        | nil =>
          have e2 : heads (pre ++ [[]]) = heads pre := by
            unfold heads; rw [List.filterMap_append]; exact List.append_nil _
          exact ih (pre ++ [[]]) (by simp [e]) (by rw [e2]; exact h1) (by simpa using h2)
        | cons l fb =>
          by_cases hl : l ∈ heads pre
          · exact ⟨pre, l, fb, suf, e, hl⟩
          · refine ih (pre ++ [l :: fb]) (by simp [e]) ?_ (by simpa using h2)
            have : heads (pre ++ [l :: fb]) = heads pre ++ [l] := by simp [heads]
            rw [this, List.nodup_append]
            refine ⟨h1, by simp, ?_⟩
            rintro a ha b hb rfl
            simp only [List.mem_singleton] at hb
            subst hb; exact hl ha
    obtain ⟨a, l, fb, b, e, hl⟩ := key adds [] rfl (by simp [heads]) (by simpa using hn)
    -- move to the last addition of `l`
    have last : ∀ (b a : List (List Label)) (fb : List Label), l ∈ heads a → adds = a ++ (l :: fb) :: b →
        ∃ a' fb' b', adds = a' ++ (l :: fb') :: b' ∧ l ∈ heads a' ∧ l ∉ heads b' := by
      intro b
      induction h : b.length using Nat.strongRecOn generalizing b with
      | _ n ih =>
        intro a fb hl e
        by_cases hb : l ∈ heads b
        · unfold heads at hb
          rw [List.mem_filterMap] at hb
          obtain ⟨x, hx, hxl⟩ := hb
          obtain ⟨b1, b2, rfl⟩ := List.append_of_mem hx
          cases x with
          | nil => simp at hxl
          | cons y fb' =>
            simp only [List.head?_cons, Option.some.injEq] at hxl
            subst hxl
            exact ih b2.length (by simp at h; omega) b2 rfl (a ++ (y :: fb) :: b1) fb' (by simp [heads]) (by rw [e]; simp)
        · exact ⟨a, fb, b, e, hl, hb⟩
    obtain ⟨a, fb, b, e, hl, hb⟩ := last b a fb hl e
    have hid := (railtype_id_exact a b l fb hb).2
    rw [← e] at hid
    have hpos := h l _ hid
    rw [written_railtypes] at hpos
    -- `l` already is in the first part of the table
    have e2 : heads adds = heads a ++ (l :: heads b) := by rw [e]; simp [heads]
    rw [e2, List.eraseDups_append] at hpos
    have e3 : (l :: heads b).removeAll (heads a) = (heads b).removeAll (heads a) := by
      unfold List.removeAll; simp [hl]
    rw [e3, List.getElem?_append_right (Nat.le_refl _), Nat.sub_self] at hpos
    have hm := List.mem_of_getElem? hpos
    rw [List.mem_eraseDups] at hm
    exact hb (by unfold List.removeAll at hm; exact (List.mem_filter.1 hm).1)
  · intro hn l i hi
    have hk := (railtype_known_iff adds l).1 ⟨i, hi⟩
    obtain ⟨x, hx, hxl⟩ := hk
    obtain ⟨a, b, rfl⟩ := List.append_of_mem hx
    cases x with
    | nil => simp at hxl
    | cons y fb =>
      simp only [List.head?_cons, Option.some.injEq] at hxl
      subst hxl
      have e2 : heads (a ++ (y :: fb) :: b) = heads a ++ (y :: heads b) := by simp [heads]
      rw [e2, List.nodup_append] at hn
      have hnb : y ∉ heads b := (List.nodup_cons.1 hn.2.1).1
      have hna : y ∉ heads a := fun h => hn.2.2 y h y (by simp) rfl
      have := (railtype_id_exact a b y fb hnb).2
      rw [this] at hi
      simp only [Option.some.injEq] at hi
      subst hi
      rw [written_railtypes, e2, List.eraseDups_append, List.getElem?_append_right (Nat.le_refl _), Nat.sub_self]
      have e3 : (y :: heads b).removeAll (heads a) = y :: (heads b).removeAll (heads a) := by
        unfold List.removeAll; simp [hna]
      rw [e3, List.eraseDups_cons]
      rfl

/-! ## cargos -/

theorem cargoDict_snoc (cs : List Label) : ∀ (c : Label) (i : Nat) (d : List (Label × Nat)),
    cargoDict i d (cs ++ [c]) = dictSet (cargoDict i d cs) c (i + cs.length) := by
  induction cs with
  | nil => intro c i d; simp [cargoDict]
  | cons x cs ih =>
    intro c i d
    simp only [List.cons_append, cargoDict, ih, List.length_cons]
    congr 1; omega

/-- **C38** For every list of labels given: the table written to the GRF has each label once, in order of first occurrence; the returned ids are the
positions in the given list; a label's id is its last position in the given list (labels not in it have none). -/
theorem cargo_ids_exact (cs : List Label) :
    writtenCargos (setCargoTable cs).1 = cs.eraseDups ∧ (setCargoTable cs).2 = List.range cs.length ∧
    ∀ c i, getCargoId (setCargoTable cs).1 c = some i ↔ cs[i]? = some c ∧ c ∉ cs.drop (i + 1) := by
  refine ⟨?_, rfl, ?_⟩
  · induction h : cs.reverse generalizing cs with
    | nil =>
      have : cs = [] := by simpa using h
      subst this; rfl
    | cons x r ih =>
      have : cs = r.reverse ++ [x] := by have := congrArg List.reverse h; simpa using this
      subst this
      have ih := ih r.reverse (by simp)
      unfold writtenCargos setCargoTable at ih ⊢
      rw [cargoDict_snoc, keys_dictSet, eraseDups_snoc, ih]
      simp only [List.mem_eraseDups]
  · intro c i
    induction h : cs.reverse generalizing cs with
    | nil =>
      have : cs = [] := by simpa using h
      subst this; simp [setCargoTable, cargoDict, getCargoId]
    | cons x r ih =>
      have : cs = r.reverse ++ [x] := by have := congrArg List.reverse h; simpa using this
      subst this
      have ih := ih r.reverse (by simp)
      unfold getCargoId setCargoTable at ih ⊢
      simp only at ih ⊢
      rw [cargoDict_snoc, lookup_dictSet]
      generalize r.reverse = l at *
      simp only [Nat.zero_add]
      by_cases hcx : c = x
      · subst hcx
        rw [if_pos rfl]
        constructor
        · intro h
          simp only [Option.some.injEq] at h
          subst h
          exact ⟨by simp, by simp⟩
        · rintro ⟨h1, h2⟩
          have hi : i < (l ++ [c]).length := (List.getElem?_eq_some_iff.1 h1).1
          simp only [List.length_append, List.length_singleton] at hi
          rw [List.drop_append, List.mem_append, not_or] at h2
          by_cases hl : i = l.length
          · rw [hl]
          · have : i + 1 - l.length = 0 := by omega
            rw [this] at h2
            simp at h2
      · rw [if_neg hcx, ih]
        constructor
        · rintro ⟨h1, h2⟩
          have hi : i < l.length := (List.getElem?_eq_some_iff.1 h1).1
          refine ⟨by rw [List.getElem?_append_left hi]; exact h1, ?_⟩
          rw [List.drop_append, List.mem_append, not_or]
          refine ⟨h2, ?_⟩
          intro hm
          have := List.mem_of_mem_drop hm
          simp only [List.mem_singleton] at this
          exact hcx this
        · rintro ⟨h1, h2⟩
          by_cases hi : i < l.length
          · rw [List.getElem?_append_left hi] at h1
            rw [List.drop_append, List.mem_append, not_or] at h2
            exact ⟨h1, h2.1⟩
          · rw [List.getElem?_append_right (by omega)] at h1
            have := List.mem_of_getElem? h1
            simp only [List.mem_singleton] at this
            exact absurd this hcx

/-- **C38** Every label's id is its position in the table written to the GRF exactly when no label is given twice. -/
theorem cargo_positions_iff (cs : List Label) :
    (∀ c i, getCargoId (setCargoTable cs).1 c = some i → (writtenCargos (setCargoTable cs).1)[i]? = some c) ↔ cs.Nodup := by
  obtain ⟨h1, _, h3⟩ := cargo_ids_exact cs
  rw [h1]
  constructor
  · intro h
    rw [← (eraseDups_length_iff cs).2]
    have hle := (eraseDups_length_iff cs).1
    apply Classical.byContradiction
    intro hne
    have hlt : cs.eraseDups.length < cs.length := by omega
    have hlast : cs[cs.length - 1]? = some (cs[cs.length - 1]'(by omega)) := List.getElem?_eq_getElem _
    have := h _ (cs.length - 1) ((h3 _ _).2 ⟨hlast, by
      have : cs.drop (cs.length - 1 + 1) = [] := by rw [List.drop_eq_nil_iff]; omega
      rw [this]; simp⟩)
    have := (List.getElem?_eq_some_iff.1 this).1
    omega
  · intro hn c i hi
    obtain ⟨p1, p2, p3⟩ := cargo_id_is_position_partial cs hn
    rw [← h1, p1]
    exact (p3 c i).1 hi

/-! ### Concrete cases -/

example : heads [[R, E], [], [M], [R]] = [R, M, R] ∧ ¬ (heads [[R, E], [], [M], [R]]).Nodup ∧
    getRailtypeId (railAdds [] [[R, E], [], [M], [R]]) R = some 2 ∧
    writtenRailtypes (railAdds [] [[R, E], [], [M], [R]]) = [R, M] := by decide +kernel

example : getCargoId (setCargoTable [R, E, R]).1 R = some 2 ∧ writtenCargos (setCargoTable [R, E, R]).1 = [R, E] ∧
    getCargoId (setCargoTable [R, E, M]).1 E = some 1 := by decide +kernel

end Grf.Tables
