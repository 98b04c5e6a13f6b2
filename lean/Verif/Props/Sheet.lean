import Verif.Model.Sheet
/-!
# C47: extracted sprite sheets do not overlap
-/
namespace Grf.Sheet

/-- The rectangle of a cell with its outline, two pixels wide on each side: `x` from `left` to before `right`, `y` from `top` to before
`bottom`. -/
structure Rect where
  left : Int
  right : Int
  top : Int
  bottom : Int

/-- The place of a sprite with its outline. -/
def outlined (c : Cell) (s : Spr) : Rect := ⟨(c.x : Int) - 2, c.x + s.width + 2, (c.y : Int) - 2, c.y + s.height + 2⟩

/-- Two rectangles have no pixel in common. -/
def Rect.disjoint (a b : Rect) : Prop := ∀ x y : Int,
  ¬ ((a.left ≤ x ∧ x < a.right ∧ a.top ≤ y ∧ y < a.bottom) ∧ (b.left ≤ x ∧ x < b.right ∧ b.top ≤ y ∧ y < b.bottom))

/-! ### Lemmas -/

/-- `xofs` at sprite `i`. -/
def xAt (ss : List Spr) : Nat → Nat
  | 0 => padding
  | i + 1 =>
    if (i + 1) % perLine = 0 then padding
    else match ss[i]? with
      | some s => if s.skipped then xAt ss i else xAt ss i + s.width + 2 * padding
      | none => xAt ss i

theorem foldl_max (l : List Nat) : ∀ a, a ≤ l.foldl max a ∧ ∀ x ∈ l, x ≤ l.foldl max a := by
  induction l with
  | nil => intro a; simp
  | cons y l ih =>
    intro a
    obtain ⟨h1, h2⟩ := ih (max a y)
    simp only [List.foldl_cons, List.mem_cons, forall_eq_or_imp]
    exact ⟨by omega, by omega, h2⟩

theorem lineOfs_succ (ss : List Spr) (k : Nat) : lineOfs ss (k + 1) = lineOfs ss k + lineHeight ss k := by
  unfold lineOfs
  rw [List.range_succ, List.map_append, List.sum_append]
  simp

theorem lineOfs_mono (ss : List Spr) {a b : Nat} (h : a ≤ b) : lineOfs ss a ≤ lineOfs ss b := by
  induction b with
  | zero => have : a = 0 := by omega
            rw [this]; exact Nat.le_refl _
  | succ b ih =>
    by_cases e : a = b + 1
    · rw [e]; exact Nat.le_refl _
    · rw [lineOfs_succ]; have := ih (by omega); omega

theorem mem_line (ss : List Spr) (i : Nat) (s : Spr) (h : ss[i]? = some s) : s ∈ line ss (i / perLine) := by
  unfold line
  rw [List.mem_iff_getElem?]
  refine ⟨i % perLine, ?_⟩
  have hm : i % perLine < perLine := Nat.mod_lt _ (by decide)
  rw [List.getElem?_take, if_pos hm, List.getElem?_drop, Nat.mul_comm, Nat.div_add_mod, h]

theorem height_line (ss : List Spr) (i : Nat) (s : Spr) (h : ss[i]? = some s) : s.height + 2 * padding ≤ lineHeight ss (i / perLine) := by
  unfold lineHeight
  have := (foldl_max ((line ss (i / perLine)).map (·.height)) 0).2 s.height (List.mem_map_of_mem (mem_line ss i s h))
  unfold padding at *
  omega

theorem place_spec (ss : List Spr) : ∀ (rest : List Spr) (i x : Nat), ss.drop i = rest → (i % perLine ≠ 0 → x = xAt ss i) →
    place ss i x rest = (((List.range rest.length).map (i + ·)).filter (fun k => !((ss[k]?.getD ⟨0, 0, 0⟩).skipped))).map
      (fun k => ⟨k, xAt ss k, padding + lineOfs ss (k / perLine)⟩) := by
  intro rest
  induction rest with
  | nil => intro i x _ _; rfl
  | cons s rest ih =>
    intro i x hd hx
    have hs : ss[i]? = some s := by
      have : (ss.drop i)[0]? = some s := by rw [hd]; rfl
      rwa [List.getElem?_drop, Nat.add_zero] at this
    have hd' : ss.drop (i + 1) = rest := by
      have : (ss.drop i).drop 1 = rest := by rw [hd]; rfl
      rwa [List.drop_drop] at this
    have hxi : (if i % perLine = 0 then padding else x) = xAt ss i := by
      split
      · next h =>
        cases i with
        | zero => rfl
        | succ i => simp only [xAt]; rw [if_pos h]
      · next h => exact hx h
    have hr : (List.range (rest.length + 1)).map (i + ·) = i :: (List.range rest.length).map (i + 1 + ·) := by
      rw [List.range_succ_eq_map, List.map_cons, List.map_map, Nat.add_zero]
      congr 1
      apply List.map_congr_left
      intro a _
      simp only [Function.comp]
      omega
    simp only [place, hxi, List.length_cons, hr, List.filter_cons, hs, Option.getD_some]
    cases hsk : s.skipped with
    | true =>
      simp only [Bool.not_true, Bool.false_eq_true, if_false, if_true]
      apply ih (i + 1) _ hd'
      intro hm
      simp only [xAt]
      rw [if_neg hm, hs]
      simp [hsk]
    | false =>
      simp only [Bool.not_false, Bool.false_eq_true, if_false, if_true, List.map_cons]
      congr 1
      apply ih (i + 1) _ hd'
      intro hm
      simp only [xAt]
      rw [if_neg hm, hs]
      simp [hsk]

theorem cells_eq (ss : List Spr) : cells ss = ((List.range ss.length).filter (fun k => !((ss[k]?.getD ⟨0, 0, 0⟩).skipped))).map
      (fun k => ⟨k, xAt ss k, padding + lineOfs ss (k / perLine)⟩) := by
  unfold cells
  rw [place_spec ss ss 0 0 rfl (fun h => absurd rfl h)]
  congr 2
  simp

theorem xAt_ge (ss : List Spr) (i : Nat) : padding ≤ xAt ss i := by
  induction i with
  | zero => exact Nat.le_refl _
  | succ i ih =>
    simp only [xAt]
    split
    · exact Nat.le_refl _
    · split
      · split <;> omega
      · exact ih

theorem xAt_step (ss : List Spr) (i j : Nat) (hij : i < j) (hl : i / perLine = j / perLine) (s : Spr) (hs : ss[i]? = some s) (hk : s.skipped = false) :
    xAt ss i + s.width + 2 * padding ≤ xAt ss j := by
  induction j with
  | zero => omega
  | succ j ih =>
    have hm : (j + 1) % perLine ≠ 0 := by unfold perLine at *; omega
    simp only [xAt]
    rw [if_neg hm]
    by_cases e : i = j
    · subst e
      rw [hs]
      simp [hk]
    · have := ih (by omega) (by unfold perLine at *; omega)
      cases ss[j]? with
      | none => simpa using this
      | some t => simp only; split <;> omega

theorem xAt_le (ss : List Spr) (i : Nat) : xAt ss i ≤ padding + (((ss.drop (i / perLine * perLine)).take (i % perLine)).map (·.width)).sum + 2 * padding * (i % perLine) := by
  induction i with
  | zero => simp [xAt]
  | succ i ih =>
    simp only [xAt]
    split
    · omega
    · next hm =>
      have e1 : (i + 1) / perLine = i / perLine := by unfold perLine at *; omega
      have e2 : (i + 1) % perLine = i % perLine + 1 := by unfold perLine at *; omega
      have e3 : i / perLine * perLine + i % perLine = i := by unfold perLine; omega
      rw [e1, e2, List.take_add_one, List.map_append, List.sum_append, List.getElem?_drop, e3]
      cases ss[i]? with
      | none => simp only [Option.toList_none, List.map_nil, List.sum_nil]; unfold padding perLine at *; omega
      | some s =>
        simp only [Option.toList_some, List.map_cons, List.map_nil, List.sum_cons, List.sum_nil]
        split <;> unfold padding perLine at * <;> omega

theorem sum_take_le (l : List Nat) (a b : Nat) (h : a ≤ b) : (l.take a).sum ≤ (l.take b).sum := by
  induction l generalizing a b with
  | nil => simp
  | cons x l ih =>
    cases a with
    | zero => simp
    | succ a =>
      cases b with
      | zero => omega
      | succ b => simp only [List.take_succ_cons, List.sum_cons]; have := ih a b (by omega); omega

theorem x_inside (ss : List Spr) (i : Nat) (s : Spr) (hs : ss[i]? = some s) : xAt ss i + s.width + 5 ≤ lineWidth ss (i / perLine) := by
  have h1 := xAt_le ss i
  have hm : i % perLine < perLine := Nat.mod_lt _ (by decide)
  have e3 : i / perLine * perLine + i % perLine = i := by unfold perLine; omega
  have h2 : ((((ss.drop (i / perLine * perLine)).take (i % perLine + 1)).map (·.width)).sum) =
      ((((ss.drop (i / perLine * perLine)).take (i % perLine)).map (·.width)).sum) + s.width := by
    rw [List.take_add_one, List.map_append, List.sum_append, List.getElem?_drop, e3, hs]
    simp
  have h3 := sum_take_le ((ss.drop (i / perLine * perLine)).map (·.width)) (i % perLine + 1) perLine (by omega)
  rw [← List.map_take, ← List.map_take] at h3
  unfold lineWidth line
  unfold padding perLine at *
  omega

/-! ### The claims -/

/-- A sprite which is extracted: one with colours (bit 0 of its type) or without transparency (bit 1). -/
def Extracted (ss : List Spr) (k : Nat) : Prop := ∃ s, ss[k]? = some s ∧ (s.type.testBit 0 = true ∨ s.type.testBit 1 = false)

theorem skipped_iff (s : Spr) : s.skipped = false ↔ s.type.testBit 0 = true ∨ s.type.testBit 1 = false := by
  unfold Spr.skipped
  rw [beq_eq_false_iff_ne, Nat.testBit_eq_decide_div_mod_eq, Nat.testBit_eq_decide_div_mod_eq, decide_eq_true_iff, decide_eq_false_iff_not]
  omega

theorem cell_indices (ss : List Spr) :
    (cells ss).map (·.index) = (List.range ss.length).filter (fun k => !((ss[k]?.getD ⟨0, 0, 0⟩).skipped)) := by
  rw [cells_eq, List.map_map]
  simp [Function.comp_def]

/-- Every sprite that is extracted has one cell, no other has, and the cells are in the order of the sprites. -/
theorem every_sprite_has_cell (ss : List Spr) :
    ((cells ss).map (·.index)).Pairwise (· < ·) ∧ ∀ k, k ∈ (cells ss).map (·.index) ↔ Extracted ss k := by
  rw [cell_indices]
  refine ⟨List.Pairwise.sublist List.filter_sublist List.pairwise_lt_range, fun k => ?_⟩
  rw [List.mem_filter, List.mem_range]
  unfold Extracted
  constructor
  · rintro ⟨hk, h⟩
    refine ⟨ss[k], List.getElem?_eq_getElem hk, (skipped_iff _).1 ?_⟩
    rw [List.getElem?_eq_getElem hk] at h
    simpa using h
  · rintro ⟨s, hs, h⟩
    refine ⟨(List.getElem?_eq_some_iff.1 hs).1, ?_⟩
    rw [hs]
    simp [(skipped_iff s).2 h]

theorem mem_cells (ss : List Spr) (c : Cell) (h : c ∈ cells ss) : ∃ s, ss[c.index]? = some s ∧ s.skipped = false ∧ c.x = xAt ss c.index ∧
    c.y = padding + lineOfs ss (c.index / perLine) := by
  rw [cells_eq, List.mem_map] at h
  obtain ⟨k, hk, rfl⟩ := h
  rw [List.mem_filter, List.mem_range] at hk
  refine ⟨ss[k], List.getElem?_eq_getElem hk.1, ?_, rfl, rfl⟩
  have := hk.2
  rw [List.getElem?_eq_getElem hk.1] at this
  simpa using this

/-- Every cell, with its outline, is inside the sheet. -/
theorem cells_inside (ss : List Spr) (c : Cell) (h : c ∈ cells ss) (s : Spr) (hs : ss[c.index]? = some s) :
    0 ≤ (outlined c s).left ∧ (outlined c s).right ≤ sheetWidth ss ∧ 0 ≤ (outlined c s).top ∧ (outlined c s).bottom ≤ sheetHeight ss := by
  obtain ⟨s', hs', _, hx, hy⟩ := mem_cells ss c h
  rw [hs] at hs'
  cases hs'
  have hlt : c.index < ss.length := (List.getElem?_eq_some_iff.mp hs).1
  have hl : c.index / perLine < lineCount ss := by unfold lineCount perLine at *; omega
  have g1 := xAt_ge ss c.index
  have g2 := x_inside ss c.index s hs
  have g3 := (foldl_max ((List.range (lineCount ss)).map (lineWidth ss)) 0).2 (lineWidth ss (c.index / perLine))
    (List.mem_map_of_mem (List.mem_range.mpr hl))
  have g4 := height_line ss c.index s hs
  have g5 := lineOfs_mono ss (show c.index / perLine + 1 ≤ lineCount ss by omega)
  rw [lineOfs_succ] at g5
  unfold outlined sheetWidth sheetHeight
  unfold padding at *
  simp only
  refine ⟨by omega, by omega, by omega, by omega⟩

/-- The cells of two sprites, with their outlines, have no pixel in common. -/
theorem cells_disjoint (ss : List Spr) (c d : Cell) (hc : c ∈ cells ss) (hd : d ∈ cells ss) (hne : c.index ≠ d.index) (s t : Spr)
    (hs : ss[c.index]? = some s) (ht : ss[d.index]? = some t) : (outlined c s).disjoint (outlined d t) := by
  have main : ∀ (c d : Cell), c ∈ cells ss → d ∈ cells ss → c.index < d.index → ∀ s t : Spr, ss[c.index]? = some s → ss[d.index]? = some t →
      (outlined c s).disjoint (outlined d t) := by
    intro c d hc hd hlt s t hs ht x y
    obtain ⟨s', hs', hk, hx, hy⟩ := mem_cells ss c hc
    rw [hs] at hs'
    cases hs'
    obtain ⟨_, _, _, hx', hy'⟩ := mem_cells ss d hd
    unfold outlined
    simp only
    by_cases hl : c.index / perLine = d.index / perLine
    · have := xAt_step ss c.index d.index hlt hl s hs hk
      unfold padding at *
      omega
    · have hl' : c.index / perLine + 1 ≤ d.index / perLine := by
        have : c.index / perLine ≤ d.index / perLine := Nat.div_le_div_right (by omega)
        omega
      have g4 := height_line ss c.index s hs
      have g5 := lineOfs_mono ss hl'
      rw [lineOfs_succ] at g5
      unfold padding at *
      omega
  rcases Nat.lt_or_gt_of_ne hne with h | h
  · exact main c d hc hd h s t hs ht
  · have := main d c hd hc h t s ht hs
    intro x y ⟨h1, h2⟩
    exact this x y ⟨h2, h1⟩

theorem cells_nodup (ss : List Spr) : ((cells ss).map (·.index)).Nodup := by
  rw [cell_indices]
  exact List.Pairwise.sublist List.filter_sublist List.nodup_range

/-- What is painted for other sprites does not touch a cell. -/
theorem paintAll_other {α : Type} (ss : List Spr) (drawn : Nat → Bool) (pic : Nat → Nat → Nat → α) (outline : Nat → Option α) (x y : Nat) :
    ∀ (cs : List Cell) (canvas : Nat → Nat → α),
      (∀ c ∈ cs, ¬ ((outlined c (ss[c.index]?.getD ⟨0, 0, 0⟩)).left ≤ x ∧ (x : Int) < (outlined c (ss[c.index]?.getD ⟨0, 0, 0⟩)).right ∧
        (outlined c (ss[c.index]?.getD ⟨0, 0, 0⟩)).top ≤ y ∧ (y : Int) < (outlined c (ss[c.index]?.getD ⟨0, 0, 0⟩)).bottom)) →
      (∀ c ∈ cs, 2 ≤ c.x ∧ 2 ≤ c.y) →
      paintAll ss drawn pic outline canvas cs x y = canvas x y := by
  intro cs
  induction cs with
  | nil => intro canvas _ _; rfl
  | cons c cs ih =>
    intro canvas h h2
    simp only [paintAll]
    rw [ih _ (fun c' hc' => h c' (List.mem_cons_of_mem _ hc')) (fun c' hc' => h2 c' (List.mem_cons_of_mem _ hc'))]
    split
    · have h0 := h c List.mem_cons_self
      obtain ⟨h3, h4⟩ := h2 c List.mem_cons_self
      generalize ss[c.index]?.getD ⟨0, 0, 0⟩ = s at h0 ⊢
      unfold outlined at h0
      simp only at h0
      unfold paint
      rw [if_neg (by omega)]
      cases outline c.index with
      | none => rfl
      | some col => simp only; rw [if_neg (by omega)]
    · rfl

/-- The finished sheet has, in the cell of every sprite drawn on it, exactly the pixels of the sprite, whatever is drawn for the others. -/
theorem sheet_has_sprites {α : Type} (ss : List Spr) (blank : α) (drawn : Nat → Bool) (pic : Nat → Nat → Nat → α) (outline : Nat → Option α)
    (c : Cell) (hc : c ∈ cells ss) (s : Spr) (hs : ss[c.index]? = some s) (hd : drawn c.index = true) (a b : Nat) (ha : a < s.width) (hb : b < s.height) :
    sheet ss blank drawn pic outline (c.x + a) (c.y + b) = pic c.index a b := by
  have hpos : ∀ c ∈ cells ss, 2 ≤ c.x ∧ 2 ≤ c.y := by
    intro c hc
    obtain ⟨_, _, _, hx, hy⟩ := mem_cells ss c hc
    have := xAt_ge ss c.index
    unfold padding at *
    omega
  have hnd := cells_nodup ss
  have hdis := cells_disjoint ss c
  unfold sheet
  obtain ⟨l1, l2, hl⟩ := List.append_of_mem hc
  have split : ∀ (l1 : List Cell) (canvas : Nat → Nat → α), paintAll ss drawn pic outline canvas (l1 ++ c :: l2) =
      paintAll ss drawn pic outline (paintAll ss drawn pic outline canvas l1) (c :: l2) := by
    intro l1
    induction l1 with
    | nil => intro canvas; rfl
    | cons d l1 ih => intro canvas; simp only [List.cons_append, paintAll]; rw [ih]; rfl
  rw [hl] at hnd
  have hne : ∀ d ∈ l2, c.index ≠ d.index := by
    rw [List.map_append, List.map_cons, List.nodup_append] at hnd
    have := (List.nodup_cons.mp hnd.2.1).1
    intro d hd e
    exact this (e ▸ List.mem_map_of_mem hd)
  rw [hl, split]
  simp only [paintAll]
  rw [paintAll_other]
  · rw [if_pos hd, hs]
    unfold paint
    simp only [Option.getD_some]
    rw [if_pos (by omega)]
    congr 1 <;> omega
  · intro d hdm hin
    have hdc : d ∈ cells ss := by rw [hl]; exact List.mem_append_right _ (List.mem_cons_of_mem _ hdm)
    obtain ⟨t, ht, _⟩ := mem_cells ss d hdc
    rw [ht] at hin
    simp only [Option.getD_some] at hin
    have := hdis d hc hdc (hne d hdm) s t hs ht ((c.x + a : Nat) : Int) ((c.y + b : Nat) : Int)
    apply this
    refine ⟨?_, hin⟩
    unfold outlined
    simp only
    omega
  · intro d hdm
    exact hpos d (by rw [hl]; exact List.mem_append_right _ (List.mem_cons_of_mem _ hdm))

/-- Ten sprites on two lines, one without picture. -/
example : cells [⟨10, 20, 4⟩, ⟨0, 0, 2⟩, ⟨30, 5, 1⟩, ⟨1, 1, 7⟩, ⟨1, 1, 4⟩, ⟨1, 1, 4⟩, ⟨1, 1, 4⟩, ⟨1, 1, 4⟩, ⟨64, 31, 4⟩, ⟨7, 7, 4⟩] =
    [⟨0, 5, 5⟩, ⟨2, 25, 5⟩, ⟨3, 65, 5⟩, ⟨4, 76, 5⟩, ⟨5, 87, 5⟩, ⟨6, 98, 5⟩, ⟨7, 109, 5⟩, ⟨8, 5, 35⟩, ⟨9, 79, 35⟩] := by decide +kernel

end Grf.Sheet
