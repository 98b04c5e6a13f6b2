import Verif.Model.SpriteSheet
/-!
# C83: sprite sheets
-/
namespace Grf.SpriteSheet

/-- The places of the sprites on a sheet, one for every sprite of the list. -/
structure Layout (o : Objs) (l : List Nat) (padding W H : Nat) (x y : Nat → Nat) : Prop where
  /-- Every sprite is inside the picture, with at least the padding around it. -/
  inside : ∀ (i s : Nat), l[i]? = some s → padding ≤ x i ∧ x i + o.w s + padding ≤ W ∧ padding ≤ y i ∧ y i + o.h s + padding ≤ H
  /-- Of any two sprites the later one is to the right or below, at least the padding away. -/
  apart : ∀ (i j s : Nat), i < j → j < l.length → l[i]? = some s → (y i = y j ∧ x i + o.w s + padding ≤ x j) ∨ y i + o.h s + padding ≤ y j

/-- The places of the rows. -/
def top (o : Objs) (l : List Nat) (padding columns : Nat) : Nat → Nat
  | 0 => padding
  | k + 1 => top o l padding columns k + (padding + maxOf ((row l columns k).map o.h))

/-- The horizontal place of a sprite: the ones before it in its row, each with the padding. -/
def left (o : Objs) (l : List Nat) (padding columns i : Nat) : Nat :=
  padding + ((((l.drop (i / columns * columns)).take (i % columns)).map fun s => o.w s + padding).sum)

theorem measure_top (o : Objs) (l : List Nat) (padding columns k : Nat) : (measure o l padding columns k).2.1 = top o l padding columns k ∧
    (measure o l padding columns k).2.2 = (List.range k).map (top o l padding columns) ∧
    ∀ j < k, ((row l columns j).map o.w).sum ≤ (measure o l padding columns k).1 := by
  induction k with
  | zero => simp [measure, top]
  | succ k ih =>
    obtain ⟨h1, h2, h3⟩ := ih
    simp only [measure, top]
    refine ⟨by rw [h1], ?_, ?_⟩
    · rw [h2, h1, List.range_succ]; simp
    · intro j hj
      by_cases e : j = k
      · subst e; omega
      · have := h3 j (by omega); omega

theorem maxOf_le {l : List Nat} {a : Nat} (h : a ∈ l) : a ≤ maxOf l := by
  induction l with
  | nil => cases h
  | cons b r ih =>
    simp only [maxOf]
    rw [List.mem_cons] at h
    rcases h with rfl | h
    · omega
    · have := ih h; omega

theorem sum_pad (o : Objs) (padding : Nat) (l : List Nat) : (l.map fun s => o.w s + padding).sum = (l.map o.w).sum + l.length * padding := by
  induction l with
  | nil => simp
  | cons a r ih => simp [ih, Nat.add_mul]; omega

theorem sum_take_le (f : Nat → Nat) (l : List Nat) (a b : Nat) (h : a ≤ b) : ((l.take a).map f).sum ≤ ((l.take b).map f).sum := by
  induction l generalizing a b with
  | nil => simp
  | cons x r ih =>
    cases a with
    | zero => simp
    | succ a =>
      cases b with
      | zero => omega
      | succ b => simpa using ih a b (by omega)

theorem sum_take_succ (f : Nat → Nat) (l : List Nat) (a s : Nat) (h : l[a]? = some s) : ((l.take (a + 1)).map f).sum = ((l.take a).map f).sum + f s := by
  rw [List.take_succ, h]
  simp

theorem top_mono (o : Objs) (l : List Nat) (padding columns : Nat) {a b : Nat} (h : a ≤ b) : top o l padding columns a ≤ top o l padding columns b := by
  induction b with
  | zero => simp at h; subst h; exact Nat.le_refl _
  | succ b ih =>
    by_cases e : a = b + 1
    · subst e; exact Nat.le_refl _
    · have := ih (by omega)
      simp only [top]
      omega

theorem place_mem {l : List Nat} {i s : Nat} {columns : Nat} (h : l[i]? = some s) : (l.drop (i / columns * columns))[i % columns]? = some s := by
  rw [List.getElem?_drop, Nat.div_add_mod']
  exact h

theorem mem_row {l : List Nat} {i s : Nat} {columns : Nat} (hc : 0 < columns) (h : l[i]? = some s) : s ∈ row l columns (i / columns) := by
  unfold row
  apply List.mem_of_getElem? (i := i % columns)
  rw [List.getElem?_take, if_pos (Nat.mod_lt _ hc)]
  exact place_mem h

theorem row_lt {l : List Nat} {i columns : Nat} (hc : 0 < columns) (h : i < l.length) : i / columns < rowCount l.length columns := by
  unfold rowCount
  rw [Nat.lt_div_iff_mul_lt hc]
  have := Nat.div_mul_le_self i columns
  omega

/-- The places form a proper layout. -/
theorem layout (o : Objs) (l : List Nat) (padding columns : Nat) (hc : 0 < columns) :
    Layout o l padding ((measure o l padding columns (rowCount l.length columns)).1 + (columns + 1) * padding)
      (measure o l padding columns (rowCount l.length columns)).2.1 (left o l padding columns) (fun i => top o l padding columns (i / columns)) := by
  obtain ⟨m1, -, m3⟩ := measure_top o l padding columns (rowCount l.length columns)
  constructor
  · intro i s hs
    have hi : i < l.length := (List.getElem?_eq_some_iff.1 hs).1
    have hr := row_lt hc hi
    have hmod := Nat.mod_lt i hc
    refine ⟨by unfold left; omega, ?_, top_mono _ _ _ _ (Nat.zero_le _), ?_⟩
    · have hw := m3 _ hr
      have h1 := sum_take_succ o.w _ _ _ (place_mem (columns := columns) hs)
      have h2 := sum_take_le o.w (l.drop (i / columns * columns)) (i % columns + 1) columns (by omega)
      have hlen : ((l.drop (i / columns * columns)).take (i % columns)).length ≤ i % columns := by simp; omega
      have h3 := Nat.mul_le_mul_right padding (Nat.le_trans hlen (show i % columns ≤ columns - 1 by omega))
      have h4 : (columns + 1) * padding = (columns - 1) * padding + 2 * padding := by rw [← Nat.add_mul]; congr 1; omega
      unfold left
      rw [sum_pad]
      unfold row at hw
      omega
    · rw [m1]
      have h1 := top_mono o l padding columns (show i / columns + 1 ≤ rowCount l.length columns by omega)
      have h2 := maxOf_le (List.mem_map_of_mem (f := o.h) (mem_row hc hs))
      simp only [top] at h1
      omega
  · intro i j s hij hj hs
    by_cases e : i / columns = j / columns
    · left
      refine ⟨by simp only [e], ?_⟩
      have hm : i % columns < j % columns := by
        have h1 := Nat.div_add_mod i columns
        have h2 := Nat.div_add_mod j columns
        rw [e] at h1
        omega
      unfold left
      rw [← e]
      have h1 := sum_take_succ (fun s => o.w s + padding) _ _ _ (place_mem (columns := columns) hs)
      have h2 := sum_take_le (fun s => o.w s + padding) (l.drop (i / columns * columns)) (i % columns + 1) (j % columns) hm
      omega
    · right
      have hle : i / columns ≤ j / columns := Nat.div_le_div_right (by omega)
      have h1 := top_mono o l padding columns (show i / columns + 1 ≤ j / columns by omega)
      have h2 := maxOf_le (List.mem_map_of_mem (f := o.h) (mem_row hc hs))
      simp only [top] at h1
      omega

/-- A point of the picture belongs to a sprite. -/
def Covers (o : Objs) (x y : Nat → Nat) (i s a b : Nat) : Prop := x i ≤ a ∧ a < x i + o.w s ∧ y i ≤ b ∧ b < y i + o.h s

theorem left_step (o : Objs) (l : List Nat) (padding columns i s : Nat) (hc : 0 < columns) (hs : l[i]? = some s) :
    (if (i + 1) % columns = 0 then padding else left o l padding columns i + (o.w s + padding)) = left o l padding columns (i + 1) := by
  have h1 := Nat.div_add_mod i columns
  have hm := Nat.mod_lt i hc
  by_cases e : (i + 1) % columns = 0
  · rw [if_pos e]
    unfold left
    rw [e]
    simp
  · rw [if_neg e]
    have h2 : i % columns + 1 < columns := by
      rcases Nat.lt_or_ge (i % columns + 1) columns with h | h
      · exact h
      · exfalso
        apply e
        have : i + 1 = columns * (i / columns + 1) := by rw [Nat.mul_add]; omega
        rw [this]
        exact Nat.mul_mod_right _ _
    have h3 : (i + 1) / columns = i / columns ∧ (i + 1) % columns = i % columns + 1 := by
      have : i + 1 = (i % columns + 1) + columns * (i / columns) := by omega
      constructor
      · rw [this, Nat.add_mul_div_left _ _ hc, Nat.div_eq_of_lt h2]; omega
      · rw [this, Nat.add_mul_mod_self_left, Nat.mod_eq_of_lt h2]
    unfold left
    rw [h3.1, h3.2, sum_take_succ (fun s => o.w s + padding) _ _ _ (place_mem (columns := columns) hs)]
    omega

/-- The second loop: all sprites drawn in order at their places. -/
theorem loop_eq (o : Objs) (l : List Nat) (padding columns : Nat) (hc : 0 < columns) : ∀ (r : List Nat) (i x : Nat) (st : St), l.drop i = r →
    (i % columns = 0 ∨ x = left o l padding columns i) →
    loop o padding columns ((List.range (rowCount l.length columns)).map (top o l padding columns)) r i x st =
      some ((r.zipIdx i).foldl (fun st p => ⟨draw st.im (o.w p.1) (o.h p.1) (o.pic p.1) (left o l padding columns p.2) (top o l padding columns (p.2 / columns)),
        fun t => if t = p.1 then some (left o l padding columns p.2, top o l padding columns (p.2 / columns)) else st.place t⟩) st)
  | [], _, _, _, _, _ => rfl
  | s :: r, i, x, st, hd, hx => by
    have hs : l[i]? = some s := by
      have : (l.drop i)[0]? = some s := by rw [hd]; rfl
      rwa [List.getElem?_drop, Nat.add_zero] at this
    have hi : i < l.length := (List.getElem?_eq_some_iff.1 hs).1
    have hd' : l.drop (i + 1) = r := by
      have : (l.drop i).drop 1 = r := by rw [hd]; rfl
      rwa [List.drop_drop] at this
    have hx' : (if i % columns = 0 then padding else x) = left o l padding columns i := by
      by_cases e : i % columns = 0
      · rw [if_pos e]; unfold left; rw [e]; simp
      · rw [if_neg e]; exact hx.resolve_left e
    unfold loop
    rw [List.getElem?_map, List.getElem?_range (row_lt hc hi)]
    simp only [Option.map_some, hx']
    rw [loop_eq o l padding columns hc r (i + 1) _ _ hd' ?_]
    · rfl
    · by_cases e : (i + 1) % columns = 0
      · exact Or.inl e
      · right
        have := left_step o l padding columns i s hc hs
        rwa [if_neg e] at this

/-- Drawing one sprite. -/
def drawAt (o : Objs) (x y : Nat → Nat) (st : St) (p : Nat × Nat) : St :=
  ⟨draw st.im (o.w p.1) (o.h p.1) (o.pic p.1) (x p.2) (y p.2), fun t => if t = p.1 then some (x p.2, y p.2) else st.place t⟩

theorem draw_size (im : Image) (w h : Nat) (pic : Option (Nat → Nat → Nat)) (x y : Nat) : (draw im w h pic x y).w = im.w ∧ (draw im w h pic x y).h = im.h := by
  unfold draw
  cases pic <;> exact ⟨rfl, rfl⟩

theorem fold_size (o : Objs) (x y : Nat → Nat) (ps : List (Nat × Nat)) (st : St) :
    (ps.foldl (drawAt o x y) st).im.w = st.im.w ∧ (ps.foldl (drawAt o x y) st).im.h = st.im.h := by
  induction ps generalizing st with
  | nil => exact ⟨rfl, rfl⟩
  | cons p ps ih =>
    rw [List.foldl_cons, (ih _).1, (ih _).2]
    exact draw_size _ _ _ _ _ _

theorem draw_other (o : Objs) (x y : Nat → Nat) (st : St) (p : Nat × Nat) (a b : Nat) (h : ¬ Covers o x y p.2 p.1 a b) : (drawAt o x y st p).im.px a b = st.im.px a b := by
  unfold drawAt draw
  cases e : o.pic p.1 with
  | none => rfl
  | some q => exact if_neg h

theorem fold_other (o : Objs) (x y : Nat → Nat) (ps : List (Nat × Nat)) (st : St) (a b : Nat) (h : ∀ p ∈ ps, ¬ Covers o x y p.2 p.1 a b) :
    (ps.foldl (drawAt o x y) st).im.px a b = st.im.px a b := by
  induction ps generalizing st with
  | nil => rfl
  | cons p ps ih =>
    rw [List.foldl_cons, ih _ (fun q hq => h q (List.mem_cons_of_mem _ hq)), draw_other _ _ _ _ _ _ _ (h p (by simp))]

theorem fold_place (o : Objs) (x y : Nat → Nat) (ps : List (Nat × Nat)) (st : St) (s : Nat) (h : ∀ p ∈ ps, p.1 ≠ s) :
    (ps.foldl (drawAt o x y) st).place s = st.place s := by
  induction ps generalizing st with
  | nil => rfl
  | cons p ps ih =>
    rw [List.foldl_cons, ih _ (fun q hq => h q (List.mem_cons_of_mem _ hq))]
    exact if_neg (fun e => h p (by simp) e.symm)

theorem split_at {l : List Nat} {i s : Nat} (h : l[i]? = some s) :
    l.zipIdx = (l.take i).zipIdx ++ (s, i) :: (l.drop (i + 1)).zipIdx (i + 1) := by
  obtain ⟨hi, he⟩ := List.getElem?_eq_some_iff.1 h
  have h1 : l = l.take i ++ s :: l.drop (i + 1) := by
    rw [← he, ← List.drop_eq_getElem_cons hi, List.take_append_drop]
  have h2 := congrArg (fun z => z.zipIdx) h1
  rw [List.zipIdx_append, List.zipIdx_cons, List.length_take, Nat.min_eq_left (by omega)] at h2
  simpa using h2

theorem later_mem {l : List Nat} {i : Nat} {p : Nat × Nat} (h : p ∈ (l.drop (i + 1)).zipIdx (i + 1)) : i < p.2 ∧ l[p.2]? = some p.1 := by
  rw [List.mem_zipIdx_iff_le_and_getElem?_sub] at h
  refine ⟨by omega, ?_⟩
  have := h.2
  rw [List.getElem?_drop] at this
  rw [← this]
  congr 1
  omega

theorem last_of {l : List Nat} {s : Nat} (h : s ∈ l) : ∃ i : Nat, l[i]? = some s ∧ ∀ j : Nat, i < j → l[j]? ≠ some s := by
  induction l with
  | nil => cases h
  | cons a r ih =>
    by_cases hr : s ∈ r
    · obtain ⟨i, h1, h2⟩ := ih hr
      refine ⟨i + 1, by simpa using h1, fun j hj => ?_⟩
      cases j with
      | zero => omega
      | succ j => simpa using h2 j (by omega)
    · rw [List.mem_cons] at h
      have e := h.resolve_right hr
      refine ⟨0, by simp [e], fun j hj => ?_⟩
      cases j with
      | zero => omega
      | succ j =>
        intro hh
        exact hr (List.mem_of_getElem? (by simpa using hh))

/-- **C83.** A sheet can be made exactly if there is a column. Then its sprites have places inside the picture, apart from each other by the
padding; each sprite's picture is at its place, the rest has the colour 255; and every sprite object knows a place where its picture is. -/
theorem sheet_exact (o : Objs) (l : List Nat) (padding columns : Nat) : ((makeImage o l padding columns).isSome ↔ 0 < columns) ∧
    ∀ st, makeImage o l padding columns = some st → ∃ x y : Nat → Nat, Layout o l padding st.im.w st.im.h x y ∧
      (∀ i s a b p, l[i]? = some s → Covers o x y i s a b → o.pic s = some p → st.im.px a b = p (a - x i) (b - y i)) ∧
      (∀ a b, (∀ i s, l[i]? = some s → ¬ Covers o x y i s a b) → st.im.px a b = 255) ∧
      ∀ s, (s ∈ l → ∃ i, l[i]? = some s ∧ (∀ j, i < j → l[j]? ≠ some s) ∧ st.place s = some (x i, y i)) ∧ (s ∉ l → st.place s = none) := by
  by_cases hc : 0 < columns
  · obtain ⟨m1, m2, m3⟩ := measure_top o l padding columns (rowCount l.length columns)
    have hl := layout o l padding columns hc
    have hm : makeImage o l padding columns = some (l.zipIdx.foldl (drawAt o (left o l padding columns) fun i => top o l padding columns (i / columns))
        ⟨⟨(measure o l padding columns (rowCount l.length columns)).1 + (columns + 1) * padding, (measure o l padding columns (rowCount l.length columns)).2.1,
          fun _ _ => 0xff⟩, fun _ => none⟩) := by
      unfold makeImage
      rw [if_neg (by omega)]
      simp only [m2]
      rw [loop_eq o l padding columns hc l 0 0 _ (by simp) (Or.inl (Nat.zero_mod _))]
      rfl
    refine ⟨by rw [hm]; simp [hc], fun st hst => ?_⟩
    rw [hm] at hst
    cases hst
    refine ⟨left o l padding columns, fun i => top o l padding columns (i / columns), ?_, ?_, ?_, ?_⟩
    · obtain ⟨f1, f2⟩ := fold_size o (left o l padding columns) (fun i => top o l padding columns (i / columns)) l.zipIdx
        ⟨⟨(measure o l padding columns (rowCount l.length columns)).1 + (columns + 1) * padding, (measure o l padding columns (rowCount l.length columns)).2.1,
          fun _ _ => 0xff⟩, fun _ => none⟩
      rw [f1, f2]
      exact hl
    · intro i s a b p hs hcov hp
      rw [split_at hs, List.foldl_append, List.foldl_cons, fold_other]
      · unfold drawAt draw
        rw [hp]
        exact if_pos hcov
      · intro q hq hq2
        obtain ⟨q1, q2⟩ := later_mem hq
        have hq3 : q.2 < l.length := (List.getElem?_eq_some_iff.1 q2).1
        have := hl.apart i q.2 s q1 hq3 hs
        unfold Covers at hcov hq2
        simp only at this hcov hq2
        omega
    · intro a b hn
      rw [fold_other]
      intro q hq
      rw [List.mem_zipIdx_iff_getElem?] at hq
      exact hn _ _ hq
    · intro s
      constructor
      · intro hmem
        obtain ⟨i, h1, h2⟩ := last_of hmem
        refine ⟨i, h1, h2, ?_⟩
        rw [split_at h1, List.foldl_append, List.foldl_cons, fold_place]
        · exact if_pos rfl
        · intro q hq e
          obtain ⟨q1, q2⟩ := later_mem hq
          exact h2 _ q1 (by rw [q2, e])
      · intro hmem
        rw [fold_place]
        intro q hq e
        rw [List.mem_zipIdx_iff_getElem?] at hq
        exact hmem (e ▸ List.mem_of_getElem? hq)
  · have : columns = 0 := by omega
    subst this
    simp [makeImage]

/-- So cutting the place of a sprite out of the saved sheet gives its picture. -/
theorem cut_out (o : Objs) (l : List Nat) (padding columns : Nat) (st : St) (h : makeImage o l padding columns = some st) (s : Nat) (hs : s ∈ l)
    (p : Nat → Nat → Nat) (hp : o.pic s = some p) : ∃ x y, st.place s = some (x, y) ∧ x + o.w s ≤ st.im.w ∧ y + o.h s ≤ st.im.h ∧
      ∀ a b, a < o.w s → b < o.h s → st.im.px (x + a) (y + b) = p a b := by
  obtain ⟨x, y, hl, h1, -, h2⟩ := (sheet_exact o l padding columns).2 st h
  obtain ⟨i, e1, -, e2⟩ := (h2 s).1 hs
  obtain ⟨-, i1, -, i2⟩ := hl.inside i s e1
  refine ⟨x i, y i, e2, by omega, by omega, fun a b ha hb => ?_⟩
  rw [h1 i s (x i + a) (y i + b) p e1 ⟨by omega, by omega, by omega, by omega⟩ hp, Nat.add_sub_cancel_left, Nat.add_sub_cancel_left]

/-- Three sprites in two columns. -/
example : ((makeImage ⟨fun s => s + 1, fun s => 2 * s + 1, fun s => some fun _ _ => s⟩ [2, 0, 1] 5 2).map fun st =>
    (st.im.w, st.im.h, st.place 2, st.place 0, st.place 1, st.im.px 6 6)) = some (19, 23, some (5, 5), some (13, 5), some (5, 15), 2) := rfl

end Grf.SpriteSheet
