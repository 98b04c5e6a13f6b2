import Verif.Model.RealSprite
import Verif.Props.SpriteData
import Verif.Proofs.Actions
/-!
# C44, C54: cropping keeps what is visible; written graphics read back
-/
namespace Grf.RealSprite

open Grf.SpriteData

/-! ### Specification -/

/-- The pixel of a layer at a row and a column. -/
def at' {α : Type} (l : List (List α)) (y x : Nat) : Option α := (l[y]?).bind fun r => r[x]?

/-- A pixel is visible if its alpha is not 0; without alpha if its colour is not black; without colours if its palette index is not 0. -/
def Visible (L : Layers) (y x : Nat) : Prop :=
  match L.alpha, L.rgb, L.mask with
  | some a, _, _ => ∃ v, at' a y x = some v ∧ v ≠ 0
  | none, some c, _ => ∃ p, at' c y x = some p ∧ ∃ b ∈ p, b ≠ 0
  | none, none, some m => ∃ v, at' m y x = some v ∧ v ≠ 0
  | none, none, none => False

/-! ### Lemmas -/

theorem visible_used (L : Layers) (u : List (List Bool)) (h : used L = some u) (y x : Nat) : Visible L y x ↔ at' u y x = some true := by
  have key : ∀ {α : Type} (l : List (List α)) (f : α → Bool), at' (l.map fun r => r.map f) y x = some true ↔ ∃ v, at' l y x = some v ∧ f v = true := by
    intro α l f
    unfold at'
    rw [List.getElem?_map]
    cases l[y]? with
    | none => simp
    | some r =>
      simp only [Option.map_some, Option.bind_some, List.getElem?_map]
      cases r[x]? <;> simp
  obtain ⟨rgb, alpha, mask⟩ := L
  cases alpha with
  | some a =>
    simp only [used, Option.some.injEq] at h
    subst h
    rw [key]; simp [Visible]
  | none =>
    cases rgb with
    | some c =>
      simp only [used, Option.some.injEq] at h
      subst h
      rw [key]; simp [Visible]
    | none =>
      cases mask with
      | some m =>
        simp only [used, Option.some.injEq] at h
        subst h
        rw [key]; simp [Visible]
      | none => cases h

theorem shaped_iff {α : Type} (h w : Nat) (l : List (List α)) : shaped h w l = true ↔ l.length = h ∧ ∀ r ∈ l, r.length = w := by
  simp [shaped]

theorem used_shaped (L : Layers) (u : List (List Bool)) (hu : used L = some u) (h w : Nat) (hs : L.shapeOk h w = true) : shaped h w u = true := by
  have key : ∀ {α : Type} (l : List (List α)) (f : α → Bool), shaped h w l = true → shaped h w (l.map fun r => r.map f) = true := by
    intro α l f hl
    rw [shaped_iff] at hl ⊢
    refine ⟨by simp [hl.1], ?_⟩
    intro r hr
    obtain ⟨r', hr', rfl⟩ := List.mem_map.mp hr
    simp [hl.2 r' hr']
  obtain ⟨rgb, alpha, mask⟩ := L
  simp only [Layers.shapeOk, Bool.and_eq_true] at hs
  cases alpha with
  | some a =>
    simp only [used, Option.some.injEq] at hu
    subst hu; exact key _ _ hs.1.2
  | none =>
    cases rgb with
    | some c =>
      simp only [used, Option.some.injEq] at hu
      simp only [Bool.and_eq_true] at hs
      subst hu; exact key _ _ hs.1.1.1
    | none =>
      cases mask with
      | some m =>
        simp only [used, Option.some.injEq] at hu
        subst hu; exact key _ _ hs.2
      | none => cases hu

theorem mem_cols (w : Nat) (u : List (List Bool)) (x : Nat) : x ∈ colsUsed w u ↔ x < w ∧ ∃ y, at' u y x = some true := by
  simp only [colsUsed, List.mem_filter, List.mem_range, List.any_eq_true]
  constructor
  · rintro ⟨h1, r, hr, hx⟩
    obtain ⟨y, hy, rfl⟩ := List.getElem_of_mem hr
    refine ⟨h1, y, ?_⟩
    unfold at'
    rw [List.getElem?_eq_getElem hy, Option.bind_some]
    rw [List.getD_eq_getElem?_getD] at hx
    cases hg : u[y][x]? with
    | none => rw [hg] at hx; simp at hx
    | some b => rw [hg] at hx; simp only [Option.getD_some] at hx; rw [hx]
  · rintro ⟨h1, y, hy⟩
    unfold at' at hy
    simp only [Option.bind_eq_some_iff] at hy
    obtain ⟨r, hr, hx⟩ := hy
    exact ⟨h1, r, List.mem_of_getElem? hr, by rw [List.getD_eq_getElem?_getD, hx]; rfl⟩

theorem mem_rows (h : Nat) (u : List (List Bool)) (y : Nat) : y ∈ rowsUsed h u ↔ y < h ∧ ∃ x, at' u y x = some true := by
  simp only [rowsUsed, List.mem_filter, List.mem_range, List.any_eq_true, List.getD_eq_getElem?_getD]
  constructor
  · rintro ⟨h1, b, hb, hx⟩
    refine ⟨h1, ?_⟩
    cases hg : u[y]? with
    | none => rw [hg] at hb; simp at hb
    | some r =>
      rw [hg] at hb
      simp only [Option.getD_some] at hb
      obtain ⟨x, hx', he⟩ := List.getElem_of_mem hb
      refine ⟨x, ?_⟩
      unfold at'
      rw [hg, Option.bind_some, List.getElem?_eq_getElem hx', he]
      simp only [id] at hx
      rw [hx]
  · rintro ⟨h1, x, hx⟩
    unfold at' at hx
    simp only [Option.bind_eq_some_iff] at hx
    obtain ⟨r, hr, hx⟩ := hx
    exact ⟨h1, true, by rw [hr]; exact List.mem_of_getElem? hx, rfl⟩

theorem min_spec (l : List Nat) (h : l ≠ []) : l.min?.getD 0 ∈ l ∧ ∀ a ∈ l, l.min?.getD 0 ≤ a := by
  cases hm : l.min? with
  | none => rw [List.min?_eq_none_iff] at hm; exact absurd hm h
  | some m => rw [List.min?_eq_some_iff] at hm; exact hm

theorem max_spec (l : List Nat) (h : l ≠ []) : l.max?.getD 0 ∈ l ∧ ∀ a ∈ l, a ≤ l.max?.getD 0 := by
  cases hm : l.max? with
  | none => rw [List.max?_eq_none_iff] at hm; exact absurd hm h
  | some m => rw [List.max?_eq_some_iff] at hm; exact hm

theorem window_at {α : Type} (x y w h : Nat) (l : List (List α)) (i j : Nat) (hi : i < h) (hj : j < w) : at' (window x y w h l) i j = at' l (y + i) (x + j) := by
  unfold at' window
  rw [List.getElem?_map, List.getElem?_take_of_lt hi, List.getElem?_drop]
  cases l[y + i]? with
  | none => rfl
  | some r => simp only [Option.map_some, Option.bind_some]; rw [List.getElem?_take_of_lt hj, List.getElem?_drop]

theorem window_shaped {α : Type} (x y w h W H : Nat) (l : List (List α)) (hl : shaped H W l = true) (hw : x + w ≤ W) (hh : y + h ≤ H) :
    shaped h w (window x y w h l) = true := by
  rw [shaped_iff] at hl ⊢
  refine ⟨by simp [window, hl.1]; omega, ?_⟩
  intro r hr
  obtain ⟨r', hr', rfl⟩ := List.mem_map.mp hr
  have := hl.2 r' (List.mem_of_mem_drop (List.mem_of_mem_take hr'))
  simp [this]; omega

/-! ### Cropping -/

/-- Every visible pixel is inside of what is kept. -/
theorem crop_keeps_visible (crop : Bool) (w h : Nat) (L : Layers) (c : Cropped) (hc : doCrop crop w h L = some c)
    (y x : Nat) (hy : y < h) (hx : x < w) (hv : Visible L y x) : c.x ≤ x ∧ x < c.x + c.w ∧ c.y ≤ y ∧ y < c.y + c.h := by
  unfold doCrop at hc
  split at hc
  · simp only [Option.map_eq_some_iff] at hc
    obtain ⟨u, hu, rfl⟩ := hc
    rw [visible_used L u hu] at hv
    have hcm : x ∈ colsUsed w u := (mem_cols w u x).mpr ⟨hx, y, hv⟩
    have hrm : y ∈ rowsUsed h u := (mem_rows h u y).mpr ⟨hy, x, hv⟩
    have c1 := (min_spec _ (List.ne_nil_of_mem hcm)).2 x hcm
    have c2 := (max_spec _ (List.ne_nil_of_mem hcm)).2 x hcm
    have r1 := (min_spec _ (List.ne_nil_of_mem hrm)).2 y hrm
    have r2 := (max_spec _ (List.ne_nil_of_mem hrm)).2 y hrm
    simp only
    omega
  · simp only [Option.some.injEq] at hc
    subst hc
    simp only
    omega

/-- What is kept has the pixels of the picture, displaced by the crop offsets, in all layers. -/
theorem crop_same_pixels (crop : Bool) (w h : Nat) (L : Layers) (c : Cropped) (hc : doCrop crop w h L = some c) (i j : Nat) (hi : i < c.h) (hj : j < c.w) :
    c.layers.rgb.map (at' · i j) = L.rgb.map (at' · (c.y + i) (c.x + j)) ∧
    c.layers.alpha.map (at' · i j) = L.alpha.map (at' · (c.y + i) (c.x + j)) ∧
    c.layers.mask.map (at' · i j) = L.mask.map (at' · (c.y + i) (c.x + j)) := by
  unfold doCrop at hc
  split at hc
  · simp only [Option.map_eq_some_iff] at hc
    obtain ⟨u, hu, rfl⟩ := hc
    simp only at hi hj ⊢
    refine ⟨?_, ?_, ?_⟩ <;> rw [Option.map_map] <;> congr 1 <;> funext l <;> exact window_at _ _ _ _ l i j hi hj
  · simp only [Option.some.injEq] at hc
    subst hc
    simp

/-- The kept part is inside of the picture and all its layers have its size. -/
theorem crop_inside (crop : Bool) (w h : Nat) (L : Layers) (c : Cropped) (hs : L.shapeOk h w = true) (hw : 0 < w) (hh : 0 < h)
    (hc : doCrop crop w h L = some c) : c.x + c.w ≤ w ∧ c.y + c.h ≤ h ∧ c.layers.shapeOk c.h c.w = true := by
  have hin : c.x + c.w ≤ w ∧ c.y + c.h ≤ h := by
    unfold doCrop at hc
    split at hc
    · simp only [Option.map_eq_some_iff] at hc
      obtain ⟨u, hu, rfl⟩ := hc
      simp only
      constructor
      · by_cases he : colsUsed w u = []
        · rw [he]; simp; omega
        · have h1 := (mem_cols w u _).mp (max_spec _ he).1
          have h2 := (min_spec _ he).2 _ (max_spec _ he).1
          omega
      · by_cases he : rowsUsed h u = []
        · rw [he]; simp; omega
        · have h1 := (mem_rows h u _).mp (max_spec _ he).1
          have h2 := (min_spec _ he).2 _ (max_spec _ he).1
          omega
    · simp only [Option.some.injEq] at hc
      subst hc; simp
  refine ⟨hin.1, hin.2, ?_⟩
  unfold doCrop at hc
  split at hc
  · simp only [Option.map_eq_some_iff] at hc
    obtain ⟨u, hu, rfl⟩ := hc
    simp only at hin ⊢
    simp only [Layers.shapeOk, Bool.and_eq_true] at hs ⊢
    refine ⟨⟨?_, ?_⟩, ?_⟩
    · cases hr : L.rgb with
      | none => rfl
      | some l =>
        rw [hr] at hs
        simp only [Bool.and_eq_true] at hs
        simp only [Option.map_some, Bool.and_eq_true]
        refine ⟨window_shaped _ _ _ _ w h l hs.1.1.1 hin.1 hin.2, ?_⟩
        have h3 := hs.1.1.2
        simp only [List.all_eq_true] at h3 ⊢
        intro r hr p hp
        obtain ⟨r', hr', rfl⟩ := List.mem_map.mp hr
        exact h3 r' (List.mem_of_mem_drop (List.mem_of_mem_take hr')) p (List.mem_of_mem_drop (List.mem_of_mem_take hp))
    · cases hr : L.alpha with
      | none => rfl
      | some l => rw [hr] at hs; exact window_shaped _ _ _ _ w h l hs.1.2 hin.1 hin.2
    · cases hr : L.mask with
      | none => rfl
      | some l => rw [hr] at hs; exact window_shaped _ _ _ _ w h l hs.2 hin.1 hin.2
  · simp only [Option.some.injEq] at hc
    subst hc; exact hs

/-- Nothing more can be removed: the first and the last row and column of what is kept have a visible pixel. -/
theorem crop_minimal (w h : Nat) (L : Layers) (c : Cropped) (hc : doCrop true w h L = some c)
    (y x : Nat) (hy : y < h) (hx : x < w) (hv : Visible L y x) :
    (∃ i, Visible L i c.x) ∧ (∃ i, Visible L i (c.x + c.w - 1)) ∧ (∃ j, Visible L c.y j) ∧ (∃ j, Visible L (c.y + c.h - 1) j) := by
  simp only [doCrop, if_true, Option.map_eq_some_iff] at hc
  obtain ⟨u, hu, rfl⟩ := hc
  rw [visible_used L u hu] at hv
  simp only [visible_used L u hu]
  have hcn : colsUsed w u ≠ [] := List.ne_nil_of_mem ((mem_cols w u x).mpr ⟨hx, y, hv⟩)
  have hrn : rowsUsed h u ≠ [] := List.ne_nil_of_mem ((mem_rows h u y).mpr ⟨hy, x, hv⟩)
  have cmin := min_spec _ hcn
  have cmax := max_spec _ hcn
  have rmin := min_spec _ hrn
  have rmax := max_spec _ hrn
  have ec : (colsUsed w u).min?.getD 0 + ((colsUsed w u).max?.getD 0 - (colsUsed w u).min?.getD 0 + 1) - 1 = (colsUsed w u).max?.getD 0 := by
    have := cmin.2 _ cmax.1; omega
  have er : (rowsUsed h u).min?.getD 0 + ((rowsUsed h u).max?.getD 0 - (rowsUsed h u).min?.getD 0 + 1) - 1 = (rowsUsed h u).max?.getD 0 := by
    have := rmin.2 _ rmax.1; omega
  rw [ec, er]
  exact ⟨((mem_cols w u _).mp cmin.1).2, ((mem_cols w u _).mp cmax.1).2, ((mem_rows h u _).mp rmin.1).2, ((mem_rows h u _).mp rmax.1).2⟩

/-- A picture without visible pixels is cropped to its first pixel. -/
theorem crop_blank (w h : Nat) (L : Layers) (c : Cropped) (hc : doCrop true w h L = some c) (hb : ∀ y x, ¬ Visible L y x) :
    c.x = 0 ∧ c.y = 0 ∧ c.w = 1 ∧ c.h = 1 := by
  simp only [doCrop, if_true, Option.map_eq_some_iff] at hc
  obtain ⟨u, hu, rfl⟩ := hc
  have e1 : colsUsed w u = [] := List.eq_nil_iff_forall_not_mem.mpr fun x hx => by
    obtain ⟨_, y, hy⟩ := (mem_cols w u x).mp hx
    exact hb y x ((visible_used L u hu y x).mpr hy)
  have e2 : rowsUsed h u = [] := List.eq_nil_iff_forall_not_mem.mpr fun y hy => by
    obtain ⟨_, x, hx⟩ := (mem_rows h u y).mp hy
    exact hb y x ((visible_used L u hu y x).mpr hx)
  simp [e1, e2]

/-- With colours but no alpha, black counts as invisible even where the mask has a colour: the mask's pixels are cropped away. -/
theorem masked_pixels_cropped : ∃ (L : Layers) (c : Cropped), L.shapeOk 1 2 = true ∧ doCrop true 2 1 L = some c ∧
    L.mask.bind (at' · 0 1) = some 0xc6 ∧ c.w = 1 :=
  ⟨⟨some [[[5, 5, 5], [0, 0, 0]]], none, some [[0, 0xc6]]⟩, _, by decide, rfl, by decide, by decide⟩

/-! ### Pixels -/

theorem flatten_at {α : Type} (w : Nat) : ∀ (l : List (List α)) (y x : Nat), (∀ r ∈ l, r.length = w) → x < w → l.flatten[y * w + x]? = at' l y x := by
  intro l
  induction l with
  | nil => intro y x _ _; simp [at']
  | cons r l ih =>
    intro y x h hx
    have hr := h r List.mem_cons_self
    rw [List.flatten_cons]
    cases y with
    | zero =>
      rw [Nat.zero_mul, Nat.zero_add, List.getElem?_append_left (by omega)]
      simp [at']
    | succ y =>
      rw [Nat.succ_mul, List.getElem?_append_right (by omega), hr]
      have e : y * w + w + x - w = y * w + x := by omega
      rw [e, ih y x (fun q hq => h q (List.mem_cons_of_mem _ hq)) hx]
      simp [at']

theorem flatten_len {α : Type} (w : Nat) : ∀ (l : List (List α)), (∀ r ∈ l, r.length = w) → l.flatten.length = l.length * w := by
  intro l
  induction l with
  | nil => intro _; simp
  | cons r l ih =>
    intro h
    rw [List.flatten_cons, List.length_append, ih (fun q hq => h q (List.mem_cons_of_mem _ hq)), h r List.mem_cons_self, List.length_cons, Nat.succ_mul]
    omega

theorem rows_at {α : Type} (w : Nat) : ∀ (h : Nat) (ps : List α) (i j : Nat), i < h → j < w → at' (rows w h ps) i j = ps[i * w + j]? := by
  intro h
  induction h with
  | zero => intro ps i j hi; omega
  | succ h ih =>
    intro ps i j hi hj
    cases i with
    | zero => simp only [at', rows, List.getElem?_cons_zero, Option.bind_some, Nat.zero_mul, Nat.zero_add]; rw [List.getElem?_take_of_lt hj]
    | succ i =>
      have := ih (ps.drop w) i j (by omega) hj
      simp only [at', rows, List.getElem?_cons_succ] at this ⊢
      rw [this, List.getElem?_drop]
      congr 1
      rw [Nat.succ_mul]; omega

theorem reshape_flatten (w bpp : Nat) : ∀ (h : Nat) (ps : List Bytes), ps.length = h * w → (∀ p ∈ ps, p.length = bpp) →
    reshape h w bpp ps.flatten = rows w h ps := by
  intro h
  induction h with
  | zero => intro ps _ _; rfl
  | succ h ih =>
    intro ps hl hp
    rw [Nat.succ_mul] at hl
    have e : ps.flatten = (ps.take w).flatten ++ (ps.drop w).flatten := by rw [← List.flatten_append, List.take_append_drop]
    have h1 : (ps.take w).length = w := by rw [List.length_take]; omega
    have h2 : (ps.take w).flatten.length = w * bpp := by rw [flatten_length bpp _ (fun p hp' => hp p (List.mem_of_mem_take hp')), h1]
    have h3 := ih (ps.drop w) (by rw [List.length_drop]; omega) (fun p hp' => hp p (List.mem_of_mem_drop hp'))
    unfold reshape at h3 ⊢
    simp only [rows, List.map_cons]
    rw [e, List.take_left' h2, List.drop_left' h2, h3]
    congr 1
    have := rows_of_flatten bpp (ps.take w) [] (fun p hp' => hp p (List.mem_of_mem_take hp'))
    rw [h1, List.append_nil] at this
    exact this

/-- The bytes of a pixel in the file: red, green, blue, alpha and mask, as far as the picture has them. -/
def pixelBytes (L : Layers) (m : Bool) (y x : Nat) : Bytes :=
  (match L.rgb with | some l => (at' l y x).getD [] | none => []) ++ (match L.alpha with | some l => [(at' l y x).getD 0] | none => []) ++
    (if m then match L.mask with | some l => [(at' l y x).getD 0] | none => [] else [])

def bppOf (L : Layers) (m : Bool) : Nat :=
  (if L.rgb.isSome then 3 else 0) + (if L.alpha.isSome then 1 else 0) + (if m then 1 else 0)

theorem at_some {α : Type} {h w : Nat} {l : List (List α)} (hs : shaped h w l = true) {y x : Nat} (hy : y < h) (hx : x < w) : ∃ v, at' l y x = some v := by
  rw [shaped_iff] at hs
  have h1 : y < l.length := by omega
  have h2 : x < l[y].length := by rw [hs.2 _ (List.getElem_mem h1)]; exact hx
  exact ⟨l[y][x], by unfold at'; rw [List.getElem?_eq_getElem h1, Option.bind_some, List.getElem?_eq_getElem h2]⟩

theorem layer_at {α : Type} {h w : Nat} {l : List (List α)} (hs : shaped h w l = true) {y x : Nat} (hx : x < w) : l.flatten[y * w + x]? = at' l y x :=
  flatten_at w l y x ((shaped_iff h w l).mp hs).2 hx

theorem layer_len {α : Type} {h w : Nat} {l : List (List α)} (hs : shaped h w l = true) : l.flatten.length = h * w := by
  rw [shaped_iff] at hs
  rw [flatten_len w l hs.2, hs.1]

theorem at_mem {α : Type} {l : List (List α)} {y x : Nat} {v : α} (h : at' l y x = some v) : ∃ r ∈ l, v ∈ r := by
  unfold at' at h
  simp only [Option.bind_eq_some_iff] at h
  obtain ⟨r, hr, hv⟩ := h
  exact ⟨r, List.mem_of_getElem? hr, List.mem_of_getElem? hv⟩

theorem index_split {h w k : Nat} (hk : k < h * w) : ∃ y x, y < h ∧ x < w ∧ k = y * w + x := by
  have hw : 0 < w := by
    apply Nat.pos_of_ne_zero; intro h0; subst h0; simp at hk
  refine ⟨k / w, k % w, ?_, Nat.mod_lt _ hw, ?_⟩
  · rw [Nat.div_lt_iff_lt_mul hw]; exact hk
  · have := Nat.div_add_mod k w; rw [Nat.mul_comm] at this; omega

theorem pixels_spec (L : Layers) (h w : Nat) (hs : L.shapeOk h w = true) (hne : (L.rgb.isNone && L.alpha.isNone && L.mask.isNone) = false) :
    (pixels L).length = h * w ∧ (∀ y x, y < h → x < w → (pixels L)[y * w + x]? = some (pixelBytes L (maskWritten L) y x)) := by
  obtain ⟨rgb, alpha, mask⟩ := L
  have hm : mask = none → maskWritten ⟨rgb, alpha, mask⟩ = false := by rintro rfl; rfl
  have hm' : rgb = none → alpha = none → mask.isSome → maskWritten ⟨rgb, alpha, mask⟩ = true := by
    rintro rfl rfl h; cases mask with
    | none => cases h
    | some m => rfl
  simp only [Layers.shapeOk, Bool.and_eq_true] at hs
  generalize hmw : maskWritten ⟨rgb, alpha, mask⟩ = mw at *
  unfold pixels pixelBytes
  rw [hmw]
  cases rgb with
  | none =>
    cases alpha with
    | none =>
      cases mask with
      | none => simp at hne
      | some m =>
        have := hm' rfl rfl rfl
        subst this
        simp only [List.nil_append, if_true, List.foldl_nil]
        have h3 := hs.2
        refine ⟨by simp only [List.length_map]; exact layer_len h3, fun y x hy hx => ?_⟩
        obtain ⟨v, hv⟩ := at_some h3 hy hx
        rw [List.getElem?_map, layer_at h3 hx, hv]; rfl
    | some a =>
      have h2 := hs.1.2
      cases mw with
      | false =>
        simp only [List.nil_append, Bool.false_eq_true, if_false, List.append_nil, List.foldl_nil]
        refine ⟨by simp only [List.length_map]; exact layer_len h2, fun y x hy hx => ?_⟩
        obtain ⟨v, hv⟩ := at_some h2 hy hx
        rw [List.getElem?_map, layer_at h2 hx, hv]; rfl
      | true =>
        cases mask with
        | none => simp at hm
        | some m =>
          have h3 := hs.2
          simp only [List.nil_append, if_true, List.cons_append, List.foldl_cons, List.foldl_nil]
          refine ⟨by rw [List.length_zipWith, List.length_map, List.length_map, layer_len h2, layer_len h3, Nat.min_self], fun y x hy hx => ?_⟩
          obtain ⟨v, hv⟩ := at_some h2 hy hx
          obtain ⟨v', hv'⟩ := at_some h3 hy hx
          rw [List.getElem?_zipWith, List.getElem?_map, List.getElem?_map, layer_at h2 hx, layer_at h3 hx, hv, hv']; rfl
  | some c =>
    simp only [Bool.and_eq_true] at hs
    have h1 := hs.1.1.1
    cases alpha with
    | none =>
      cases mw with
      | false =>
        simp only [Bool.false_eq_true, if_false, List.append_nil, List.foldl_nil]
        refine ⟨layer_len h1, fun y x hy hx => ?_⟩
        obtain ⟨v, hv⟩ := at_some h1 hy hx
        rw [layer_at h1 hx, hv]; rfl
      | true =>
        cases mask with
        | none => simp at hm
        | some m =>
          have h3 := hs.2
          simp only [if_true, List.append_nil, List.cons_append, List.nil_append, List.foldl_cons, List.foldl_nil]
          refine ⟨by rw [List.length_zipWith, List.length_map, layer_len h1, layer_len h3, Nat.min_self], fun y x hy hx => ?_⟩
          obtain ⟨v, hv⟩ := at_some h1 hy hx
          obtain ⟨v', hv'⟩ := at_some h3 hy hx
          rw [List.getElem?_zipWith, List.getElem?_map, layer_at h1 hx, layer_at h3 hx, hv, hv']; rfl
    | some a =>
      have h2 := hs.1.2
      cases mw with
      | false =>
        simp only [Bool.false_eq_true, if_false, List.append_nil, List.cons_append, List.nil_append, List.foldl_cons, List.foldl_nil]
        refine ⟨by rw [List.length_zipWith, List.length_map, layer_len h1, layer_len h2, Nat.min_self], fun y x hy hx => ?_⟩
        obtain ⟨v, hv⟩ := at_some h1 hy hx
        obtain ⟨v', hv'⟩ := at_some h2 hy hx
        rw [List.getElem?_zipWith, List.getElem?_map, layer_at h1 hx, layer_at h2 hx, hv, hv']; rfl
      | true =>
        cases mask with
        | none => simp at hm
        | some m =>
          have h3 := hs.2
          simp only [if_true, List.cons_append, List.nil_append, List.foldl_cons, List.foldl_nil]
          refine ⟨by rw [List.length_zipWith, List.length_zipWith, List.length_map, List.length_map, layer_len h1, layer_len h2, layer_len h3, Nat.min_self, Nat.min_self],
            fun y x hy hx => ?_⟩
          obtain ⟨v, hv⟩ := at_some h1 hy hx
          obtain ⟨v', hv'⟩ := at_some h2 hy hx
          obtain ⟨v'', hv''⟩ := at_some h3 hy hx
          rw [List.getElem?_zipWith, List.getElem?_zipWith, List.getElem?_map, List.getElem?_map, layer_at h1 hx, layer_at h2 hx, layer_at h3 hx, hv, hv', hv'']; rfl

theorem pixelBytes_length (L : Layers) (h w : Nat) (hs : L.shapeOk h w = true) (y x : Nat) (hy : y < h) (hx : x < w) :
    (pixelBytes L (maskWritten L) y x).length = bppOf L (maskWritten L) := by
  obtain ⟨rgb, alpha, mask⟩ := L
  have hm : mask = none → maskWritten ⟨rgb, alpha, mask⟩ = false := by rintro rfl; rfl
  generalize hmw : maskWritten ⟨rgb, alpha, mask⟩ = mw at *
  simp only [Layers.shapeOk, Bool.and_eq_true] at hs
  unfold pixelBytes bppOf
  simp only [List.length_append]
  congr 1
  · congr 1
    · cases rgb with
      | none => rfl
      | some c =>
        simp only [Bool.and_eq_true] at hs
        obtain ⟨v, hv⟩ := at_some hs.1.1.1 hy hx
        simp only [hv, Option.getD_some, Option.isSome_some, if_true]
        obtain ⟨r, hr, hvr⟩ := at_mem hv
        have := hs.1.1.2
        simp only [List.all_eq_true, decide_eq_true_eq] at this
        exact this r hr v hvr
    · cases alpha <;> simp
  · cases mw with
    | false => rfl
    | true =>
      cases mask with
      | none => simp at hm
      | some m => simp

/-- Pixels with the same layers have the same bytes. -/
theorem pixelBytes_eq (A B : Layers) (m : Bool) (i j y x : Nat) (a1 : A.rgb.map (at' · i j) = B.rgb.map (at' · y x))
    (a2 : A.alpha.map (at' · i j) = B.alpha.map (at' · y x)) (a3 : A.mask.map (at' · i j) = B.mask.map (at' · y x)) :
    pixelBytes A m i j = pixelBytes B m y x := by
  obtain ⟨r, a, k⟩ := A
  obtain ⟨r', a', k'⟩ := B
  simp only at a1 a2 a3
  unfold pixelBytes
  cases r <;> cases r' <;> simp only [Option.map_none, Option.map_some, reduceCtorEq, Option.some.injEq] at a1 <;>
  cases a <;> cases a' <;> simp only [Option.map_none, Option.map_some, reduceCtorEq, Option.some.injEq] at a2 <;>
  cases k <;> cases k' <;> simp only [Option.map_none, Option.map_some, reduceCtorEq, Option.some.injEq] at a3 <;>
  simp only [*]

/-- What the type byte says. -/
theorem infoByte_spec (L : Layers) : infoByte L < 128 ∧ infoByte L / 8 % 2 = 0 ∧ Info.bpp ⟨0, 0, 0, infoByte L⟩ = bppOf L (maskWritten L) ∧
    (infoByte L % 2 = 1 ↔ L.rgb.isSome) ∧ (infoByte L / 2 % 2 = 1 ↔ L.alpha.isSome) ∧ (infoByte L / 4 % 2 = 1 ↔ maskWritten L = true) := by
  unfold infoByte Info.bpp bppOf
  generalize L.rgb.isSome = a
  generalize L.alpha.isSome = b
  generalize maskWritten L = c
  revert a b c
  decide

/-- If the mask is left out, it has no colour in what is kept. -/
theorem mask_left_out (L : Layers) (h : maskWritten L = false) : ∀ m, L.mask = some m → ∀ y x v, at' m y x = some v → v = 0 := by
  intro m hm y x v hv
  unfold maskWritten at h
  rw [hm] at h
  simp only [Bool.or_eq_false_iff] at h
  obtain ⟨r, hr, hvr⟩ := at_mem hv
  have := h.2
  rw [List.any_eq_false] at this
  have := this r hr
  simp only [List.any_eq_true, not_exists, not_and, bne_iff_ne, ne_eq, Decidable.not_not] at this
  exact this v hvr

/-! ### Written graphics read back -/

/-- The picture, size, zoom and position of a written sprite can be read back: every pixel of the file is the pixel of the source at the same
place on the screen, every visible pixel of the source is there, and the mask is left out only if it is empty. The compression is any that
the decompression undoes. -/
theorem sprite_reads_back (compress : Bytes → Bytes) (hcomp : ∀ d r, decompress d.length (compress d ++ r) = some (d, r))
    (s : Params) (w h : Nat) (L : Layers) (bytes r : Bytes) (container : Nat) (hg : getRealData compress s w h L = some bytes) :
    ∃ rd pic, readHeader (bytes ++ r) = some rd ∧ decodeSprite rd.info container rd.rest = some (pic, r) ∧
      rd.zoom = s.zoom ∧ (rd.info.type % 2 = 1 ↔ L.rgb.isSome) ∧ (rd.info.type / 2 % 2 = 1 ↔ L.alpha.isSome) ∧
      pic.length = rd.info.height ∧ (∀ row ∈ pic, row.length = rd.info.width) ∧
      (∀ i j, i < rd.info.height → j < rd.info.width → ∃ y x : Nat, rd.yofs + i = s.yofs + y ∧ rd.xofs + j = s.xofs + x ∧
        at' pic i j = some (pixelBytes L (decide (rd.info.type / 4 % 2 = 1)) y x) ∧
        (rd.info.type / 4 % 2 = 0 → ∀ m, L.mask = some m → ∀ v, at' m y x = some v → v = 0)) ∧
      (∀ y x, y < h → x < w → Visible L y x → ∃ i j, i < rd.info.height ∧ j < rd.info.width ∧ rd.yofs + i = s.yofs + y ∧ rd.xofs + j = s.xofs + x ∧
        at' pic i j = some (pixelBytes L (decide (rd.info.type / 4 % 2 = 1)) y x)) := by
  unfold getRealData at hg
  split at hg
  · cases hg
  · next hs =>
    simp only [Bool.not_eq_true, Bool.not_eq_false'] at hs
    simp only [Option.bind_eq_bind, Option.bind_eq_some_iff] at hg
    obtain ⟨c, hc, hg⟩ := hg
    split at hg
    · cases hg
    · next hcond =>
      simp only [Bool.or_eq_true, not_or, Bool.not_eq_true, Bool.not_eq_true', Bool.not_eq_false] at hcond
      obtain ⟨hne, hcs⟩ := hcond
      simp only [Acts.cat_cons_iff, Acts.cat_nil_iff] at hg
      obtain ⟨b1, h1, _, ⟨b2, h2, _, ⟨b3, h3, _, ⟨b4, h4, _, ⟨b5, h5, _, ⟨b6, h6, _, ⟨b7, h7, _, rfl, rfl⟩, rfl⟩, rfl⟩, rfl⟩, rfl⟩, rfl⟩, rfl⟩ := hg
      simp only [Option.some.injEq] at h7
      subst h7
      obtain ⟨i1, i2, i3, i4, i5, i6⟩ := infoByte_spec c.layers
      obtain ⟨p1, p2⟩ := pixels_spec c.layers c.h c.w hcs hne
      have plen : ∀ p ∈ pixels c.layers, p.length = bppOf c.layers (maskWritten c.layers) := by
        intro p hp
        obtain ⟨k, hk, rfl⟩ := List.getElem_of_mem hp
        obtain ⟨y, x, hy, hx, rfl⟩ := index_split (h := c.h) (w := c.w) (k := k) (by rw [← p1]; exact hk)
        have := p2 y x hy hx
        rw [List.getElem?_eq_getElem hk] at this
        rw [Option.some.inj this]
        exact pixelBytes_length c.layers c.h c.w hcs y x hy hx
      have dlen : (pixels c.layers).flatten.length = c.w * c.h * bppOf c.layers (maskWritten c.layers) := by
        rw [flatten_length _ _ plen, p1, Nat.mul_comm c.h]
      have hrd : readHeader ((b1 ++ (b2 ++ (b3 ++ (b4 ++ (b5 ++ (b6 ++ (compress (pixels c.layers).flatten ++ []))))))) ++ r) =
          some ⟨⟨c.w * c.h * bppOf c.layers (maskWritten c.layers), c.w, c.h, infoByte c.layers⟩, s.zoom, s.xofs + c.x, s.yofs + c.y,
            compress (pixels c.layers).flatten ++ r⟩ := by
        simp only [List.append_assoc, List.append_nil]
        unfold readHeader
        rw [readU_packU h1]
        simp only [Option.bind_eq_bind, Option.bind_some]
        rw [readU_packU h2]
        simp only [Option.bind_some]
        rw [readU_packU h3]
        simp only [Option.bind_some]
        rw [readU_packU h4]
        simp only [Option.bind_some]
        rw [readS_packS h5]
        simp only [Option.bind_some]
        rw [readS_packS h6]
        simp only [Option.bind_some, Int.toNat_natCast]
        rw [if_neg (by omega), i3]
      refine ⟨_, rows c.w c.h (pixels c.layers), hrd, ?_, rfl, ?_, ?_, rows_length _ _ _, ?_, ?_, ?_⟩
      · unfold decodeSprite
        simp only
        rw [← dlen, hcomp]
        simp only [Option.bind_eq_bind, Option.bind_some]
        have hb : Info.bpp ⟨(pixels c.layers).flatten.length, c.w, c.h, infoByte c.layers⟩ = bppOf c.layers (maskWritten c.layers) := i3
        rw [if_neg (by omega), hb, if_pos dlen, reshape_flatten _ _ _ _ p1 plen]
      · rw [i4]
        unfold doCrop at hc
        split at hc
        · simp only [Option.map_eq_some_iff] at hc; obtain ⟨u, _, rfl⟩ := hc; simp
        · simp only [Option.some.injEq] at hc; subst hc; rfl
      · rw [i5]
        unfold doCrop at hc
        split at hc
        · simp only [Option.map_eq_some_iff] at hc; obtain ⟨u, _, rfl⟩ := hc; simp
        · simp only [Option.some.injEq] at hc; subst hc; rfl
      · exact rows_item _ _ _ p1
      all_goals
        have hbyte : ∀ i j, i < c.h → j < c.w → pixelBytes c.layers (maskWritten c.layers) i j =
            pixelBytes L (decide (infoByte c.layers / 4 % 2 = 1)) (c.y + i) (c.x + j) := by
          intro i j hi hj
          obtain ⟨a1, a2, a3⟩ := crop_same_pixels s.crop w h L c hc i j hi hj
          have hm : decide (infoByte c.layers / 4 % 2 = 1) = maskWritten c.layers := by
            cases hmw : maskWritten c.layers with
            | true => rw [hmw] at i6; simpa using i6
            | false => rw [hmw] at i6; simpa using i6
          rw [hm]
          exact pixelBytes_eq _ _ _ _ _ _ _ a1 a2 a3
      · intro i j hi hj
        refine ⟨c.y + i, c.x + j, by simp only; omega, by simp only; omega, ?_, ?_⟩
        · rw [rows_at _ _ _ _ _ hi hj, p2 i j hi hj, hbyte i j hi hj]
        · intro h0 m hm v hv
          have hmw : maskWritten c.layers = false := by
            cases hmw : maskWritten c.layers with
            | false => rfl
            | true => have := i6.mpr hmw; simp only at h0; omega
          obtain ⟨_, _, a3⟩ := crop_same_pixels s.crop w h L c hc i j hi hj
          rw [hm] at a3
          cases hx : c.layers.mask with
          | none => rw [hx] at a3; simp at a3
          | some m' =>
            rw [hx] at a3
            simp only [Option.map_some, Option.some.injEq] at a3
            exact mask_left_out c.layers hmw m' hx i j v (by rw [a3]; exact hv)
      · intro y x hy hx hv
        obtain ⟨v1, v2, v3, v4⟩ := crop_keeps_visible s.crop w h L c hc y x hy hx hv
        have hi : y - c.y < c.h := by omega
        have hj : x - c.x < c.w := by omega
        refine ⟨y - c.y, x - c.x, hi, hj, by simp only; omega, by simp only; omega, ?_⟩
        rw [rows_at _ _ _ _ _ hi hj, p2 _ _ hi hj, hbyte _ _ hi hj]
        have e1 : c.y + (y - c.y) = y := by omega
        have e2 : c.x + (x - c.x) = x := by omega
        rw [e1, e2]

/-- Which sprites are accepted: at least one layer, all of the given size, which is at most 65535 after cropping, offsets that fit 16 bits
after cropping. -/
theorem sprite_accepted_iff (compress : Bytes → Bytes) (s : Params) (w h : Nat) (L : Layers) (hw : 0 < w) (hh : 0 < h) :
    (getRealData compress s w h L).isSome ↔ L.shapeOk h w = true ∧ (L.rgb.isSome ∨ L.alpha.isSome ∨ L.mask.isSome) ∧ 0 ≤ s.zoom ∧ s.zoom < 256 ∧
      ∃ c, doCrop s.crop w h L = some c ∧ c.h < 65536 ∧ c.w < 65536 ∧ -32768 ≤ s.xofs + c.x ∧ s.xofs + c.x < 32768 ∧
        -32768 ≤ s.yofs + c.y ∧ s.yofs + c.y < 32768 := by
  have pu : ∀ (k : Nat) (v : Int), (packU k v).isSome ↔ 0 ≤ v ∧ v < (256 ^ k : Nat) := by intro k v; unfold packU; split <;> simp_all
  have ps : ∀ (k : Nat) (v : Int), (packS k v).isSome ↔ -(256 ^ k / 2 : Nat) ≤ v ∧ v < (256 ^ k / 2 : Nat) := by intro k v; unfold packS; split <;> simp_all
  have hcat : ∀ (l : List (Option Bytes)), (cat l).isSome ↔ ∀ x ∈ l, x.isSome := by
    intro l
    induction l with
    | nil => simp [cat]
    | cons x l ih =>
      cases x with
      | none => simp [cat]
      | some a => cases hc : cat l <;> rw [hc] at ih <;> simp [cat, hc] at ih ⊢ <;> exact ih
  unfold getRealData
  by_cases hs : L.shapeOk h w = true
  · simp only [hs, Bool.not_true, Bool.false_eq_true, if_false, true_and]
    cases hc : doCrop s.crop w h L with
    | none => simp
    | some c =>
      obtain ⟨_, _, hcs⟩ := crop_inside s.crop w h L c hs hw hh hc
      have hl : (c.layers.rgb.isNone && c.layers.alpha.isNone && c.layers.mask.isNone) = (L.rgb.isNone && L.alpha.isNone && L.mask.isNone) := by
        unfold doCrop at hc
        split at hc
        · simp only [Option.map_eq_some_iff] at hc; obtain ⟨u, _, rfl⟩ := hc; simp
        · simp only [Option.some.injEq] at hc; subst hc; rfl
      simp only [Option.bind_eq_bind, Option.bind_some, hcs, Bool.not_true, Bool.or_false, hl, Option.some.injEq, exists_eq_left']
      by_cases hn : (L.rgb.isNone && L.alpha.isNone && L.mask.isNone) = true
      · rw [if_pos hn]
        simp only [Bool.and_eq_true, Option.isNone_iff_eq_none] at hn
        simp [hn]
      · rw [if_neg hn, hcat]
        have hn' : L.rgb.isSome ∨ L.alpha.isSome ∨ L.mask.isSome := by
          cases h1 : L.rgb <;> cases h2 : L.alpha <;> cases h3 : L.mask <;> simp_all
        have hi := (infoByte_spec c.layers).1
        simp only [List.mem_cons, List.not_mem_nil, or_false, forall_eq_or_imp, forall_eq, pu, ps, Option.isSome_some, hn', true_and, and_true]
        constructor
        · rintro ⟨_, a, b, c', d, e⟩; simp only [Nat.reducePow, Nat.reduceDiv] at *; omega
        · intro h; simp only [Nat.reducePow, Nat.reduceDiv] at *; omega
  · simp [hs]

/-- A compression that the decompression undoes: literals only. -/
def store : Bytes → List Cmd
  | d => go (d.length + 1) d
where go : Nat → Bytes → List Cmd
  | 0, _ => []
  | n + 1, d => if d.isEmpty then [] else .literal (d.take 128) :: go n (d.drop 128)

theorem store_go (n : Nat) : ∀ d : Bytes, d.length < n → (∀ c ∈ store.go n d, c.ok) ∧ (∀ k, direct k (store.go n d) = true) ∧ sizes (store.go n d) = d.length ∧
    ∀ out, expand (store.go n d) out = some (out ++ d) := by
  induction n with
  | zero => intro d h; omega
  | succ n ih =>
    intro d h
    simp only [store.go]
    by_cases he : d.isEmpty
    · have : d = [] := by simpa using he
      subst this
      simp [direct, sizes, expand]
    · rw [if_neg he]
      have hpos : 0 < d.length := by
        apply Nat.pos_of_ne_zero; intro h0; exact he (by simpa using h0)
      obtain ⟨a1, a2, a3, a4⟩ := ih (d.drop 128) (by rw [List.length_drop]; omega)
      refine ⟨?_, ?_, ?_, ?_⟩
      · intro c hc
        rcases List.mem_cons.mp hc with rfl | hc
        · simp only [Cmd.ok, List.length_take]; omega
        · exact a1 c hc
      · intro k; simp [direct, Cmd.direct, a2]
      · rw [sizes_cons, a3]; simp only [Cmd.size, List.length_take, List.length_drop]; omega
      · intro out
        simp only [expand, Cmd.run, Option.bind_some, a4, List.append_assoc, List.take_append_drop]

theorem store_undone (d r : Bytes) : decompress d.length (encodeAll (store d) ++ r) = some (d, r) := by
  obtain ⟨a1, a2, a3, a4⟩ := store_go (d.length + 1) d (by omega)
  have e3 : sizes (store d) = d.length := a3
  obtain ⟨d', h1, h2⟩ := loop_direct (store d) d.length [] r a1 (a2 _) (Nat.le_of_eq e3)
  have e : expand (store d) [] = some d := a4 []
  rw [e] at h1
  cases h1
  unfold decompress
  rw [← e3] at h2 ⊢
  exact h2

/-- A sprite with all layers and transparent borders. -/
example : getRealData (fun d => encodeAll (store d)) ⟨-5, 3, 0, true⟩ 3 2
      ⟨some [[[1, 2, 3], [4, 5, 6], [0, 0, 0]], [[0, 0, 0], [7, 8, 9], [0, 0, 0]]], some [[0, 255, 0], [0, 128, 0]], some [[0, 0, 0], [0, 0xc6, 0]]⟩ =
    some [0x47, 0, 2, 0, 1, 0, 0xfc, 0xff, 3, 0, 10, 4, 5, 6, 255, 0, 7, 8, 9, 128, 0xc6] := by decide +kernel

end Grf.RealSprite
