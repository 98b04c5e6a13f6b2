import Verif.Model.Restore
import Verif.Props.SpriteData
/-!
# C81: joining colours and opacity
-/
namespace Grf.Restore
open SpriteData (rows rows_of_flatten)

/-- What should be written: for each pixel of the layers, row by row, its colour and its opacity. -/
def interleaved (M : Int → UInt8) (rgb : Nat → Nat → Nat → Int) (alpha : Nat → Nat → Int) (h w : Nat) : List Bytes :=
  (List.range h).flatMap fun i => (List.range w).map fun j => [M (rgb i j 0), M (rgb i j 1), M (rgb i j 2), M (alpha i j)]

/-- A picture with three dimensions in memory: rows, columns, channels. -/
def at3 (a : Arr) (i j k : Nat) : Int :=
  a.addr + i * (a.strides.getD 0 0) + j * (a.strides.getD 1 0) + k * (a.strides.getD 2 0)

/-- A layer with two dimensions. -/
def at2 (a : Arr) (i j : Nat) : Int := a.addr + i * (a.strides.getD 0 0) + j * (a.strides.getD 1 0)

theorem flatMap_flatten {α β : Type} (l : List α) (f : α → List (List β)) : (l.flatMap f).flatten = l.flatMap fun a => (f a).flatten := by
  induction l with
  | nil => rfl
  | cons a l ih => simp [ih]

theorem grid_length {α : Type} (h w : Nat) (f : Nat → Nat → α) : ((List.range h).flatMap fun i => (List.range w).map fun j => f i j).length = h * w := by
  induction h with
  | zero => simp
  | succ h ih => rw [List.range_succ, List.flatMap_append, List.length_append, ih]; simp [Nat.add_mul]

theorem grid_rows (h w k : Nat) (f : Nat → Nat → Bytes) (hf : ∀ i j, (f i j).length = k) :
    rows k (h * w) (((List.range h).flatMap fun i => (List.range w).map fun j => f i j).flatten) = (List.range h).flatMap fun i => (List.range w).map fun j => f i j := by
  have := rows_of_flatten k ((List.range h).flatMap fun i => (List.range w).map fun j => f i j) [] (by
    intro p hp
    rw [List.mem_flatMap] at hp
    obtain ⟨i, -, hp⟩ := hp
    rw [List.mem_map] at hp
    obtain ⟨j, -, rfl⟩ := hp
    exact hf i j)
  rwa [grid_length, List.append_nil] at this

theorem flatMap_one {α β : Type} (l : List α) (f : α → β) : l.flatMap (fun a => [f a]) = l.map f := by
  induction l with
  | nil => rfl
  | cons a l ih => simp [ih]

theorem elems3 (M : Int → UInt8) (a : Int) (s0 s1 s2 : Int) (h w n : Nat) : (Arr.elems M ⟨a, [s0, s1, s2], [h, w, n]⟩) =
    ((List.range h).flatMap fun (i : Nat) => (List.range w).map fun (j : Nat) => (List.range n).map fun (k : Nat) => M (a + i * s0 + j * s1 + k * s2)).flatten := by
  rw [flatMap_flatten]
  simp only [Arr.elems, List.zip_cons_cons, List.zip_nil_right, elems]
  congr 1
  funext i
  rw [List.flatten_eq_flatMap, List.flatMap_map]
  congr 1
  funext j
  exact flatMap_one _ _

theorem elems2 (M : Int → UInt8) (a : Int) (s0 s1 : Int) (h w : Nat) : (Arr.elems M ⟨a, [s0, s1], [h, w]⟩) =
    ((List.range h).flatMap fun (i : Nat) => (List.range w).map fun (j : Nat) => [M (a + i * s0 + j * s1)]).flatten := by
  rw [flatMap_flatten]
  simp only [Arr.elems, List.zip_cons_cons, List.zip_nil_right, elems]
  simp only [List.flatten_eq_flatMap, List.flatMap_map, id_eq]

theorem join_grid (h w : Nat) (f g : Nat → Nat → Bytes) :
    joinColumns ((List.range h).flatMap fun i => (List.range w).map fun j => f i j) ((List.range h).flatMap fun i => (List.range w).map fun j => g i j) =
      (List.range h).flatMap fun i => (List.range w).map fun j => f i j ++ g i j := by
  unfold joinColumns
  induction h with
  | zero => rfl
  | succ h ih =>
    rw [List.range_succ, List.flatMap_append, List.flatMap_append, List.flatMap_append, List.zipWith_append, ih]
    · congr 1
      simp [List.zipWith_map]
    · rw [grid_length, grid_length]

/-- The layers as numpy hands them over: three channels of colour, one of opacity, of the same size. -/
def Layers (rgb alpha : Arr) (h w : Nat) : Prop :=
  (∃ s0 s1 s2, rgb.strides = [s0, s1, s2]) ∧ rgb.shape = [h, w, 3] ∧ (∃ s0 s1, alpha.strides = [s0, s1]) ∧ alpha.shape = [h, w]

/-- The layers are put together pixel by pixel whenever no original array is found. -/
theorem not_found (M : Int → UInt8) (same : Bool) (base : Option Arr) (rgb alpha : Arr) (h w : Nat) (hl : Layers rgb alpha h w)
    (hr : restore same base rgb alpha = some none) : composed M same base rgb alpha h w = some (interleaved M (at3 rgb) (at2 alpha) h w) := by
  unfold composed
  rw [hr]
  obtain ⟨a, st, sh⟩ := rgb
  obtain ⟨a', st', sh'⟩ := alpha
  obtain ⟨⟨s0, s1, s2, h1⟩, h2, ⟨t0, t1, h3⟩, h4⟩ := hl
  simp only at h1 h2 h3 h4
  subst h1 h2 h3 h4
  simp only [elems3, elems2]
  rw [grid_rows _ _ _ _ (by simp), grid_rows _ _ _ _ (by simp), join_grid]
  rfl

/-- An array with four channels is taken as it is. -/
theorem taken (M : Int → UInt8) (same : Bool) (base : Option Arr) (rgb alpha : Arr) (h w : Nat) (a : Arr) (s0 s1 s2 : Int) (hs : a.strides = [s0, s1, s2])
    (hw : a.shape = [h, w, 4]) (hr : restore same base rgb alpha = some (some a)) :
    composed M same base rgb alpha h w = some (interleaved M (at3 a) (fun i j => at3 a i j 3) h w) := by
  unfold composed
  rw [hr]
  obtain ⟨p, st, sh⟩ := a
  simp only at hs hw
  subst hs hw
  simp only [elems3]
  rw [grid_rows _ _ _ _ (by simp)]
  have hlen : (((List.range h).flatMap fun (i : Nat) => (List.range w).map fun (j : Nat) => (List.range 4).map fun (k : Nat) =>
      M (p + i * s0 + j * s1 + k * s2)).flatten).length = h * w * 4 := by
    have := SpriteData.flatten_length 4 ((List.range h).flatMap fun (i : Nat) => (List.range w).map fun (j : Nat) => (List.range 4).map fun (k : Nat) =>
      M (p + i * s0 + j * s1 + k * s2)) (by
        intro q hq
        rw [List.mem_flatMap] at hq
        obtain ⟨i, -, hq⟩ := hq
        rw [List.mem_map] at hq
        obtain ⟨j, -, rfl⟩ := hq
        simp)
    rw [this, grid_length]
  rw [if_pos hlen]
  rfl

/-- An RGBA picture as Pillow or numpy makes it. -/
def picture (addr : Int) (H W : Nat) : Arr := ⟨addr, [4 * W, 4, 1], [H, W, 4]⟩

/-- The colours of a part of the picture (`picture[y: y + h, x: x + w, :3]`). -/
def colours (addr : Int) (W y x h w : Nat) : Arr := ⟨addr + y * (4 * W) + x * 4, [4 * W, 4, 1], [h, w, 3]⟩

/-- Its opacity (`picture[y: y + h, x: x + w, 3]`). -/
def opacity (addr : Int) (W y x h w : Nat) : Arr := ⟨addr + y * (4 * W) + x * 4 + 3, [4 * W, 4], [h, w]⟩

theorem interleaved_congr (M : Int → UInt8) (h w : Nat) {f f' : Nat → Nat → Nat → Int} {g g' : Nat → Nat → Int} (hf : ∀ i j k, f i j k = f' i j k)
    (hg : ∀ i j, g i j = g' i j) : interleaved M f g h w = interleaved M f' g' h w := by
  have e1 : f = f' := by funext i j k; exact hf i j k
  have e2 : g = g' := by funext i j; exact hg i j
  rw [e1, e2]

/-- **C81.** Colours and opacity of any part of a picture are joined to the pixels of that part. -/
theorem part_exact (M : Int → UInt8) (addr : Int) (H W y x h w : Nat) (hh : 0 < h) (hw : 0 < w) (hy : y + h ≤ H) (hx : x + w ≤ W) :
    composed M true (some (picture addr H W)) (colours addr W y x h w) (opacity addr W y x h w) h w =
      some (interleaved M (at3 (colours addr W y x h w)) (at2 (opacity addr W y x h w)) h w) := by
  have hl : Layers (colours addr W y x h w) (opacity addr W y x h w) h w := ⟨⟨_, _, _, rfl⟩, rfl, ⟨_, _, rfl⟩, rfl⟩
  by_cases hr : restore true (some (picture addr H W)) (colours addr W y x h w) (opacity addr W y x h w) = some none
  · exact not_found M _ _ _ _ h w hl hr
  have hc : (colours addr W y x h w).contiguous = false := by
    cases e : (colours addr W y x h w).contiguous with
    | false => rfl
    | true => exact absurd (by unfold restore Arr.reported; rw [e]; simp [colours, opacity]) hr
  have hc2 : (opacity addr W y x h w).reported = some [4 * (W : Int), 4] := by
    cases e : (opacity addr W y x h w).contiguous with
    | false => unfold Arr.reported; rw [e]; rfl
    | true => exact absurd (by unfold restore Arr.reported; rw [e, hc]; simp [colours, opacity]) hr
  by_cases hs : H = h ∧ W = w
  · obtain ⟨rfl, rfl⟩ := hs
    have hy0 : y = 0 := by omega
    have hx0 : x = 0 := by omega
    subst hy0 hx0
    have hr2 : restore true (some (picture addr H W)) (colours addr W 0 0 H W) (opacity addr W 0 0 H W) = some (some (picture addr H W)) := by
      unfold restore
      rw [hc2]
      unfold Arr.reported
      rw [hc]
      simp [colours, opacity, picture]
    rw [taken M _ _ _ _ H W _ _ _ _ rfl rfl hr2]
    congr 1
    apply interleaved_congr
    · intro i j k; simp [at3, picture, colours]
    · intro i j; simp [at3, at2, picture, opacity]; omega
  · have hW : 0 < W := by omega
    have hflat : (colours addr W y x h w).addr - (picture addr H W).addr = ((y * (4 * W) + x * 4 : Nat) : Int) := by
      simp only [colours, picture]
      push_cast
      omega
    have f1 : ((y * (4 * W) + x * 4 : Nat) : Int).fdiv (4 * W) = y := by
      rw [Int.fdiv_eq_ediv_of_nonneg _ (by omega)]
      have : (y * (4 * W) + x * 4) / (4 * W) = y := by
        rw [Nat.mul_comm y, Nat.mul_add_div (by omega), Nat.div_eq_of_lt (by omega)]; rfl
      exact_mod_cast this
    have f2 : (((y * (4 * W) + x * 4 : Nat) : Int).fmod (4 * W)).fdiv 4 = x := by
      rw [Int.fmod_eq_emod_of_nonneg _ (by omega)]
      have : (y * (4 * W) + x * 4) % (4 * W) = x * 4 := by
        rw [Nat.mul_comm y, Nat.mul_add_mod, Nat.mod_eq_of_lt (by omega)]
      have e : ((y * (4 * W) + x * 4 : Nat) : Int) % (4 * W) = (x * 4 : Nat) := by exact_mod_cast this
      rw [e, Int.fdiv_eq_ediv_of_nonneg _ (by omega)]
      omega
    have f3 : (((y * (4 * W) + x * 4 : Nat) : Int).fmod 4).fdiv 1 = 0 := by
      rw [Int.fmod_eq_emod_of_nonneg _ (by omega), Int.fdiv_eq_ediv_of_nonneg _ (by omega)]
      have : y * (4 * W) = 4 * (y * W) := by rw [Nat.mul_left_comm]
      rw [this]
      omega
    have e1 : ¬ ((picture addr H W).shape.take 2 = (opacity addr W y x h w).shape) := by
      simp only [picture, opacity, List.take_succ_cons, List.take_zero, List.cons.injEq, and_true]
      exact hs
    have hr2 : restore true (some (picture addr H W)) (colours addr W y x h w) (opacity addr W y x h w) = some (some (slice3 addr (4 * W) 4 1 H W 4 y x 0 h w)) := by
      unfold restore
      rw [hc2]
      unfold Arr.reported
      rw [hc]
      simp only [Bool.not_true, Bool.false_eq_true, if_false, e1, hflat]
      simp only [colours, opacity, picture]
      rw [f1, f2, f3]
      have : ¬ (4 * (W : Int) = 0) := by omega
      simp [this]
    have e2 : slice3 addr (4 * W) 4 1 H W 4 y x 0 h w = ⟨addr + y * (4 * W) + x * 4 + 0 * 1, [4 * W, 4, 1], [h, w, 4]⟩ := by
      have d1 : sliceDim H (y : Int) h = (y, h) := by
        unfold sliceDim SpriteData.pyIndex
        rw [if_neg (by omega), if_neg (by omega)]
        simp only [Prod.mk.injEq]
        omega
      have d2 : sliceDim W (x : Int) w = (x, w) := by
        unfold sliceDim SpriteData.pyIndex
        rw [if_neg (by omega), if_neg (by omega)]
        simp only [Prod.mk.injEq]
        omega
      have d3 : sliceDim 4 (0 : Int) 4 = (0, 4) := rfl
      unfold slice3
      rw [d1, d2, d3]
      rfl
    rw [e2] at hr2
    rw [taken M _ _ _ _ h w _ _ _ _ rfl rfl hr2]
    congr 1
    apply interleaved_congr
    · intro i j k; simp [at3, colours]
    · intro i j; simp [at3, at2, opacity]; omega

/-- Layers of different arrays are joined pixel by pixel. -/
theorem separate_exact (M : Int → UInt8) (base : Option Arr) (rgb alpha : Arr) (h w : Nat) (hl : Layers rgb alpha h w) :
    composed M false base rgb alpha h w = some (interleaved M (at3 rgb) (at2 alpha) h w) :=
  not_found M false base rgb alpha h w hl rfl

/-- Colours and opacity of another arrangement of a picture: from any pixel on, with any steps. -/
def viewColours (a s0 s1 : Int) (h w : Nat) : Arr := ⟨a, [s0, s1, 1], [h, w, 3]⟩

/-- The opacity of that arrangement. -/
def viewOpacity (a s0 s1 : Int) (h w : Nat) : Arr := ⟨a + 3, [s0, s1], [h, w]⟩

theorem view_reported (a s0 s1 : Int) (h w : Nat) (hh : 0 < h) (hw : 1 < w) (h1 : s1 ≠ 1) (h3 : s1 ≠ 3) :
    (viewColours a s0 s1 h w).reported = some [s0, s1, 1] ∧ (viewOpacity a s0 s1 h w).reported = some [s0, s1] := by
  have hw1 : ¬ w = 1 := by omega
  have hh0 : ¬ 0 = h := by omega
  have hw0 : ¬ 0 = w := by omega
  constructor <;> unfold Arr.reported Arr.contiguous <;> simp [viewColours, viewOpacity, contiguousFrom, hw1, hh0, hw0, h1, h3]

/-- The boundary: an arrangement of all pixels of a picture is not noticed, the picture is written as it is. -/
theorem arrangement_lost (M : Int → UInt8) (addr a s0 s1 : Int) (h w : Nat) (hh : 0 < h) (hw : 1 < w) (h1 : s1 ≠ 1) (h3 : s1 ≠ 3) :
    composed M true (some (picture addr h w)) (viewColours a s0 s1 h w) (viewOpacity a s0 s1 h w) h w =
      some (interleaved M (at3 (picture addr h w)) (fun i j => at3 (picture addr h w) i j 3) h w) := by
  obtain ⟨r1, r2⟩ := view_reported a s0 s1 h w hh hw h1 h3
  apply taken M _ _ _ _ h w _ (4 * w) 4 1 rfl rfl
  unfold restore
  rw [r1, r2]
  simp [viewColours, viewOpacity, picture]

/-- So a mirrored picture is written unmirrored: what is written begins with the first pixel, not the last one of its row. -/
theorem mirrored_wrong (addr : Int) (h w : Nat) (hh : 0 < h) (hw : 1 < w) : ∃ M : Int → UInt8,
    composed M true (some (picture addr h w)) (viewColours (addr + 4 * (w - 1)) (4 * w) (-4) h w) (viewOpacity (addr + 4 * (w - 1)) (4 * w) (-4) h w) h w ≠
      some (interleaved M (at3 (viewColours (addr + 4 * (w - 1)) (4 * w) (-4) h w)) (at2 (viewOpacity (addr + 4 * (w - 1)) (4 * w) (-4) h w)) h w) := by
  refine ⟨fun p => if p = addr then 1 else 0, ?_⟩
  rw [arrangement_lost _ _ _ _ _ _ _ hh hw (by decide) (by decide)]
  obtain ⟨h, rfl⟩ : ∃ n, h = n + 1 := ⟨h - 1, by omega⟩
  obtain ⟨w, rfl⟩ : ∃ n, w = n + 1 := ⟨w - 1, by omega⟩
  intro e
  have e := Option.some.inj e
  unfold interleaved at e
  rw [List.range_succ_eq_map, List.range_succ_eq_map] at e
  simp only [List.flatMap_cons, List.map_cons, List.cons_append, List.cons.injEq] at e
  have e := e.1.1
  simp [at3, picture, viewColours] at e
  omega

/-- The other boundary: the parts of an array that was reshaped from one with another number of dimensions cannot be written. -/
theorem reshaped_fails (M : Int → UInt8) (b : Arr) (a s0 s1 : Int) (h w : Nat) (hh : 0 < h) (hw : 1 < w) (h1 : s1 ≠ 1) (h3 : s1 ≠ 3)
    (hb : b.shape.length = b.strides.length) (hd : b.shape.length ≠ 3) (h2 : b.shape.take 2 ≠ [h, w]) :
    composed M true (some b) (viewColours a s0 s1 h w) (viewOpacity a s0 s1 h w) h w = none := by
  obtain ⟨r1, r2⟩ := view_reported a s0 s1 h w hh hw h1 h3
  have : restore true (some b) (viewColours a s0 s1 h w) (viewOpacity a s0 s1 h w) = none := by
    unfold restore
    rw [r1, r2]
    have h2' : ¬ (b.shape.take 2 = (viewOpacity a s0 s1 h w).shape) := h2
    simp only [Bool.not_true, Bool.false_eq_true, if_false, h2']
    obtain ⟨ad, st, sh⟩ := b
    simp only at hb hd
    match sh, st, hb, hd with
    | [_, _, _], _, _, hd => exact absurd rfl hd
    | [], [], _, _ => simp [viewColours, viewOpacity]
    | [_], [_], _, _ => simp [viewColours, viewOpacity]
    | [_, _], [_, _], _, _ => simp [viewColours, viewOpacity]
    | _ :: _ :: _ :: _ :: _, _ :: _ :: _ :: _ :: _, _, _ => simp [viewColours, viewOpacity]
  unfold composed
  rw [this]

/-- Such an array: one that was read from a file and given the shape of a picture afterwards (`np.frombuffer(...).reshape(h, w, 4)`). -/
theorem buffer_fails (M : Int → UInt8) (addr : Int) (h w : Nat) (hh : 0 < h) (hw : 1 < w) :
    composed M true (some ⟨addr, [1], [h * w * 4]⟩) (colours addr w 0 0 h w) (opacity addr w 0 0 h w) h w = none := by
  have := reshaped_fails M ⟨addr, [1], [h * w * 4]⟩ addr (4 * w) 4 h w hh hw (by decide) (by decide) rfl (by simp) (by simp)
  simpa [colours, opacity, viewColours, viewOpacity] using this

/-- The middle pixel pair of a 2×3 picture. -/
example : composed (fun p => UInt8.ofNat p.toNat) true (some (picture 100 2 3)) (colours 100 3 1 1 1 2) (opacity 100 3 1 1 1 2) 1 2 =
    some [[116, 117, 118, 119], [120, 121, 122, 123]] := by decide +kernel

/-- A mirrored 1×2 picture comes out unmirrored. -/
example : composed (fun p => UInt8.ofNat p.toNat) true (some (picture 0 1 2)) (viewColours 4 8 (-4) 1 2) (viewOpacity 4 8 (-4) 1 2) 1 2 =
    some [[0, 1, 2, 3], [4, 5, 6, 7]] := by decide +kernel

end Grf.Restore
