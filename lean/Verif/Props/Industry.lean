import Verif.Model.Industry
import Verif.Proofs.Refs1
import Verif.Proofs.IdMap
/-!
# C59, C60: buildings of industries
-/
namespace Grf.Industry

/-! ### Specification: what is seen on the screen -/

/-- Screen position of the north corner of a tile: one step in x goes 32 pixels left and 16 down, one step in y 32 right and 16 down. -/
def screenX (t : Int × Int) : Int := 32 * (t.2 - t.1)
def screenY (t : Int × Int) : Int := 16 * (t.1 + t.2)

/-- Drawn on tile `t`, the sprite shows the pixel `(fx, fy)` of an image file at the screen position `(px, py)`. -/
def Shows (t : Int × Int) (s : Strip) (file : Nat) (fx fy px py : Int) : Prop :=
  s.file = file ∧ ∃ c r : Nat, c < s.w ∧ r < s.h ∧ fx = s.x + c ∧ fy = s.y + r ∧ px = screenX t + s.xofs + c ∧ py = screenY t + s.yofs + r

/-- The building drawn in one piece on its southern tile, its northern tile being `(x0, y0)`: which pixel of the file is at which position. The columns are those over the
tiles of the building, from 32 pixels left of its western corner to 32 right of its eastern one. -/
def Whole (b : Building) (x0 y0 : Int) (file : Nat) (fx fy px py : Int) : Prop :=
  b.src.file = file ∧ ∃ c r : Int, 1 - 32 * b.h ≤ b.src.xofs + c ∧ b.src.xofs + c ≤ 32 * b.w ∧ 0 ≤ r ∧ r < b.src.h ∧
    fx = b.src.x + c ∧ fy = b.src.y + r ∧ 
    px = screenX (x0 + b.w - 1, y0 + b.h - 1) + b.src.xofs + c ∧ py = screenY (x0 + b.w - 1, y0 + b.h - 1) + b.src.yofs + r

/-! ### A strip -/

/-- What is known of a piece of a strip. -/
structure Piece (s : Src) (lx ly x : Int) (w : Nat) (xofs yofs : Int) (left : Nat) (e : (Int × Int) × Strip) : Prop where
  file : e.2.file = s.file
  x : e.2.x = s.x + x
  w : e.2.w = w
  xofs : e.2.xofs = xofs
  diag : e.1.1 - e.1.2 = lx - ly
  tile : 1 ≤ e.1.1 ∧ e.1.1 ≤ lx ∧ 1 ≤ e.1.2 ∧ e.1.2 ≤ ly
  yofs : e.2.yofs + 16 * (e.1.1 + e.1.2) = s.yofs + yofs + 16 * (lx + ly) + (e.2.y - s.y)
  top : 0 ≤ e.2.y - s.y
  bottom : e.2.y - s.y + (e.2.h : Int) ≤ (left : Int)
  some : 0 < e.2.h
  low : e.2.h ≤ 231 ∨ e.1.1 = 1 ∨ e.1.2 = 1

theorem strip_pieces (s : Src) (x : Int) (w : Nat) (xofs : Int) : ∀ (left : Nat) (lx ly yofs : Int), 1 ≤ lx → 1 ≤ ly →
    (∀ e ∈ addStrip s lx ly x w xofs yofs left, Piece s lx ly x w xofs yofs left e) ∧
    (∀ r : Nat, r < left → ∃ e ∈ addStrip s lx ly x w xofs yofs left, e.2.y - s.y ≤ (r : Int) ∧ (r : Int) < e.2.y - s.y + (e.2.h : Int)) ∧
    (addStrip s lx ly x w xofs yofs left).Pairwise (fun e e' => e'.2.y + (e'.2.h : Int) ≤ e.2.y ∧ e'.1.1 < e.1.1) := by
  intro left
  induction left using Nat.strongRecOn with
  | _ left ih =>
    intro lx ly yofs h1 h2
    unfold addStrip
    by_cases hz : left = 0
    · simp [hz]
    · rw [dif_neg hz]
      simp only
      generalize hd : min (min (lx - 1) (ly - 1)) 7 = d
      have hd0 : 0 ≤ d := by omega
      by_cases hp : d = 0
      · subst hp
        simp only [if_true, Int.lt_irrefl, gt_iff_lt, if_false]
        refine ⟨?_, ?_, by simp⟩
        · intro e he
          rw [List.mem_singleton] at he
          subst he
          constructor <;> simp only <;> first | rfl | omega | skip
          all_goals simp
          all_goals omega
        · intro r hr
          exact ⟨_, List.mem_singleton.2 rfl, by simp, by simp; omega⟩
      · have hpos : d > 0 := by omega
        simp only [if_neg hp, if_pos hpos]
        obtain ⟨i1, i2, i3⟩ := ih (left - 231) (by omega) (lx - d) (ly - d) (yofs + d * 32) (by omega) (by omega)
        refine ⟨?_, ?_, ?_⟩
        · intro e he
          rcases List.mem_cons.1 he with rfl | he
          · exact ⟨rfl, rfl, rfl, rfl, rfl, by simp only; omega, by simp only; omega, by simp only; omega, by simp only; omega, by simp only; omega,
              .inl (by simp only; omega)⟩
          · have p := i1 e he
            have := p.tile; have := p.diag; have := p.yofs; have := p.bottom
            exact ⟨p.file, p.x, p.w, p.xofs, by omega, by omega, by omega, p.top, by omega, p.some, p.low⟩
        · intro r hr
          by_cases hq : r < left - 231
          · obtain ⟨e, he, h⟩ := i2 r hq
            exact ⟨e, List.mem_cons_of_mem _ he, h⟩
          · exact ⟨_, List.mem_cons_self, by simp only; omega, by simp only; omega⟩
        · refine List.pairwise_cons.2 ⟨?_, i3⟩
          intro e he
          have p := i1 e he
          have := p.tile; have := p.bottom
          constructor <;> simp only <;> omega

/-! ### All strips of a building -/

/-- The columns of pixels a building is cut into: tile, first column, width, offset. -/
def cuts (b : Building) : List (Int × Int × Int × Nat × Int × Int) :=
  (List.range (b.h - 1).toNat).map (fun (k : Nat) => (b.w, (k : Int) + 1, -b.src.xofs - 32 * (b.h - ((k : Int) + 1) + 1) + 1, 32, -31, (b.h - ((k : Int) + 1)) * 16)) ++
  [(b.w, b.h, -b.src.xofs - 31, 64, -31, 0)] ++
  (List.range (b.w - 1).toNat).map (fun (k : Nat) => (b.w - ((k : Int) + 1), b.h, -b.src.xofs + ((k : Int) + 1) * 32 + 1, 32, 1, ((k : Int) + 1) * 16))

theorem strips_cuts (b : Building) : strips b = (cuts b).flatMap fun c => addStrip b.src c.1 c.2.1 c.2.2.1 c.2.2.2.1 c.2.2.2.2.1 c.2.2.2.2.2 b.src.h := by
  unfold strips cuts
  rw [List.flatMap_append, List.flatMap_append]
  simp [List.flatMap_map]

/-- What is known of every cut: it is on the building's southern edges, aligned with the whole sprite. -/
theorem cut_spec {b : Building} (hw : 1 ≤ b.w) (hh : 1 ≤ b.h) {c : Int × Int × Int × Nat × Int × Int} (hc : c ∈ cuts b) :
    1 ≤ c.1 ∧ c.1 ≤ b.w ∧ 1 ≤ c.2.1 ∧ c.2.1 ≤ b.h ∧
    32 * (c.2.1 - c.1) + c.2.2.2.2.1 - c.2.2.1 = 32 * (b.h - b.w) + b.src.xofs ∧
    16 * (c.1 + c.2.1) + c.2.2.2.2.2 = 16 * (b.w + b.h) ∧
    1 - 32 * b.h ≤ b.src.xofs + c.2.2.1 ∧ b.src.xofs + c.2.2.1 + (c.2.2.2.1 : Int) ≤ 32 * b.w + 1 := by
  unfold cuts at hc
  simp only [List.mem_append, List.mem_map, List.mem_range, List.mem_singleton] at hc
  rcases hc with (⟨k, hk, rfl⟩ | rfl) | ⟨k, hk, rfl⟩ <;> simp only <;> omega

/-- The cuts cover every column. -/
theorem cut_cover {b : Building} (hw : 1 ≤ b.w) (hh : 1 ≤ b.h) (c : Int) (h1 : 1 - 32 * b.h ≤ b.src.xofs + c) (h2 : b.src.xofs + c ≤ 32 * b.w) :
    ∃ k ∈ cuts b, k.2.2.1 ≤ c ∧ c < k.2.2.1 + (k.2.2.2.1 : Int) := by
  unfold cuts
  by_cases q1 : b.src.xofs + c < -31
  · -- left part
    have hk : ((b.src.xofs + c + 32 * b.h - 1) / 32).toNat < (b.h - 1).toNat := by omega
    refine ⟨_, List.mem_append_left _ (List.mem_append_left _ (List.mem_map.2 ⟨((b.src.xofs + c + 32 * b.h - 1) / 32).toNat, List.mem_range.2 hk, rfl⟩)), ?_, ?_⟩ <;>
      simp only <;> omega
  · by_cases q2 : b.src.xofs + c < 33
    · exact ⟨_, List.mem_append_left _ (List.mem_append_right _ (List.mem_singleton.2 rfl)), by simp only; omega, by simp only; omega⟩
    · have hk : ((b.src.xofs + c - 33) / 32).toNat < (b.w - 1).toNat := by omega
      refine ⟨_, List.mem_append_right _ (List.mem_map.2 ⟨((b.src.xofs + c - 33) / 32).toNat, List.mem_range.2 hk, rfl⟩), ?_, ?_⟩ <;>
        simp only <;> omega

/-- The cuts are side by side, from left to right. -/
theorem cuts_pairwise (b : Building) : (cuts b).Pairwise fun k k' => k.2.2.1 + (k.2.2.2.1 : Int) ≤ k'.2.2.1 ∧ k'.1 - k'.2.1 < k.1 - k.2.1 := by
  unfold cuts
  rw [List.pairwise_append, List.pairwise_append]
  refine ⟨⟨?_, List.pairwise_singleton _ _, ?_⟩, ?_, ?_⟩
  · rw [List.pairwise_map]
    refine List.Pairwise.imp ?_ List.pairwise_lt_range
    intro i j hij
    simp only
    omega
  · intro k hk k' hk'
    obtain ⟨i, hi, rfl⟩ := List.mem_map.1 hk
    rw [List.mem_singleton] at hk'
    subst hk'
    rw [List.mem_range] at hi
    simp only; omega
  · rw [List.pairwise_map]
    refine List.Pairwise.imp ?_ List.pairwise_lt_range
    intro i j hij
    simp only
    omega
  · intro k hk k' hk'
    obtain ⟨j, hj, rfl⟩ := List.mem_map.1 hk'
    rw [List.mem_range] at hj
    rw [List.mem_append] at hk
    rcases hk with hk | hk
    · obtain ⟨i, hi, rfl⟩ := List.mem_map.1 hk
      rw [List.mem_range] at hi
      simp only; omega
    · rw [List.mem_singleton] at hk
      subst hk
      simp only; omega

/-- **C59** The strips together show exactly what the building in one piece shows: every pixel of the file at the same place. -/
theorem strips_show_whole (b : Building) (hw : 1 ≤ b.w) (hh : 1 ≤ b.h) (x0 y0 : Int) (file : Nat) (fx fy px py : Int) :
    (∃ e ∈ strips b, Shows (e.1.1 + x0 - 1, e.1.2 + y0 - 1) e.2 file fx fy px py) ↔ Whole b x0 y0 file fx fy px py := by
  rw [strips_cuts]
  constructor
  · rintro ⟨e, he, hf, c, r, hc, hr, rfl, rfl, rfl, rfl⟩
    obtain ⟨k, hk, he⟩ := List.mem_flatMap.1 he
    obtain ⟨a1, a2, a3, a4, a5, a6, a7, a8⟩ := cut_spec hw hh hk
    have p := (strip_pieces b.src k.2.2.1 k.2.2.2.1 k.2.2.2.2.1 b.src.h k.1 k.2.1 k.2.2.2.2.2 a1 a3).1 e he
    have p1 := p.x; have p2 := p.w; have p3 := p.xofs; have p4 := p.diag; have p6 := p.yofs; have p7 := p.top; have p8 := p.bottom
    refine ⟨p.file.symm.trans hf, k.2.2.1 + c, e.2.y - b.src.y + r, by omega, by omega, by omega, by omega, by omega, by omega, ?_, ?_⟩
    · unfold screenX; simp only; omega
    · unfold screenY; simp only; omega
  · rintro ⟨hf, c, r, h1, h2, h3, h4, rfl, rfl, rfl, rfl⟩
    obtain ⟨k, hk, q1, q2⟩ := cut_cover hw hh c h1 h2
    obtain ⟨a1, a2, a3, a4, a5, a6, a7, a8⟩ := cut_spec hw hh hk
    obtain ⟨s1, s2, -⟩ := strip_pieces b.src k.2.2.1 k.2.2.2.1 k.2.2.2.2.1 b.src.h k.1 k.2.1 k.2.2.2.2.2 a1 a3
    obtain ⟨e, he, r1, r2⟩ := s2 r.toNat (by omega)
    have p := s1 e he
    have p1 := p.x; have p2 := p.w; have p3 := p.xofs; have p4 := p.diag; have p6 := p.yofs; have p7 := p.top; have p8 := p.bottom
    refine ⟨e, List.mem_flatMap.2 ⟨k, hk, he⟩, p.file.trans hf, (c - k.2.2.1).toNat, (r - (e.2.y - b.src.y)).toNat, by omega, by omega, by omega, by omega, ?_, ?_⟩
    · unfold screenX; simp only; omega
    · unfold screenY; simp only; omega

/-- Two different strips never show a pixel at the same place, and are on different tiles. -/
theorem strips_pairwise (b : Building) (hw : 1 ≤ b.w) (hh : 1 ≤ b.h) :
    (strips b).Pairwise fun e e' => e.1 ≠ e'.1 ∧ ∀ f f' fx fy fx' fy' px py, ¬ (Shows e.1 e.2 f fx fy px py ∧ Shows e'.1 e'.2 f' fx' fy' px py) := by
  have key : ∀ k ∈ cuts b, ∀ e ∈ addStrip b.src k.1 k.2.1 k.2.2.1 k.2.2.2.1 k.2.2.2.2.1 k.2.2.2.2.2 b.src.h, ∀ f fx fy px py, Shows e.1 e.2 f fx fy px py →
      fx = px - screenX (b.w, b.h) - b.src.xofs + b.src.x ∧ fy = py - screenY (b.w, b.h) - b.src.yofs + b.src.y ∧
      b.src.x + k.2.2.1 ≤ fx ∧ fx < b.src.x + k.2.2.1 + (k.2.2.2.1 : Int) ∧ e.2.y ≤ fy ∧ fy < e.2.y + (e.2.h : Int) := by
    rintro k hk e he f fx fy px py ⟨-, c, r, hc, hr, rfl, rfl, rfl, rfl⟩
    obtain ⟨a1, a2, a3, a4, a5, a6, a7, a8⟩ := cut_spec hw hh hk
    have p := (strip_pieces b.src k.2.2.1 k.2.2.2.1 k.2.2.2.2.1 b.src.h k.1 k.2.1 k.2.2.2.2.2 a1 a3).1 e he
    have p1 := p.x; have p2 := p.w; have p3 := p.xofs; have p4 := p.diag; have p6 := p.yofs; have p7 := p.top; have p8 := p.bottom
    unfold screenX screenY
    simp only
    refine ⟨?_, ?_, ?_, ?_, ?_, ?_⟩ <;> omega
  rw [strips_cuts, List.pairwise_flatMap]
  constructor
  · intro k hk
    obtain ⟨a1, a2, a3, a4, a5, a6, a7, a8⟩ := cut_spec hw hh hk
    refine List.Pairwise.imp_of_mem ?_ (strip_pieces b.src k.2.2.1 k.2.2.2.1 k.2.2.2.2.1 b.src.h k.1 k.2.1 k.2.2.2.2.2 a1 a3).2.2
    rintro e e' he he' ⟨h1, h2⟩
    refine ⟨fun q => by rw [q] at h2; omega, ?_⟩
    rintro f f' fx fy fx' fy' px py ⟨s1, s2⟩
    have x1 := key k hk e he _ _ _ _ _ s1
    have x2 := key k hk e' he' _ _ _ _ _ s2
    omega
  · refine List.Pairwise.imp_of_mem ?_ (cuts_pairwise b)
    intro k k' hk hk' h e he e' he'
    obtain ⟨a1, a2, a3, a4, -⟩ := cut_spec hw hh hk
    obtain ⟨b1, b2, b3, b4, -⟩ := cut_spec hw hh hk'
    have p := (strip_pieces b.src k.2.2.1 k.2.2.2.1 k.2.2.2.2.1 b.src.h k.1 k.2.1 k.2.2.2.2.2 a1 a3).1 e he
    have p' := (strip_pieces b.src k'.2.2.1 k'.2.2.2.1 k'.2.2.2.2.1 b.src.h k'.1 k'.2.1 k'.2.2.2.2.2 b1 b3).1 e' he'
    constructor
    · intro q
      have d1 := p.diag; have d2 := p'.diag
      rw [q] at d1
      omega
    · rintro f f' fx fy fx' fy' px py ⟨s1, s2⟩
      have x1 := key k hk e he _ _ _ _ _ s1
      have x2 := key k' hk' e' he' _ _ _ _ _ s2
      omega

/-- **C59** Every strip is on a tile of the building, and no higher than 231 pixels unless its tile is on one of the northern edges. -/
theorem strips_on_tiles (b : Building) (hw : 1 ≤ b.w) (hh : 1 ≤ b.h) (e : (Int × Int) × Strip) (he : e ∈ strips b) :
    1 ≤ e.1.1 ∧ e.1.1 ≤ b.w ∧ 1 ≤ e.1.2 ∧ e.1.2 ≤ b.h ∧ 0 < e.2.h ∧ (e.2.h ≤ 231 ∨ e.1.1 = 1 ∨ e.1.2 = 1) := by
  rw [strips_cuts] at he
  obtain ⟨k, hk, he⟩ := List.mem_flatMap.1 he
  obtain ⟨a1, a2, a3, a4, -⟩ := cut_spec hw hh hk
  have p := (strip_pieces b.src k.2.2.1 k.2.2.2.1 k.2.2.2.2.1 b.src.h k.1 k.2.1 k.2.2.2.2.2 a1 a3).1 e he
  have := p.tile
  exact ⟨by omega, by omega, by omega, by omega, p.some, p.low⟩

/-- **C59** The strips show the pixels of the building's sprite (of width `width`) and nothing else of the file exactly if the sprite begins
at the western and ends at the eastern corner of the building's tiles. Otherwise something is cut off, or neighbouring pixels of the file
are shown. -/
theorem shows_sprite_iff (b : Building) (hw : 1 ≤ b.w) (hh : 1 ≤ b.h) (width : Nat) (hpos : 0 < b.src.h) :
    (∀ fx fy, (∃ e ∈ strips b, ∃ px py, Shows e.1 e.2 b.src.file fx fy px py) ↔
      b.src.x ≤ fx ∧ fx < b.src.x + width ∧ b.src.y ≤ fy ∧ fy < b.src.y + b.src.h) ↔
    b.src.xofs = 1 - 32 * b.h ∧ (width : Int) = 32 * (b.w + b.h) := by
  have key : ∀ fx fy, (∃ e ∈ strips b, ∃ px py, Shows e.1 e.2 b.src.file fx fy px py) ↔
      1 - 32 * b.h ≤ b.src.xofs + (fx - b.src.x) ∧ b.src.xofs + (fx - b.src.x) ≤ 32 * b.w ∧ 0 ≤ fy - b.src.y ∧ fy - b.src.y < b.src.h := by
    intro fx fy
    have e1 : ∀ t : Int × Int, (t.1 + 1 - 1, t.2 + 1 - 1) = t := fun t => by ext <;> simp only <;> omega
    have := fun px py => strips_show_whole b hw hh 1 1 b.src.file fx fy px py
    simp only [e1] at this
    constructor
    · rintro ⟨e, he, px, py, hs⟩
      obtain ⟨-, c, r, h1, h2, h3, h4, rfl, rfl, -, -⟩ := (this px py).1 ⟨e, he, hs⟩
      omega
    · rintro ⟨h1, h2, h3, h4⟩
      obtain ⟨e, he, hs⟩ := (this _ _).2 ⟨rfl, fx - b.src.x, fy - b.src.y, h1, h2, h3, h4, by omega, by omega, rfl, rfl⟩
      exact ⟨e, he, _, _, hs⟩
  simp only [key]
  constructor
  · intro h
    have a1 := (h (b.src.x - b.src.xofs + 1 - 32 * b.h) b.src.y).1 (by omega)
    have a2 := (h (b.src.x - b.src.xofs + 32 * b.w) b.src.y).1 (by omega)
    have a3 := (h b.src.x b.src.y).2 (by omega)
    have a4 := (h (b.src.x + width - 1) b.src.y).2 (by omega)
    omega
  · rintro ⟨h1, h2⟩ fx fy
    omega

/-! ### The dictionary of a building -/

theorem strips_keys (b : Building) (hw : 1 ≤ b.w) (hh : 1 ≤ b.h) : ((strips b).map (·.1)).Nodup := by
  rw [List.Nodup, List.pairwise_map]
  exact (strips_pairwise b hw hh).imp fun h => h.1

theorem building_fold (l : List ((Int × Int) × Strip)) : ∀ (t : List ((Int × Int) × Nat)) (sp : List Strip),
    ((l.foldl (fun (t, l) e => (dictSet t e.1 l.length, l ++ [e.2])) (t, sp)).2 = sp ++ l.map (·.2)) ∧
    ((l.map (·.1)).Nodup → ∀ k, (l.foldl (fun (t, l) e => (dictSet t e.1 l.length, l ++ [e.2])) (t, sp)).1.lookup k =
      if k ∈ l.map (·.1) then ((l.map (·.1)).idxOf? k).map (· + sp.length) else t.lookup k) := by
  induction l with
  | nil => intro t sp; simp
  | cons e l ih =>
    intro t sp
    obtain ⟨i1, i2⟩ := ih (dictSet t e.1 sp.length) (sp ++ [e.2])
    constructor
    · simp only [List.foldl_cons, i1, List.append_assoc, List.map_cons, List.singleton_append]
    · intro hn k
      simp only [List.map_cons, List.nodup_cons] at hn
      simp only [List.foldl_cons, List.map_cons, i2 hn.2 k, List.mem_cons, List.idxOf?_cons, lookup_dictSet]
      by_cases hk : k ∈ l.map (·.1)
      · have hne : e.1 ≠ k := fun q => hn.1 (q ▸ hk)
        rw [if_pos hk, if_pos (.inr hk)]
        simp only [beq_iff_eq, hne, if_false, Option.map_map, List.length_append, List.length_singleton]
        congr 1
        funext x
        simp only [Function.comp]
        omega
      · rw [if_neg hk]
        by_cases hke : k = e.1
        · subst hke; simp
        · simp [hk, hke]

/-- The numbers of a building's tiles: the tile of the n-th strip has number n. -/
theorem building_numbers (b : Building) (hw : 1 ≤ b.w) (hh : 1 ≤ b.h) :
    (buildingSprites b).2 = (strips b).map (·.2) ∧
    ∀ k n, (buildingSprites b).1.lookup k = some n ↔ ((strips b)[n]?).map (·.1) = some k := by
  unfold buildingSprites
  obtain ⟨h1, h2⟩ := building_fold (strips b) [] []
  refine ⟨by rw [h1]; rfl, fun k n => ?_⟩
  rw [h2 (strips_keys b hw hh) k]
  have hn := strips_keys b hw hh
  have e0 : ∀ o : Option Nat, o.map (· + ([] : List Strip).length) = o := by intro o; cases o <;> rfl
  rw [e0, ← List.getElem?_map]
  generalize (strips b).map (·.1) = ks at hn ⊢
  constructor
  · intro h
    split at h
    · rw [List.idxOf?_eq_some_iff] at h
      obtain ⟨hlt, he, -⟩ := h
      rw [List.getElem?_eq_getElem hlt, he]
    · simp at h
  · intro h
    obtain ⟨hlt, he⟩ := List.getElem?_eq_some_iff.1 h
    rw [if_pos (he ▸ List.getElem_mem hlt), List.idxOf?_eq_some_iff]
    refine ⟨hlt, he, fun j hj q => ?_⟩
    have := List.getElem_inj (h₀ := by omega) (h₁ := hlt) hn |>.1 (q.trans he.symm)
    omega

end Grf.Industry
