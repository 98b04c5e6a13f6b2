import Verif.Model.Vox
import Verif.Spec.VoxSpec
/-!
# C73: voxel files are read as documented, and houses show the nearest voxel
-/
namespace Grf.Vox
open _root_.Spec.Vox

/-! ## Reading -/

theorem num4_eq (n : Nat) : num4 n = leBytes 4 n := by
  simp [num4, leBytes, Nat.div_div_eq_div_mul]

theorem readU_num4 (n : Nat) (h : n < 2 ^ 32) (t : Bytes) : readU 4 (num4 n ++ t) = some ((n : Int), t) := by
  rw [num4_eq]
  have hp : packU 4 (n : Int) = some (leBytes 4 n) := by
    unfold packU
    rw [if_pos ⟨by omega, by omega⟩]
    simp
  exact readU_packU hp t

theorem num4_length (n : Nat) : (num4 n).length = 4 := rfl

/-- What reading a chunk does to what was read before. -/
def step (r : Rd) : Chunk → Option Rd
  | .size x y z => some { r with size := some (y, x, z) }
  | .xyzi vs =>
    match r.size with
    | none => none
    | some (sy, sx, _) =>
      if ∃ q ∈ vs, q.2.2.2 = 0 then none
      else some { r with voxels := vs.map fun q => ⟨q.1.toNat + sy, ((sx : Int) - q.2.1.toNat) % 256, q.2.2.1.toNat, q.2.2.2.toNat⟩ }
  | .rgba cs _ => some { r with palette := some ([0, 0, 0, 0] :: cs.map four) }
  | .other _ _ _ => some r

theorem rows4_flat (vs : List (UInt8 × UInt8 × UInt8 × UInt8)) (t : Bytes) : rows4 vs.length (vs.flatMap four ++ t) = vs.map four := by
  induction vs with
  | nil => rfl
  | cons q vs ih =>
    simp only [List.length_cons, rows4, List.flatMap_cons, List.map_cons, List.append_assoc]
    have e : four q ++ (vs.flatMap four ++ t) = four q ++ (vs.flatMap four ++ t) := rfl
    rw [List.take_left' (by rfl), List.drop_left' (by rfl), ih]

theorem flat_length (vs : List (UInt8 × UInt8 × UInt8 × UInt8)) : (vs.flatMap four).length = 4 * vs.length := by
  induction vs with
  | nil => rfl
  | cons q vs ih => simp only [List.flatMap_cons, List.length_append, ih, List.length_cons]; simp [four]; omega

theorem ids : "SIZE".toUTF8.toList = idSize ∧ "XYZI".toUTF8.toList = idXyzi ∧ "RGBA".toUTF8.toList = idRgba := by decide +kernel

theorem chunk_split (id content t : Bytes) (children : Nat) (hi : id.length = 4) (hn : content.length < 2 ^ 32) :
    let f := chunkBytes id content children ++ t
    f ≠ [] ∧ ¬ f.length < 12 ∧ f.take 4 = id ∧ f.drop 12 = content ++ t ∧ f.drop (12 + leVal ((f.drop 4).take 4)) = t := by
  intro f
  have e : f = id ++ (num4 content.length ++ (num4 children ++ (content ++ t))) := by simp [f, chunkBytes]
  have l1 : (num4 content.length).length = 4 := rfl
  have l2 : (num4 children).length = 4 := rfl
  have ht : (f.drop 4).take 4 = num4 content.length := by
    rw [e, List.drop_left' hi, List.take_left' l1]
  have hd : f.drop 12 = content ++ t := by
    have : f = (id ++ num4 content.length ++ num4 children) ++ (content ++ t) := by rw [e]; simp
    rw [this]
    exact List.drop_left' (by simp [hi, l1, l2])
  refine ⟨?_, ?_, ?_, hd, ?_⟩
  · intro h; rw [e] at h; cases id <;> simp at h hi
  · rw [e]; simp [hi, l1, l2]; omega
  · rw [e]; exact List.take_left' hi
  · rw [ht, num4_eq, leVal_leBytes _ _ (by omega), ← List.drop_drop, hd]
    exact List.drop_left' rfl

theorem read_step (r : Rd) (c : Chunk) (hc : c.Ok) (t : Bytes) :
    readChunks r (c.bytes ++ t) = (step r c).bind fun r => readChunks r t := by
  obtain ⟨i1, i2, i3⟩ := ids
  have fin : ∀ (id content : Bytes) (children : Nat), id.length = 4 → content.length < 2 ^ 32 → readChunk r id (content ++ t) = step r c →
      readChunks r (chunkBytes id content children ++ t) = (step r c).bind fun r => readChunks r t := by
    intro id content children hi hn he
    obtain ⟨h1, h2, h3, h4, h5⟩ := chunk_split id content t children hi hn
    rw [readChunks, if_neg h1, dif_neg h2, h3, h4, h5, he]
    cases step r c <;> rfl
  cases c with
  | size x y z =>
    obtain ⟨hx, hy, hz⟩ := hc
    refine fin _ _ _ (by rw [i1]; rfl) (by simp [num4_length]) ?_
    rw [i1, readChunk, if_neg (by decide), if_pos rfl]
    simp only [readSize, List.append_assoc, readU_num4 _ hx, readU_num4 _ hy, readU_num4 _ hz, Option.bind_eq_bind, Option.bind_some]
    rfl
  | xyzi vs =>
    simp only [Chunk.Ok] at hc
    refine fin _ _ _ (by rw [i2]; rfl) (by rw [List.length_append, flat_length, num4_length]; omega) ?_
    rw [i2, readChunk, if_pos rfl]
    simp only [readXyzi, List.append_assoc, readU_num4 vs.length (by omega), Option.bind_eq_bind, Option.bind_some, Int.toNat_natCast]
    rw [if_neg (by rw [List.length_append, flat_length]; omega)]
    simp only [step]
    cases r.size with
    | none => rfl
    | some s =>
      obtain ⟨sy, sx, sz⟩ := s
      simp only [Option.bind_some, rows4_flat, List.map_map]
      have e : vs.map (voxelOf sy sx ∘ four) = vs.map fun q => (⟨q.1.toNat + sy, ((sx : Int) - q.2.1.toNat) % 256, q.2.2.1.toNat, q.2.2.2.toNat⟩ : Voxel) := by
        apply List.map_congr_left
        intro q _
        rfl
      rw [e]
      by_cases hz : ∃ q ∈ vs, q.2.2.2 = 0
      · rw [if_pos hz, if_neg]
        obtain ⟨q, hq, h0⟩ := hz
        simp only [List.all_eq_true, List.mem_map, Classical.not_forall]
        exact ⟨_, ⟨q, hq, rfl⟩, by simp [h0]⟩
      · rw [if_neg hz, if_pos]
        simp only [List.all_eq_true, List.mem_map]
        rintro _ ⟨q, hq, rfl⟩
        simp only [gt_iff_lt, decide_eq_true_eq]
        have : q.2.2.2 ≠ 0 := fun h => hz ⟨q, hq, h⟩
        have : q.2.2.2.toNat ≠ 0 := fun h => this (UInt8.toNat_inj.1 h)
        omega
  | rgba cs last =>
    simp only [Chunk.Ok] at hc
    refine fin _ _ _ (by rw [i3]; rfl) (by rw [List.length_append, flat_length, hc]; simp [four]) ?_
    rw [i3, readChunk, if_neg (by decide), if_neg (by decide), if_pos rfl]
    simp only [readRgba, List.append_assoc]
    rw [if_neg (by rw [List.length_append, flat_length, hc]; omega)]
    have := rows4_flat cs (four last ++ t)
    rw [hc] at this
    rw [this]
    rfl
  | other id content children =>
    obtain ⟨h1, h2, h3, h4⟩ := hc
    refine fin _ _ _ h1 h3 ?_
    simp only [i1, i2, i3, List.mem_cons, List.not_mem_nil, or_false, not_or] at h2
    simp only [readChunk, step]
    rw [if_neg h2.2.1, if_neg h2.1, if_neg h2.2.2]

/-- **C73** (reading). Of any file in the documented format, eight bytes and chunks, the reader takes the chunks one after the other; chunks
it does not know change nothing. -/
theorem reads_file (head : Bytes) (hh : head.length = 8) (cs : List Chunk) (hc : ∀ c ∈ cs, c.Ok) :
    read (head ++ cs.flatMap Chunk.bytes) = cs.foldlM step ⟨none, [], none⟩ := by
  unfold read
  rw [List.drop_left' hh]
  generalize (⟨none, [], none⟩ : Rd) = r
  induction cs generalizing r with
  | nil => rw [List.flatMap_nil, readChunks]; rfl
  | cons c cs ih =>
    rw [List.flatMap_cons, read_step r c (hc c (by simp)), List.foldlM_cons]
    cases step r c with
    | none => rfl
    | some r' => exact ih (fun c h => hc c (by simp [h])) r'

/-- **C73** (a whole file). A file with a size, voxels and colours, in this order and with anything else between, is read as these, unless a voxel has
colour 0. The second coordinate is mirrored; the first colour is number 1. -/
theorem reads_model (head : Bytes) (hh : head.length = 8) (a b c d : List Chunk) (sx sy sz : Nat) (vs cs : List (UInt8 × UInt8 × UInt8 × UInt8))
    (last : UInt8 × UInt8 × UInt8 × UInt8) (hcs : cs.length = 255) (hother : ∀ x ∈ a ++ b ++ c ++ d, ∃ id content n, x = .other id content n) (hok : ∀ x ∈ a ++ b ++ c ++ d, x.Ok) (hs : sx < 2 ^ 32 ∧ sy < 2 ^ 32 ∧ sz < 2 ^ 32)
    (hv : 4 * vs.length + 4 < 2 ^ 32) :
    read (head ++ (a ++ .size sx sy sz :: b ++ .xyzi vs :: c ++ .rgba cs last :: d).flatMap Chunk.bytes) =
      if ∃ q ∈ vs, q.2.2.2 = 0 then none
      else some ⟨some (sy, sx, sz), vs.map fun q => ⟨q.1.toNat + sy, ((sx : Int) - q.2.1.toNat) % 256, q.2.2.1.toNat, q.2.2.2.toNat⟩,
        some ([0, 0, 0, 0] :: cs.map four)⟩ := by
  rw [reads_file head hh]
  · have skip : ∀ (l : List Chunk), (∀ x ∈ l, ∃ id content n, x = Chunk.other id content n) → ∀ r, l.foldlM step r = some r := by
      intro l
      induction l with
      | nil => intro _ r; rfl
      | cons x l ih =>
        intro h r
        obtain ⟨id, content, n, rfl⟩ := h x (by simp)
        rw [List.foldlM_cons]
        exact ih (fun y hy => h y (by simp [hy])) r
    simp only [List.append_assoc, List.cons_append, List.foldlM_append, List.foldlM_cons, Option.bind_eq_bind]
    rw [skip a (fun x hx => hother x (by simp [hx]))]
    simp only [Option.bind_some, step]
    rw [skip b (fun x hx => hother x (by simp [hx]))]
    simp only [Option.bind_some]
    split
    · rfl
    · simp only [Option.bind_some]
      rw [skip c (fun x hx => hother x (by simp [hx]))]
      simp only [Option.bind_some]
      rw [skip d (fun x hx => hother x (by simp [hx]))]
  · intro x hx
    simp only [List.mem_append, List.mem_cons] at hx
    rcases hx with ((h | rfl | h) | rfl | h) | rfl | h
    · exact hok x (by simp [h])
    · exact hs
    · exact hok x (by simp [h])
    · exact hv
    · exact hok x (by simp [h])
    · exact hcs
    · exact hok x (by simp [h])

/-- A file with the outermost chunk, a size, one voxel and 255 times the same colour. -/
example : read ("VOX ".toUTF8.toList ++ [150, 0, 0, 0] ++ ([Chunk.other [77, 65, 73, 78] [] 1068] ++ Chunk.size 2 3 4 :: [] ++ Chunk.xyzi [(1, 2, 3, 79)] :: [] ++
      Chunk.rgba (List.replicate 255 (9, 8, 7, 255)) (0, 0, 0, 0) :: []).flatMap Chunk.bytes) =
    some ⟨some (3, 2, 4), [⟨4, 0, 3, 79⟩], some ([0, 0, 0, 0] :: List.replicate 255 [9, 8, 7, 255])⟩ := by
  rw [reads_model _ (by decide +kernel) _ _ _ _ _ _ _ _ _ _ (List.length_replicate)]
  · rw [if_neg (by simp)]
    simp only [List.map_replicate]
    rfl
  · simp
  · intro x hx
    simp only [List.append_nil, List.mem_singleton] at hx
    subst hx
    refine ⟨rfl, ?_, by decide, by decide⟩
    rw [ids.1, ids.2.1, ids.2.2]
    decide
  · decide
  · decide

/-! ## The nearest voxel -/

/-- Whether a voxel is seen at a pixel and with which side; voxels whose colour is 1 are never seen. -/
def seen (colour : Nat → Nat) (xmin ymin : Int) (v : Voxel) (X Y : Int) : Option Nat :=
  if colour v.i = 1 then none else coveredBy (X - ((corner v.x v.y v.z).1 - xmin)) (Y - ((corner v.x v.y v.z).2 - ymin))

theorem drawVoxel_at (depth : Voxel → Int) (colour : Nat → Nat) (xmin ymin : Int) (b : Buf) (v : Voxel) (X Y : Int) :
    drawVoxel depth colour xmin ymin b v X Y =
      match seen colour xmin ymin v X Y with
      | none => b X Y
      | some f =>
        match (b X Y).1 with
        | some old => if old ≥ depth v then b X Y else (some (depth v), colour v.i ||| f * 256)
        | none => (some (depth v), colour v.i ||| f * 256) := by
  unfold drawVoxel seen
  split
  · rfl
  · simp only [faces, List.foldl, corner, Voxel.px, Voxel.py]
    generalize v.x - v.y - xmin = p
    generalize v.x + v.y - 2 * v.z - ymin = q
    generalize depth v = d
    generalize colour v.i = c
    unfold setPixel coveredBy
    grind

/-- What the picture shows at a pixel after some voxels: nothing, if none of them is seen there; otherwise the nearest of those seen there, the first of
them if several are equally near. -/
def Shows (depth : Voxel → Int) (colour : Nat → Nat) (xmin ymin : Int) (vs : List Voxel) (X Y : Int) (value : Nat) : Prop :=
  (value = 0 ∧ ∀ u ∈ vs, seen colour xmin ymin u X Y = none) ∨
  ∃ l1 v l2 f, vs = l1 ++ v :: l2 ∧ seen colour xmin ymin v X Y = some f ∧ value = (colour v.i ||| f * 256) ∧
    (∀ u ∈ l1, seen colour xmin ymin u X Y ≠ none → depth u < depth v) ∧ ∀ u ∈ l2, seen colour xmin ymin u X Y ≠ none → depth u ≤ depth v

theorem draw_shows (depth : Voxel → Int) (colour : Nat → Nat) (xmin ymin : Int) (vs : List Voxel) (X Y : Int) :
    let b := vs.foldl (drawVoxel depth colour xmin ymin) fun _ _ => (none, 0)
    (b X Y = (none, 0) ∧ ∀ u ∈ vs, seen colour xmin ymin u X Y = none) ∨
    ∃ l1 v l2 f, vs = l1 ++ v :: l2 ∧ seen colour xmin ymin v X Y = some f ∧ b X Y = (some (depth v), colour v.i ||| f * 256) ∧
      (∀ u ∈ l1, seen colour xmin ymin u X Y ≠ none → depth u < depth v) ∧ ∀ u ∈ l2, seen colour xmin ymin u X Y ≠ none → depth u ≤ depth v := by
  intro b
  have key : ∀ (l done : List Voxel) (b : Buf),
      ((b X Y = (none, 0) ∧ ∀ u ∈ done, seen colour xmin ymin u X Y = none) ∨
        ∃ l1 v l2 f, done = l1 ++ v :: l2 ∧ seen colour xmin ymin v X Y = some f ∧ b X Y = (some (depth v), colour v.i ||| f * 256) ∧
          (∀ u ∈ l1, seen colour xmin ymin u X Y ≠ none → depth u < depth v) ∧ ∀ u ∈ l2, seen colour xmin ymin u X Y ≠ none → depth u ≤ depth v) →
      ((l.foldl (drawVoxel depth colour xmin ymin) b X Y = (none, 0) ∧ ∀ u ∈ done ++ l, seen colour xmin ymin u X Y = none) ∨
        ∃ l1 v l2 f, done ++ l = l1 ++ v :: l2 ∧ seen colour xmin ymin v X Y = some f ∧
          l.foldl (drawVoxel depth colour xmin ymin) b X Y = (some (depth v), colour v.i ||| f * 256) ∧
          (∀ u ∈ l1, seen colour xmin ymin u X Y ≠ none → depth u < depth v) ∧ ∀ u ∈ l2, seen colour xmin ymin u X Y ≠ none → depth u ≤ depth v) := by
    intro l
    induction l with
    | nil => intro done b h; simpa using h
    | cons w l ih =>
      intro done b h
      rw [List.foldl_cons, show done ++ w :: l = (done ++ [w]) ++ l by simp]
      apply ih
      rw [drawVoxel_at]
      cases hw : seen colour xmin ymin w X Y with
      | none =>
        rcases h with ⟨h1, h2⟩ | ⟨l1, v, l2, f, h1, h2, h3, h4, h5⟩
        · refine Or.inl ⟨h1, ?_⟩
          intro u hu
          rcases List.mem_append.1 hu with hu | hu
          · exact h2 u hu
          · rw [List.mem_singleton.1 hu]; exact hw
        · refine Or.inr ⟨l1, v, l2 ++ [w], f, by simp [h1], h2, h3, h4, ?_⟩
          intro u hu hs
          rcases List.mem_append.1 hu with hu | hu
          · exact h5 u hu hs
          · rw [List.mem_singleton.1 hu] at hs; exact absurd hw hs
      | some g =>
        rcases h with ⟨h1, h2⟩ | ⟨l1, v, l2, f, h1, h2, h3, h4, h5⟩
        · refine Or.inr ⟨done, w, [], g, rfl, hw, by simp [h1], ?_, by simp⟩
          intro u hu hs
          exact absurd (h2 u hu) hs
        · simp only [h3]
          by_cases hd : depth v ≥ depth w
          · rw [if_pos hd]
            refine Or.inr ⟨l1, v, l2 ++ [w], f, by simp [h1], h2, rfl, h4, ?_⟩
            intro u hu hs
            rcases List.mem_append.1 hu with hu | hu
            · exact h5 u hu hs
            · rw [List.mem_singleton.1 hu]; exact hd
          · rw [if_neg hd]
            refine Or.inr ⟨done, w, [], g, rfl, hw, rfl, ?_, by simp⟩
            intro u hu hs
            rw [h1] at hu
            rcases List.mem_append.1 hu with hu | hu
            · have := h4 u hu hs; omega
            · rcases List.mem_cons.1 hu with rfl | hu
              · omega
              · have := h5 u hu hs; omega
  simpa using key vs [] (fun _ _ => (none, 0)) (Or.inl ⟨rfl, by simp⟩)

/-- The least and the greatest of some numbers. -/
def Extremes (l : List Int) (lo hi : Int) : Prop := lo ∈ l ∧ hi ∈ l ∧ ∀ a ∈ l, lo ≤ a ∧ a ≤ hi

theorem bounds_iff (l : List Int) (lo hi : Int) : bounds l = some (lo, hi) ↔ Extremes l lo hi := by
  have key : ∀ (l : List Int) (a b : Int), (∀ x ∈ l, l.foldl min a ≤ x) ∧ l.foldl min a ≤ a ∧ (l.foldl min a = a ∨ l.foldl min a ∈ l) ∧
      (∀ x ∈ l, x ≤ l.foldl max b) ∧ b ≤ l.foldl max b ∧ (l.foldl max b = b ∨ l.foldl max b ∈ l) := by
    intro l
    induction l with
    | nil => intro a b; simp
    | cons c l ih =>
      intro a b
      obtain ⟨h1, h2, h3, h4, h5, h6⟩ := ih (min a c) (max b c)
      simp only [List.foldl_cons, List.mem_cons, forall_eq_or_imp]
      refine ⟨⟨by omega, h1⟩, by omega, ?_, ⟨by omega, h4⟩, by omega, ?_⟩
      · rcases h3 with h3 | h3
        · rw [h3]; rcases Int.le_total a c with h | h
          · left; omega
          · right; left; omega
        · exact Or.inr (Or.inr h3)
      · rcases h6 with h6 | h6
        · rw [h6]; rcases Int.le_total b c with h | h
          · right; left; omega
          · left; omega
        · exact Or.inr (Or.inr h6)
  have uniq : ∀ lo hi lo' hi', Extremes l lo hi → Extremes l lo' hi' → lo = lo' ∧ hi = hi' := by
    intro lo hi lo' hi' ⟨a1, a2, a3⟩ ⟨b1, b2, b3⟩
    have := a3 _ b1; have := a3 _ b2; have := b3 _ a1; have := b3 _ a2
    omega
  cases l with
  | nil => simp [bounds, Extremes]
  | cons a l =>
    obtain ⟨h1, h2, h3, h4, h5, h6⟩ := key l a a
    have hE : Extremes (a :: l) (l.foldl min a) (l.foldl max a) := by
      refine ⟨?_, ?_, ?_⟩
      · rcases h3 with h | h
        · rw [h]; simp
        · exact List.mem_cons_of_mem _ h
      · rcases h6 with h | h
        · rw [h]; simp
        · exact List.mem_cons_of_mem _ h
      · intro x hx
        rcases List.mem_cons.1 hx with rfl | hx
        · exact ⟨h2, h5⟩
        · exact ⟨h1 x hx, h4 x hx⟩
    simp only [bounds, Option.some.injEq, Prod.mk.injEq]
    constructor
    · rintro ⟨rfl, rfl⟩; exact hE
    · exact fun h => uniq _ _ _ _ hE h

/-- **C73** (drawing). A picture is made of any voxels but none at all. Its frame is the smallest that holds every cube, and at each pixel, inside it or not, it shows the
nearest of the voxels seen there, 0 where there is none. -/
theorem nearest_voxel (depth : Voxel → Int) (colour : Nat → Nat) (vs : List Voxel) :
    (load depth colour vs = none ↔ vs = []) ∧
    ∀ p, load depth colour vs = some p → ∃ xmin xmax ymin ymax,
      Extremes (vs.map fun v => (corner v.x v.y v.z).1) xmin xmax ∧ Extremes (vs.map fun v => (corner v.x v.y v.z).2) ymin ymax ∧
      (p.w : Int) = xmax - xmin + 2 ∧ (p.h : Int) = ymax - ymin + 3 ∧
      (∀ X Y : Nat, Shows depth colour xmin ymin vs X Y (p.at_ Y X)) ∧
      ∀ v ∈ vs, ∀ X Y f, seen colour xmin ymin v X Y = some f → 0 ≤ X ∧ X < p.w ∧ 0 ≤ Y ∧ Y < p.h := by
  cases vs with
  | nil => exact ⟨by simp [load, bounds], by intro p h; simp [load, bounds] at h⟩
  | cons v vs =>
    obtain ⟨⟨xmin, xmax⟩, hx⟩ : ∃ r, bounds ((v :: vs).map Voxel.px) = some r := ⟨_, rfl⟩
    obtain ⟨⟨ymin, ymax⟩, hy⟩ : ∃ r, bounds ((v :: vs).map Voxel.py) = some r := ⟨_, rfl⟩
    have hl : load depth colour (v :: vs) = some ⟨(xmax - xmin + 2).toNat, (ymax - ymin + 3).toNat,
        fun y x => ((v :: vs).foldl (drawVoxel depth colour xmin ymin) (fun _ _ => (none, 0)) x y).2⟩ := by
      unfold load
      rw [hx, hy]
      rfl
    rw [hl]
    refine ⟨by simp, ?_⟩
    rintro p hp
    obtain rfl := Option.some.inj hp
    have ex := (bounds_iff _ _ _).1 hx
    have ey := (bounds_iff _ _ _).1 hy
    have hlex : xmin ≤ xmax := (ex.2.2 _ ex.2.1).1
    have hley : ymin ≤ ymax := (ey.2.2 _ ey.2.1).1
    have ew : (((xmax - xmin + 2).toNat : Nat) : Int) = xmax - xmin + 2 := by omega
    have eh : (((ymax - ymin + 3).toNat : Nat) : Int) = ymax - ymin + 3 := by omega
    refine ⟨xmin, xmax, ymin, ymax, ex, ey, ew, eh, ?_, ?_⟩
    · intro X Y
      rcases draw_shows depth colour xmin ymin (v :: vs) X Y with ⟨h1, h2⟩ | ⟨l1, u, l2, f, h1, h2, h3, h4, h5⟩
      · exact Or.inl ⟨by simp only [h1], h2⟩
      · exact Or.inr ⟨l1, u, l2, f, h1, h2, by simp only [h3], h4, h5⟩
    · intro u hu X Y f hs
      have a1 := ex.2.2 u.px (List.mem_map_of_mem hu)
      have a2 := ey.2.2 u.py (List.mem_map_of_mem hu)
      unfold Voxel.px at a1
      unfold Voxel.py at a2
      unfold seen at hs
      split at hs
      · cases hs
      · simp only [corner, coveredBy] at hs
        simp only
        rw [ew, eh]
        grind

/-! ## The zooms -/

theorem cells_at (c y x : Nat) : ∀ (os : List (Nat × Nat)) (b : Nat → Nat → Nat) (Y X : Nat),
    os.foldl (fun b o => fun Y X => if Y = 2 * y + o.2 ∧ X = 4 * x + o.1 then c else b Y X) b Y X =
      if ∃ o ∈ os, Y = 2 * y + o.2 ∧ X = 4 * x + o.1 then c else b Y X := by
  intro os
  induction os with
  | nil => intro b Y X; simp
  | cons o os ih =>
    intro b Y X
    rw [List.foldl_cons, ih]
    simp only [List.mem_cons, exists_eq_or_imp]
    by_cases h1 : ∃ o ∈ os, Y = 2 * y + o.2 ∧ X = 4 * x + o.1
    · rw [if_pos h1, if_pos (Or.inr h1)]
    · rw [if_neg h1]
      by_cases h2 : Y = 2 * y + o.2 ∧ X = 4 * x + o.1
      · rw [if_pos h2, if_pos (Or.inl h2)]
      · rw [if_neg h2, if_neg (fun h => h.elim h2 h1)]

theorem side_range (s : Nat) : ∀ o ∈ sidePixels s, o.1 < 4 ∧ o.2 < 3 := by
  unfold sidePixels
  split <;> decide

theorem cell_at (pal : Nat → Nat) (p : Pic) (y : Nat) (b : Nat → Nat → Nat) (x Y X : Nat) :
    drawCell pal p y b x Y X =
      if X / 4 = x ∧ 2 * y ≤ Y ∧ (X % 4, Y - 2 * y) ∈ sidePixels (side p y x) then pal (p.at_ y x) else b Y X := by
  unfold drawCell
  rw [cells_at]
  congr 1
  apply propext
  constructor
  · rintro ⟨o, ho, rfl, rfl⟩
    have := side_range _ o ho
    refine ⟨by omega, by omega, ?_⟩
    have e : ((4 * x + o.1) % 4, 2 * y + o.2 - 2 * y) = o := Prod.ext (by simp only; omega) (by simp only; omega)
    rw [e]; exact ho
  · rintro ⟨h1, h2, h3⟩
    exact ⟨_, h3, by simp only; omega, by simp only; omega⟩

theorem row_at (pal : Nat → Nat) (p : Pic) (y : Nat) (Y X : Nat) : ∀ (n : Nat) (b : Nat → Nat → Nat),
    (List.range n).foldl (drawCell pal p y) b Y X =
      if X / 4 < n ∧ 2 * y ≤ Y ∧ (X % 4, Y - 2 * y) ∈ sidePixels (side p y (X / 4)) then pal (p.at_ y (X / 4)) else b Y X := by
  intro n
  induction n with
  | zero => intro b; simp
  | succ n ih =>
    intro b
    rw [List.range_succ, List.foldl_append, List.foldl_cons, List.foldl_nil, cell_at, ih]
    by_cases h : X / 4 = n
    · subst h
      simp only [Nat.lt_irrefl, false_and, if_false, true_and, Nat.lt_succ_self]
    · simp only [h, false_and, if_false]
      have : X / 4 < n + 1 ↔ X / 4 < n := by omega
      simp only [this]

theorem zoom4_cells (pal : Nat → Nat) (p : Pic) (Y X : Nat) : ∀ n,
    (List.range n).foldl (fun b y => (List.range p.w).foldl (drawCell pal p y) b) (fun _ _ => 0) Y X =
      if X / 4 < p.w ∧ Y / 2 < n ∧ (X % 4, Y % 2) ∈ sidePixels (side p (Y / 2) (X / 4)) then pal (p.at_ (Y / 2) (X / 4))
      else if X / 4 < p.w ∧ 2 ≤ Y ∧ Y % 2 = 0 ∧ Y / 2 ≤ n ∧ (X % 4, 2) ∈ sidePixels (side p (Y / 2 - 1) (X / 4)) then pal (p.at_ (Y / 2 - 1) (X / 4))
      else 0 := by
  intro n
  induction n with
  | zero =>
    rw [List.range_zero, List.foldl_nil, if_neg (by omega), if_neg (by omega)]
  | succ n ih =>
    rw [List.range_succ, List.foldl_append, List.foldl_cons, List.foldl_nil, row_at, ih]
    by_cases h1 : Y / 2 = n
    · have e : Y - 2 * n = Y % 2 := by omega
      have g1 : 2 * n ≤ Y := by omega
      have g2 : ¬ Y / 2 < n := by omega
      have g3 : Y / 2 < n + 1 := by omega
      have g4 : Y / 2 ≤ n := by omega
      have g5 : Y / 2 ≤ n + 1 := by omega
      rw [e, h1]
      have g6 : n < n + 1 := by omega
      have g7 : n ≤ n + 1 := by omega
      simp only [g1, g6, g7, Nat.lt_irrefl, Nat.le_refl, true_and, false_and, and_false, if_false]
    · by_cases h2 : Y / 2 < n
      · have g1 : ¬ 2 * n ≤ Y := by omega
        have g3 : Y / 2 < n + 1 := by omega
        have g4 : Y / 2 ≤ n := by omega
        have g5 : Y / 2 ≤ n + 1 := by omega
        simp only [g1, g3, g4, g5, h2, true_and, false_and, and_false, if_false]
      · have g1 : 2 * n ≤ Y := by omega
        have g2 : ¬ Y / 2 < n + 1 := by omega
        have g4 : ¬ Y / 2 ≤ n := by omega
        simp only [g1, g2, g4, h2, true_and, false_and, and_false, if_false]
        by_cases h3 : Y = 2 * n + 2
        · subst h3
          have e1 : (2 * n + 2) / 2 - 1 = n := by omega
          have e2 : 2 * n + 2 - 2 * n = 2 := by omega
          have e3 : (2 * n + 2) / 2 ≤ n + 1 := by omega
          have e4 : (2 * n + 2) % 2 = 0 := by omega
          have e5 : 2 ≤ 2 * n + 2 := by omega
          simp only [e1, e2, e3, e4, e5, true_and]
        · rw [if_neg, if_neg]
          · intro h; omega
          · intro h
            have := (side_range _ _ h.2).2
            simp only at this
            omega

/-- The half of the row above its own that a pixel of the picture fills when it is drawn four times as wide, and the half of the row below: left or
right, by its pattern. -/
def rightAbove (s : Nat) : Bool := s == 0 || s == 3
def rightBelow (s : Nat) : Bool := s == 0 || s == 2

theorem patterns (s : Nat) (hs : s < 4) (o : Nat) (ho : o < 4) :
    (o, 1) ∈ sidePixels s ∧ ((o, 0) ∈ sidePixels s ↔ (2 ≤ o ↔ rightAbove s = true)) ∧ ((o, 2) ∈ sidePixels s ↔ (2 ≤ o ↔ rightBelow s = true)) := by
  have h1 : s = 0 ∨ s = 1 ∨ s = 2 ∨ s = 3 := by omega
  have h2 : o = 0 ∨ o = 1 ∨ o = 2 ∨ o = 3 := by omega
  rcases h1 with rfl | rfl | rfl | rfl <;> rcases h2 with rfl | rfl | rfl | rfl <;> decide

theorem and_bit (v i : Nat) : v &&& 2 ^ i = v / 2 ^ i % 2 * 2 ^ i := by
  apply Nat.eq_of_testBit_eq
  intro j
  rw [Nat.testBit_and, Nat.testBit_two_pow]
  have h2 : v / 2 ^ i % 2 = 0 ∨ v / 2 ^ i % 2 = 1 := by omega
  have hb : v.testBit i = decide (v / 2 ^ i % 2 = 1) := Nat.testBit_eq_decide_div_mod_eq
  by_cases h : i = j
  · subst h
    rcases h2 with h | h <;> simp [hb, h]
  · rcases h2 with h' | h' <;> simp [h, h']

theorem bit9 (v : Nat) : v &&& 0x200 = v / 512 % 2 * 512 := and_bit v 9
theorem bit8 (v : Nat) : v &&& 0x100 = v / 256 % 2 * 256 := and_bit v 8

theorem side_lt (p : Pic) (y x : Nat) (h : p.at_ y x < 1024) : side p y x < 4 := by
  have key : ∀ s : Fin 4, s.val ^^^ 3 < 4 ∧ s.val ^^^ 2 < 4 ∧ (s.val ^^^ 3) ^^^ 2 < 4 := by decide
  have k := key ⟨p.at_ y x / 256, by omega⟩
  simp only at k
  simp only [side]
  split
  · split <;> split <;> omega
  · omega

theorem halves (p : Pic) (y x : Nat) (h : p.at_ y x < 1024) (hd : p.at_ (y + 1) x < 1024) (hu : p.at_ (y - 1) x < 1024) :
    rightBelow (side p y x) = (if 2 ≤ p.at_ y x / 256 ∧ y + 1 < p.h ∧ p.at_ (y + 1) x ≠ 0 ∧ p.at_ (y + 1) x / 256 < 2 ∧
        p.at_ (y + 1) x / 256 % 2 = p.at_ y x / 256 % 2 then !rightBelow (p.at_ y x / 256) else rightBelow (p.at_ y x / 256)) ∧
    rightAbove (side p y x) = (if 2 ≤ p.at_ y x / 256 ∧ 0 < y ∧ p.at_ (y - 1) x ≠ 0 ∧ 2 ≤ p.at_ (y - 1) x / 256 ∧
        p.at_ (y - 1) x / 256 % 2 ≠ p.at_ y x / 256 % 2 then !rightAbove (p.at_ y x / 256) else rightAbove (p.at_ y x / 256)) := by
  have key : ∀ s : Fin 4, rightBelow (s.val ^^^ 3) = !rightBelow s.val ∧ rightBelow (s.val ^^^ 2) = rightBelow s.val ∧
      rightBelow ((s.val ^^^ 3) ^^^ 2) = !rightBelow s.val ∧ rightAbove (s.val ^^^ 3) = rightAbove s.val ∧
      rightAbove (s.val ^^^ 2) = !rightAbove s.val ∧ rightAbove ((s.val ^^^ 3) ^^^ 2) = !rightAbove s.val := by decide
  obtain ⟨k1, k2, k3, k4, k5, k6⟩ := key ⟨p.at_ y x / 256, by omega⟩
  simp only at k1 k2 k3 k4 k5 k6
  have e1 : (p.at_ y x &&& 0x200 > 0) ↔ 2 ≤ p.at_ y x / 256 := by rw [bit9]; omega
  have e2 : (y + 1 < p.h ∧ p.at_ (y + 1) x ≠ 0 ∧ p.at_ (y + 1) x &&& 0x200 = 0 ∧ p.at_ (y + 1) x &&& 0x100 = p.at_ y x &&& 0x100) ↔
      (y + 1 < p.h ∧ p.at_ (y + 1) x ≠ 0 ∧ p.at_ (y + 1) x / 256 < 2 ∧ p.at_ (y + 1) x / 256 % 2 = p.at_ y x / 256 % 2) := by
    rw [bit9, bit8, bit8]; omega
  have e3 : (y > 0 ∧ p.at_ (y - 1) x ≠ 0 ∧ p.at_ (y - 1) x &&& 0x200 > 0 ∧ p.at_ (y - 1) x &&& 0x100 ≠ p.at_ y x &&& 0x100) ↔
      (0 < y ∧ p.at_ (y - 1) x ≠ 0 ∧ 2 ≤ p.at_ (y - 1) x / 256 ∧ p.at_ (y - 1) x / 256 % 2 ≠ p.at_ y x / 256 % 2) := by
    rw [bit9, bit8, bit8]; omega
  simp only [side, e1, e2, e3]
  by_cases c1 : 2 ≤ p.at_ y x / 256
  · rw [if_pos c1]
    simp only [c1, true_and]
    split <;> split <;> simp_all
  · rw [if_neg c1]
    simp only [c1, false_and, if_false, and_self]

/-- Every voxel's corner is on a pixel of the same colour of a chessboard. -/
theorem corner_parity (x y z : Int) : (corner x y z).1 % 2 = (corner x y z).2 % 2 := by
  simp only [corner]; omega

theorem covered_cases {dx dy : Int} {f : Nat} (h : coveredBy dx dy = some f) :
    (dx = 0 ∧ dy = 0 ∧ f = 0) ∨ (dx = 1 ∧ dy = 0 ∧ f = 1) ∨ (dx = 0 ∧ (dy = 1 ∨ dy = 2) ∧ f = 2) ∨ (dx = 1 ∧ (dy = 1 ∨ dy = 2) ∧ f = 3) := by
  unfold coveredBy at h
  split at h
  · simp at h; omega
  · split at h
    · simp at h; omega
    · split at h
      · simp at h; omega
      · split at h
        · simp at h; omega
        · cases h

theorem covered_ne {dx dy : Int} (h : (dx = 0 ∨ dx = 1) ∧ 0 ≤ dy ∧ dy ≤ 2) : coveredBy dx dy ≠ none := by
  have h1 : dy = 0 ∨ dy = 1 ∨ dy = 2 := by omega
  obtain ⟨h2, _⟩ := h
  rcases h1 with rfl | rfl | rfl <;> rcases h2 with rfl | rfl <;> decide

theorem face_of (c f : Nat) (hc : c < 256) (hf : f < 4) : (c ||| f * 256) / 256 = f ∧ (c ||| f * 256) < 1024 := by
  have e : c ||| f * 256 = c + f * 256 := by
    rw [Nat.or_comm, Nat.mul_comm, show (256 : Nat) = 2 ^ 8 from rfl, ← Nat.two_pow_add_eq_or_of_lt hc]
    omega
  rw [e]; omega

/-- Two different voxels never hide each other: of two that are both seen at two pixels, the same one is shown at both. -/
theorem same_order (depth : Voxel → Int) (s t : Voxel → Prop) (vs l1 l2 m1 m2 : List Voxel) (v u : Voxel) (hv : vs = l1 ++ v :: l2) (hu : vs = m1 ++ u :: m2)
    (hvt : t v) (hus : s u) (hne : u ≠ v)
    (h1 : ∀ w ∈ l1, s w → depth w < depth v) (h2 : ∀ w ∈ l2, s w → depth w ≤ depth v)
    (h3 : ∀ w ∈ m1, t w → depth w < depth u) (h4 : ∀ w ∈ m2, t w → depth w ≤ depth u) : False := by
  have hle1 : depth u ≤ depth v := by
    have : u ∈ l1 ++ v :: l2 := by rw [← hv, hu]; simp
    rcases List.mem_append.1 this with h | h
    · exact Int.le_of_lt (h1 u h hus)
    · rcases List.mem_cons.1 h with h | h
      · exact absurd h hne
      · exact h2 u h hus
  have hle2 : depth v ≤ depth u := by
    have : v ∈ m1 ++ u :: m2 := by rw [← hu, hv]; simp
    rcases List.mem_append.1 this with h | h
    · exact Int.le_of_lt (h3 v h hvt)
    · rcases List.mem_cons.1 h with h | h
      · exact absurd h.symm hne
      · exact h4 v h hvt
  rw [hv] at hu
  rcases List.append_eq_append_iff.1 hu with ⟨a, e1, e2⟩ | ⟨a, e1, e2⟩
  · cases a with
    | nil => simp at e2; exact hne e2.1.symm
    | cons w a =>
      simp at e2
      have : v ∈ m1 := by rw [e1, e2.1]; simp
      have := h3 v this hvt
      omega
  · cases a with
    | nil => simp at e2; exact hne e2.1
    | cons w a =>
      simp at e2
      have : u ∈ l1 := by rw [e1, e2.1]; simp
      have := h1 u this hus
      omega

/-- What is below the top of a cube: never another half of a top on the same side, nor the other side's wall. -/
theorem below_top (depth : Voxel → Int) (colour : Nat → Nat) (xmin ymin : Int) (vs : List Voxel) (hc : ∀ v ∈ vs, 0 < colour v.i ∧ colour v.i < 256) (X Y : Int) (a b : Nat)
    (ha : Shows depth colour xmin ymin vs X Y a) (hb : Shows depth colour xmin ymin vs X (Y + 1) b) (ha0 : a ≠ 0) (hb0 : b ≠ 0) :
    a < 1024 ∧ b < 1024 ∧ ¬ (a / 256 = 0 ∧ (b / 256 = 0 ∨ b / 256 = 3)) ∧ ¬ (a / 256 = 1 ∧ (b / 256 = 1 ∨ b / 256 = 2)) := by
  rcases ha with ⟨h, _⟩ | ⟨l1, v, l2, f, hv, hvs, hva, h1, h2⟩
  · exact absurd h ha0
  rcases hb with ⟨h, _⟩ | ⟨m1, u, m2, g, hu, hus, hub, h3, h4⟩
  · exact absurd h hb0
  have cv := hc v (by rw [hv]; simp)
  have cu := hc u (by rw [hu]; simp)
  have key := same_order depth (fun w => seen colour xmin ymin w X Y ≠ none) (fun w => seen colour xmin ymin w X (Y + 1) ≠ none) vs l1 l2 m1 m2 v u hv hu
  have hvs' := hvs
  have hus' := hus
  unfold seen at hvs' hus'
  split at hvs'
  · cases hvs'
  rename_i nv
  split at hus'
  · cases hus'
  rename_i nu
  have pv := corner_parity v.x v.y v.z
  have pu := corner_parity u.x u.y u.z
  have eqv : ∀ w : Voxel, u = v → corner u.x u.y u.z = corner v.x v.y v.z := by rintro _ rfl; rfl
  have Kv := covered_cases hvs'
  have Ku := covered_cases hus'
  have fl : f < 4 := by omega
  have gl : g < 4 := by omega
  obtain ⟨fa, fa'⟩ := face_of _ f cv.2 fl
  obtain ⟨gb, gb'⟩ := face_of _ g cu.2 gl
  rw [← hva] at fa fa'
  rw [← hub] at gb gb'
  refine ⟨fa', gb', ?_, ?_⟩
  · rintro ⟨q1, q2⟩
    rw [fa] at q1
    rw [gb] at q2
    have hne : u ≠ v := by
      rintro rfl
      omega
    refine key ?_ ?_ hne h1 h2 h3 h4
    · unfold seen; rw [if_neg nv]; apply covered_ne; omega
    · unfold seen; rw [if_neg nu]; apply covered_ne; omega
  · rintro ⟨q1, q2⟩
    rw [fa] at q1
    rw [gb] at q2
    have hne : u ≠ v := by
      rintro rfl
      omega
    refine key ?_ ?_ hne h1 h2 h3 h4
    · unfold seen; rw [if_neg nv]; apply covered_ne; omega
    · unfold seen; rw [if_neg nu]; apply covered_ne; omega

/-- **C74** (rows of the large picture). Drawn four times as wide and twice as high, every pixel fills the four pixels of its own row; the row above
and the row below it are shared with its neighbours, half by half. -/
theorem zoom4_rows (pal : Nat → Nat) (p : Pic) (hp : ∀ y x, p.at_ y x < 1024) (x o : Nat) (hx : x < p.w) (ho : o < 4) :
    (∀ y, y < p.h → (zoom4 pal p).at_ (2 * y + 1) (4 * x + o) = pal (p.at_ y x)) ∧
    (∀ y, y + 1 < p.h → (zoom4 pal p).at_ (2 * (y + 1)) (4 * x + o) =
      if (2 ≤ o ↔ rightAbove (side p (y + 1) x) = true) then pal (p.at_ (y + 1) x)
      else if (2 ≤ o ↔ rightBelow (side p y x) = true) then pal (p.at_ y x) else 0) ∧
    (0 < p.h → (zoom4 pal p).at_ 0 (4 * x + o) = if (2 ≤ o ↔ rightAbove (side p 0 x) = true) then pal (p.at_ 0 x) else 0) ∧
    (∀ y, y + 1 = p.h → (zoom4 pal p).at_ (2 * p.h) (4 * x + o) = if (2 ≤ o ↔ rightBelow (side p y x) = true) then pal (p.at_ y x) else 0) := by
  have e1 : (4 * x + o) / 4 = x := by omega
  have e2 : (4 * x + o) % 4 = o := by omega
  have P := fun y => patterns (side p y x) (side_lt p y x (hp y x)) o ho
  refine ⟨?_, ?_, ?_, ?_⟩
  · intro y hy
    have e3 : (2 * y + 1) / 2 = y := by omega
    have e4 : (2 * y + 1) % 2 = 1 := by omega
    simp only [zoom4, zoom4_cells, e1, e2, e3, e4]
    rw [if_pos ⟨hx, hy, (P y).1⟩]
  · intro y hy
    have e3 : 2 * (y + 1) / 2 = y + 1 := by omega
    have e4 : 2 * (y + 1) % 2 = 0 := by omega
    have e5 : 2 ≤ 2 * (y + 1) := by omega
    have e6 : y + 1 - 1 = y := by omega
    have e7 : y + 1 ≤ p.h := by omega
    simp only [zoom4, zoom4_cells, e1, e2, e3, e4, e5, e6, e7, hx, hy, true_and, (P (y + 1)).2.1, (P y).2.2]
  · intro hh
    have e5 : ¬ 2 ≤ 0 := by omega
    simp only [zoom4, zoom4_cells, e1, e2, Nat.zero_div, Nat.zero_mod, hx, hh, e5, true_and, false_and, if_false, (P 0).2.1]
  · intro y hy
    have e3 : 2 * p.h / 2 = p.h := by omega
    have e4 : 2 * p.h % 2 = 0 := by omega
    have e5 : 2 ≤ 2 * p.h := by omega
    have e6 : p.h - 1 = y := by omega
    simp only [zoom4, zoom4_cells, e1, e2, e3, e4, e5, e6, hx, Nat.lt_irrefl, Nat.le_refl, true_and, false_and, and_false, if_false, (P y).2.2]

theorem load_small (depth : Voxel → Int) (colour : Nat → Nat) (vs : List Voxel) (hc : ∀ v ∈ vs, 0 < colour v.i ∧ colour v.i < 256) (p : Pic)
    (h : load depth colour vs = some p) (y x : Nat) : p.at_ y x < 1024 := by
  obtain ⟨xmin, xmax, ymin, ymax, _, _, _, _, hs, _⟩ := (nearest_voxel depth colour vs).2 p h
  rcases hs x y with ⟨h0, _⟩ | ⟨l1, v, l2, f, hv, hvs, hva, _⟩
  · omega
  · rw [hva]
    refine (face_of _ f (hc v (by rw [hv]; simp)).2 ?_).2
    unfold seen at hvs
    split at hvs
    · cases hvs
    · have := covered_cases hvs; omega

/-- **C74** (no gaps). Of any voxels, where two pixels one above the other are not empty, the row between them has no hole in the large picture: one half shows the
colour of the upper, the other half that of the lower. -/
theorem no_gaps (depth : Voxel → Int) (colour : Nat → Nat) (vs : List Voxel) (hc : ∀ v ∈ vs, 0 < colour v.i ∧ colour v.i < 256) (pal : Nat → Nat) (p : Pic)
    (h : load depth colour vs = some p) (y x : Nat) (hy : y + 1 < p.h) (hx : x < p.w) (ha : p.at_ y x ≠ 0) (hb : p.at_ (y + 1) x ≠ 0) :
    ∃ right : Bool, ∀ o, o < 4 → (zoom4 pal p).at_ (2 * (y + 1)) (4 * x + o) =
      if (2 ≤ o ↔ right = true) then pal (p.at_ (y + 1) x) else pal (p.at_ y x) := by
  have hp := load_small depth colour vs hc p h
  obtain ⟨xmin, xmax, ymin, ymax, _, _, _, _, hs, _⟩ := (nearest_voxel depth colour vs).2 p h
  have s1 := hs x y
  have s2 := hs x (y + 1)
  rw [show (((y + 1 : Nat)) : Int) = (y : Int) + 1 by omega] at s2
  obtain ⟨la, lb, n1, n2⟩ := below_top depth colour xmin ymin vs hc x y _ _ s1 s2 ha hb
  have H1 := (halves p y x (hp _ _) (hp _ _) (hp _ _)).1
  have H2 := (halves p (y + 1) x (hp _ _) (hp _ _) (hp _ _)).2
  have e6 : y + 1 - 1 = y := by omega
  rw [e6] at H2
  have key : ∀ a b : Fin 4, ¬ (a.val = 0 ∧ (b.val = 0 ∨ b.val = 3)) → ¬ (a.val = 1 ∧ (b.val = 1 ∨ b.val = 2)) →
      (if 2 ≤ a.val ∧ b.val < 2 ∧ b.val % 2 = a.val % 2 then !rightBelow a.val else rightBelow a.val) =
      !(if 2 ≤ b.val ∧ 2 ≤ a.val ∧ a.val % 2 ≠ b.val % 2 then !rightAbove b.val else rightAbove b.val) := by decide
  have k := key ⟨p.at_ y x / 256, by omega⟩ ⟨p.at_ (y + 1) x / 256, by omega⟩ n1 n2
  simp only at k
  have z : 0 < y + 1 := by omega
  simp only [hy, ha, hb, z, ne_eq, not_false_eq_true, true_and] at H1 H2
  have opp : rightBelow (side p y x) = !rightAbove (side p (y + 1) x) := by rw [H1, H2]; exact k
  refine ⟨rightAbove (side p (y + 1) x), fun o ho => ?_⟩
  rw [(zoom4_rows pal p hp x o hx ho).2.1 y hy, opp]
  split
  · rfl
  · rw [if_pos]
    cases hr : rightAbove (side p (y + 1) x) <;> simp_all

/-- **C74** (lower edges, a fault). Above an empty pixel a right wall keeps its half of the row between, but a left wall loses it: the empty pixel, drawn as
if it were the left half of a top, paints over it. In the last row of the picture nothing paints over it. -/
theorem lower_edges (pal : Nat → Nat) (p : Pic) (hp : ∀ y x, p.at_ y x < 1024) (y x : Nat) (hy : y + 1 < p.h) (hx : x < p.w) (hb : p.at_ (y + 1) x = 0) :
    (p.at_ y x / 256 = 3 → ∀ o, o < 4 → (zoom4 pal p).at_ (2 * (y + 1)) (4 * x + o) = if o < 2 then pal (p.at_ y x) else pal 0) ∧
    (p.at_ y x / 256 = 2 → ∀ o, o < 4 → (zoom4 pal p).at_ (2 * (y + 1)) (4 * x + o) = if o < 2 then 0 else pal 0) := by
  have H1 := (halves p y x (hp _ _) (hp _ _) (hp _ _)).1
  have H2 := (halves p (y + 1) x (hp _ _) (hp _ _) (hp _ _)).2
  simp only [hb, ne_eq, not_true_eq_false, false_and, and_false, if_false] at H1
  simp only [hb, Nat.zero_div, Nat.not_succ_le_zero, false_and, if_false] at H2
  constructor
  · intro h3 o ho
    rw [(zoom4_rows pal p hp x o hx ho).2.1 y hy, H1, H2, h3, hb]
    have h2 : o = 0 ∨ o = 1 ∨ o = 2 ∨ o = 3 := by omega
    rcases h2 with rfl | rfl | rfl | rfl <;> simp [rightAbove, rightBelow]
  · intro h3 o ho
    rw [(zoom4_rows pal p hp x o hx ho).2.1 y hy, H1, H2, h3, hb]
    have h2 : o = 0 ∨ o = 1 ∨ o = 2 ∨ o = 3 := by omega
    rcases h2 with rfl | rfl | rfl | rfl <;> simp [rightAbove, rightBelow]

/-- **C74** (the zooms). Houses can be had in three zooms and no other: as they are with every second row, with every pixel twice as wide, and four times as wide and
twice as high. -/
theorem house_zooms (pal : Nat → Nat) (p : Pic) (zoom : Int) :
    (house pal p zoom = none ↔ zoom ≠ 0 ∧ zoom ≠ 1 ∧ zoom ≠ 2) ∧
    (∀ q, house pal p 0 = some q → q.w = p.w ∧ q.h = (p.h + 1) / 2 ∧ ∀ y x, q.at_ y x = pal (p.at_ (2 * y) x)) ∧
    (∀ q, house pal p 2 = some q → q.w = 2 * p.w ∧ q.h = p.h ∧ ∀ y x o, o < 2 → q.at_ y (2 * x + o) = pal (p.at_ y x)) ∧
    (∀ q, house pal p 1 = some q → q.w = 4 * p.w ∧ q.h = 2 * p.h + 1 ∧ q = zoom4 pal p) := by
  refine ⟨?_, ?_, ?_, ?_⟩
  · unfold house
    split
    · simp_all
    · split
      · simp_all
      · split
        · simp_all
        · simp only [true_iff]; omega
  · rintro q h
    obtain rfl := Option.some.inj h
    exact ⟨rfl, rfl, fun _ _ => rfl⟩
  · rintro q h
    obtain rfl := Option.some.inj h
    refine ⟨rfl, rfl, fun y x o ho => ?_⟩
    simp only [zoom2]
    rw [show (2 * x + o) / 2 = x by omega]
  · rintro q h
    obtain rfl := Option.some.inj h
    exact ⟨rfl, rfl, rfl⟩

/-! ## Where a voxel of the file is drawn -/

/-- **C73** (placing). In a model `sx` wide and `sy` deep, the cube of a voxel is drawn where it should be, with the second coordinate mirrored, up to a distance
that is the same for all voxels, exactly if its second coordinate is at most the *width* and less than 256 below it. -/
theorem placed (sx sy : Nat) (q : UInt8 × UInt8 × UInt8 × UInt8) (v : Voxel)
    (hv : v = ⟨q.1.toNat + sy, ((sx : Int) - q.2.1.toNat) % 256, q.2.2.1.toNat, q.2.2.2.toNat⟩) :
    (corner v.x v.y v.z = ((corner q.1.toNat (-q.2.1.toNat) q.2.2.1.toNat).1 + (sy - sx), (corner q.1.toNat (-q.2.1.toNat) q.2.2.1.toNat).2 + (sy + sx))) ↔
      q.2.1.toNat ≤ sx ∧ sx < q.2.1.toNat + 256 := by
  subst hv
  simp only [corner, Prod.mk.injEq]
  omega

/-- **C73** (a fault). So a model deeper than wide is torn apart: of three cubes in a row, one behind the other, in a model one wide, the last is drawn 256 pixels away from
the others, and the picture is 257 wide where 4 would do. -/
theorem torn (colour : Nat → Nat) (depth : Voxel → Int) :
    let vs := [(0, 0, 0, 1), (0, 1, 0, 1), (0, 2, 0, 1)].map fun q : UInt8 × UInt8 × UInt8 × UInt8 =>
      (⟨q.1.toNat + (3 : Nat), (((1 : Nat) : Int) - q.2.1.toNat) % 256, q.2.2.1.toNat, q.2.2.2.toNat⟩ : Voxel)
    vs.map (fun v => (corner v.x v.y v.z).1) = [2, 3, -252] ∧ (load depth colour vs).map Pic.w = some 257 := by
  constructor
  · decide
  · rfl

/-- Two cubes, one on the other: the upper one's top, and its walls where they are. -/
example : (load (fun v => v.z) (fun _ => 7) [⟨0, 0, 0, 1⟩, ⟨0, 0, 1, 1⟩]).map (fun p => (p.w, p.h, (List.range 5).map fun y => (List.range 2).map (p.at_ y))) =
    some (2, 5, [[7, 0x107], [0x207, 0x307], [0x207, 0x307], [0x207, 0x307], [0x207, 0x307]]) := by decide +kernel

end Grf.Vox
