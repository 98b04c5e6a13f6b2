import Verif.Props.PropForm
/-!
# C65: item definitions are read exactly in their documented form (values and definitions)
-/
set_option linter.unusedSimpArgs false
namespace Grf.Acts
open Grf.Spec PropC

theorem upto_two (i j : Piece) (l : List Piece) (b r : Bytes) : Upto ([i, j] ++ l) b r ↔ ∃ m1, Upto [i] b m1 ∧ ∃ m2, Upto [j] m1 m2 ∧ Upto l m2 r := by
  rw [List.cons_append, List.cons_append, List.nil_append, upto_cons2]
  constructor
  · rintro ⟨m1, h1, h2⟩
    obtain ⟨m2, h2, h3⟩ := (upto_cons _ _ _ _).1 h2
    exact ⟨m1, h1, m2, h2, h3⟩
  · rintro ⟨m1, h1, m2, h2, h3⟩; exact ⟨m1, h1, (upto_cons _ _ _ _).2 ⟨m2, h2, h3⟩⟩

theorem map_read {α : Type} {x : Option (α × Bytes)} {mk : α → PVal} {v : PVal} {r : Bytes} {P : α → Prop} (h : ∀ a, x = some (a, r) ↔ P a) :
    (x.map fun p => (mk p.1, p.2)) = some (v, r) ↔ ∃ a, v = mk a ∧ P a := by
  simp only [Option.map_eq_some_iff, Prod.exists, Prod.mk.injEq]
  constructor
  · rintro ⟨a, r', h1, rfl, rfl⟩; exact ⟨a, rfl, (h a).1 h1⟩
  · rintro ⟨a, rfl, h1⟩; exact ⟨a, r, (h a).2 h1, rfl, rfl⟩

theorem read_signed (n : Int) (b r : Bytes) : readS 1 b = some (n, r) ↔ -128 ≤ n ∧ n < 128 ∧ Upto [B (n % 256)] b r := by
  cases b with
  | nil =>
    rw [← read_byte]
    simp [readS, readU, takeBytes]
  | cons c t =>
    rw [← read_byte, readU_one]
    have hc := c.toNat_lt
    have e : readS 1 (c :: t) = some ((if c.toNat < 128 then (c.toNat : Int) else c.toNat - 256), t) := by
      simp only [readS, takeBytes, Option.bind_eq_bind, Option.bind_some]
      simp
      rw [show leVal [c] = c.toNat by simp [leVal]]
    rw [e]
    simp only [Option.some.injEq, Prod.mk.injEq]
    constructor
    · rintro ⟨h1, h2⟩
      split at h1 <;> exact ⟨by omega, by omega, by omega, h2⟩
    · rintro ⟨h1, h2, h3, h4⟩
      refine ⟨?_, h4⟩
      split <;> omega

/-- **C65** A value is read from bytes exactly when they state it in its documented form, and exactly the bytes after it are left. -/
theorem reads_value (f : Fmt) (v : PVal) (b r : Bytes) : PropC.read f b = some (v, r) ↔ Says f v b r := by
  cases f
  case B => exact map_read fun n => read_byte n b r
  case b => exact map_read fun n => read_signed n b r
  case W => exact map_read fun n => read_word n b r
  case D => exact map_read fun n => read_dword n b r
  case L => exact map_read fun n => read_label n b r
  case Bx => exact map_read fun n => read_ext n b r
  case nB => exact map_read fun n => read_counted n b r
  case id => exact map_read fun n => read_word n b r
  case idx => exact map_read fun n => read_ext n b r
  case climate => exact map_read fun n => read_byte n b r
  case byteList => exact map_read fun n => read_counted n b r
  case B8 => simp [PropC.read, Says]
  case B4 => simp [PropC.read, Says]
  case V => simp [PropC.read, Says]
  case zE => simp [PropC.read, Says]
  case snow => simp [PropC.read, Says]
  case L2 =>
    have h : PropC.read .L2 b = some (v, r) ↔ _ := map_read fun l => readN_each readLabel LabelSays read_label 2 l b r
    rw [h]
    constructor
    · rintro ⟨l, rfl, h1, h2⟩
      match l, h1 with
      | [x, y], _ => exact ⟨x, y, rfl, h2⟩
    · rintro ⟨x, y, rfl, h2⟩; exact ⟨_, rfl, rfl, h2⟩
  case B3 =>
    have h : PropC.read .B3 b = some (v, r) ↔ _ := map_read fun l => read_byteList 3 l b r
    rw [h]
    constructor
    · rintro ⟨l, rfl, h1, h2⟩
      match l, h1 with
      | [x, y, z], _ => exact ⟨x, y, z, rfl, h2⟩
    · rintro ⟨x, y, z, rfl, h2⟩; exact ⟨_, rfl, rfl, h2⟩
  case nL =>
    simp only [PropC.read, Says, Option.bind_eq_bind, Option.bind_eq_some_iff, Prod.exists, read_byte, readN_each readLabel LabelSays read_label,
      Option.some.injEq, Prod.mk.injEq]
    constructor
    · rintro ⟨n, m, h1, l, r', ⟨h2, h3⟩, rfl, rfl⟩
      have := upto_byte_bound h1
      exact ⟨l, m, rfl, by rw [h2, show ((n.toNat : Nat) : Int) = n by omega]; exact h1, h3⟩
    · rintro ⟨l, m, rfl, h1, h2⟩
      exact ⟨_, m, h1, l, r, ⟨by simp, h2⟩, rfl, rfl⟩
  case nmW =>
    simp only [PropC.read, Says, Option.bind_eq_bind, Option.bind_eq_some_iff, Prod.exists, read_byte, Option.some.injEq, Prod.mk.injEq]
    have hl : ∀ (k n : Nat) (l : List (List Int)) (b r : Bytes), readN (readN (readU 2) k) n b = some (l, r) ↔
        l.length = n ∧ (∀ x ∈ l, x.length = k) ∧ Upto (l.flatten.map W) b r := by
      intro k n l b r
      rw [read_listIf (readN (readU 2) k) (fun x => x.map W) (fun x => x.length = k) (fun v b r => read_wordList k v b r) n l b r]
      rw [show (l.flatMap fun x => x.map W) = l.flatten.map W by rw [List.map_flatten, List.flatMap_def]]
    constructor
    · rintro ⟨n, m1, h1, k, m2, h2, l, r', h3, rfl, rfl⟩
      obtain ⟨h3, h4, h5⟩ := (hl _ _ _ _ _).1 h3
      have := upto_byte_bound h1
      have := upto_byte_bound h2
      refine ⟨l, k.toNat, rfl, h4, ?_⟩
      rw [then_upto, upto_two]
      refine ⟨m1, by rw [h3, show ((n.toNat : Nat) : Int) = n by omega]; exact h1, m2, by rw [show ((k.toNat : Nat) : Int) = k by omega]; exact h2, h5⟩
    · rintro ⟨l, k, rfl, h4, h⟩
      rw [then_upto, upto_two] at h
      obtain ⟨m1, h1, m2, h2, h5⟩ := h
      exact ⟨_, m1, h1, _, m2, h2, l, r, (hl _ _ _ _ _).2 ⟨by simp, by simpa using h4, h5⟩, rfl, rfl⟩
  case date =>
    simp only [PropC.read, Says, Option.map_eq_some_iff, Prod.exists, read_dword, Prod.mk.injEq, then_upto]
    have hd : ∀ n : Nat, (match daysToDate n with | .inl n => PVal.int n | .inr d => PVal.date d) =
        if 366 ≤ n ∧ n ≤ 3652424 then .date (_root_.Spec.nthDay n) else .int n := by
      intro n
      unfold daysToDate
      by_cases h : n < 366 ∨ n > 3652424
      · rw [if_pos h, if_neg (by omega)]
      · rw [if_neg h, if_pos (by omega)]
    constructor
    · rintro ⟨n, r', h1, rfl, rfl⟩
      have : 0 ≤ n := by
        obtain ⟨x, ⟨h, -⟩, -⟩ := (upto_one _ _ _).1 h1
        exact h.1
      refine ⟨n.toNat, by rw [show ((n.toNat : Nat) : Int) = n by omega]; exact h1, ?_⟩
      rw [← hd]
      rfl
    · rintro ⟨n, h1, rfl⟩
      refine ⟨_, r, h1, ?_, rfl⟩
      rw [← hd, Int.toNat_natCast]
      rfl
  case accept =>
    simp only [PropC.read, Says, Option.bind_eq_bind, Option.bind_eq_some_iff, Prod.exists, read_byte, Option.some.injEq, Prod.mk.injEq]
    have hl : ∀ (n : Nat) (l : List (Int × Int)) (b r : Bytes),
        readN (fun bs => (readU 1 bs).bind fun p => (readU 1 p.2).bind fun q => some ((p.1, q.1), q.2)) n b = some (l, r) ↔
        l.length = n ∧ Upto (l.flatMap fun p => [B p.1, B p.2]) b r := by
      intro n l b r
      apply read_list
      intro p b r
      simp only [Option.bind_eq_some_iff, Prod.exists, read_byte, Option.some.injEq, Prod.mk.injEq, upto_cons2]
      constructor
      · rintro ⟨x, r1, h1, y, r2, h2, rfl, rfl⟩; exact ⟨r1, h1, h2⟩
      · rintro ⟨r1, h1, h2⟩; exact ⟨p.1, r1, h1, p.2, r, h2, rfl, rfl⟩
    constructor
    · rintro ⟨n, m1, h1, l, r', h3, rfl, rfl⟩
      obtain ⟨h3, h4⟩ := (hl _ _ _ _).1 h3
      have := upto_byte_bound h1
      refine ⟨l, rfl, ?_⟩
      rw [then_upto, upto_append]
      exact ⟨m1, by rw [h3, show ((n.toNat : Nat) : Int) = n by omega]; exact h1, h4⟩
    · rintro ⟨l, rfl, h⟩
      rw [then_upto, upto_append] at h
      obtain ⟨m1, h1, h2⟩ := h
      exact ⟨_, m1, h1, l, r, (hl _ _ _ _).2 ⟨by simp, h2⟩, rfl, rfl⟩
  case size =>
    simp only [PropC.read, Says, Option.map_eq_some_iff, Prod.exists, read_byte, Prod.mk.injEq, then_upto]
    have hx : ∀ n : Nat, pyAnd (n : Int) 0xf = ((n % 16 : Nat) : Int) := fun n => SpriteRef.and_mask 4 n
    have hy : ∀ n : Nat, Int.shiftRight (n : Int) 4 = ((n / 16 : Nat) : Int) := by
      intro n
      show ((n >>> 4 : Nat) : Int) = _
      rw [Nat.shiftRight_eq_div_pow]
    constructor
    · rintro ⟨n, r', h1, rfl, rfl⟩
      have := upto_byte_bound h1
      obtain ⟨k, rfl⟩ := Int.eq_ofNat_of_zero_le this.1
      refine ⟨_, _, rfl, ?_⟩
      rw [hx, hy]
      refine ⟨by omega, by omega, by omega, by omega, ?_⟩
      rwa [show (16 * ((k / 16 : Nat) : Int) + ((k % 16 : Nat) : Int)) = (k : Int) by omega]
    · rintro ⟨x, y, rfl, g1, g2, g3, g4, h1⟩
      refine ⟨_, r, h1, ?_, rfl⟩
      obtain ⟨x, rfl⟩ := Int.eq_ofNat_of_zero_le g1
      obtain ⟨y, rfl⟩ := Int.eq_ofNat_of_zero_le g3
      rw [show (16 * (y : Int) + (x : Int)) = ((16 * y + x : Nat) : Int) by omega, hx, hy]
      congr 1 <;> omega
  case bridge =>
    simp only [PropC.read, Says, readBridge, Option.map_eq_some_iff, Option.bind_eq_bind, Option.bind_eq_some_iff, Prod.exists, read_byte,
      Option.some.injEq, Prod.mk.injEq]
    have hl : ∀ (n : Nat) (l : List (List SpriteRef)) (b r : Bytes), readN (readN (SpriteRef.read false) 32) n b = some (l, r) ↔
        l.length = n ∧ (∀ x ∈ l, x.length = 32 ∧ ∀ s ∈ x, SpriteFits s) ∧ Upto (l.flatten.map fun s => D (spriteNumber s)) b r := by
      intro n l b r
      rw [read_listIf (readN (SpriteRef.read false) 32) (fun x => x.map fun s => D (spriteNumber s)) (fun x => x.length = 32 ∧ ∀ s ∈ x, SpriteFits s)
        (fun v b r => by
          rw [read_listIf (SpriteRef.read false) (fun s => [D (spriteNumber s)]) SpriteFits (fun s b r => read_spriteRef s b r) 32 v b r, flatMap_single]
          exact and_assoc.symm) n l b r]
      rw [show (l.flatMap fun x => x.map fun s => D (spriteNumber s)) = l.flatten.map fun s => D (spriteNumber s) by rw [List.map_flatten, List.flatMap_def]]
    constructor
    · rintro ⟨i, ts, r', ⟨i', m1, h1, n, m2, h2, l, r'', h3, ⟨rfl, rfl⟩, rfl⟩, rfl, rfl⟩
      obtain ⟨h3, h4, h5⟩ := (hl _ _ _ _).1 h3
      have := upto_byte_bound h2
      refine ⟨i', l, rfl, h4, ?_⟩
      rw [then_upto, upto_two]
      exact ⟨m1, h1, m2, by rw [h3, show ((n.toNat : Nat) : Int) = n by omega]; exact h2, h5⟩
    · rintro ⟨i, l, rfl, h4, h⟩
      rw [then_upto, upto_two] at h
      obtain ⟨m1, h1, m2, h2, h5⟩ := h
      exact ⟨i, l, r, ⟨i, m1, h1, _, m2, h2, l, r, (hl _ _ _ _).2 ⟨by simp, h4, h5⟩, ⟨rfl, rfl⟩, rfl⟩, rfl, rfl⟩
  case multiDict =>
    simp only [PropC.read, Says, Option.map_eq_some_iff, Prod.exists, Prod.mk.injEq]
    constructor
    · rintro ⟨d, r', h, rfl, rfl⟩
      obtain ⟨es, h1, h2, h3⟩ := (read_multiDict _ _ _ _ _ (Nat.lt_succ_self _)).1 h
      obtain ⟨h4, h5⟩ := (addAll_iff _ _).1 h2
      exact ⟨d, es, rfl, h1, h4, h5, h3⟩
    · rintro ⟨d, es, rfl, h1, h4, h5, h3⟩
      exact ⟨d, r, (read_multiDict _ _ _ _ _ (Nat.lt_succ_self _)).2 ⟨es, h1, (addAll_iff _ _).2 ⟨h4, h5⟩, h3⟩, rfl, rfl⟩
  case layouts =>
    simp only [PropC.read, Says, readLayouts, Option.map_eq_some_iff, Option.bind_eq_bind, Option.bind_eq_some_iff, Prod.exists, read_byte, read_dword,
      Option.some.injEq, Prod.mk.injEq]
    have hl : ∀ (size n : Nat) (l : List (List Tile)) (b r : Bytes), readN (readTiles size true) n b = some (l, r) ↔ l.length = n ∧ Each (IndustrySays size) l b r := by
      intro size n l b r
      apply readN_each
      intro l b r
      rw [read_tiles]
      simp only [IndustrySays, true_implies]
    constructor
    · rintro ⟨l, r', ⟨n, m1, h1, size, m2, h2, h3⟩, rfl, rfl⟩
      obtain ⟨h3, h4⟩ := (hl _ _ _ _ _).1 h3
      have := upto_byte_bound h1
      have hs : 0 ≤ size := by
        obtain ⟨x, ⟨h, -⟩, -⟩ := (upto_one _ _ _).1 h2
        exact h.1
      refine ⟨l, size.toNat, m2, rfl, ?_, h4⟩
      rw [then_upto, upto_cons2]
      exact ⟨m1, by rw [h3, show ((n.toNat : Nat) : Int) = n by omega]; exact h1, by rw [show ((size.toNat : Nat) : Int) = size by omega]; exact h2⟩
    · rintro ⟨l, size, m2, rfl, h, h4⟩
      rw [then_upto, upto_cons2] at h
      obtain ⟨m1, h1, h2⟩ := h
      exact ⟨l, r, ⟨_, m1, h1, _, m2, h2, (hl _ _ _ _ _).2 ⟨by simp, by simpa using h4⟩⟩, rfl, rfl⟩
  case newStation =>
    simp only [PropC.read, Says, readStation, Option.map_eq_some_iff, Option.bind_eq_bind, Option.bind_eq_some_iff, Prod.exists, read_ext, Prod.mk.injEq]
    have hl := read_listRel (fun b => (readU 1 b).bind fun p => readSprs p.1.toNat p.2) StationItems read_station1
    constructor
    · rintro ⟨l, r', ⟨n, m1, h1, h2⟩, rfl, rfl⟩
      obtain ⟨h3, its, h4, h5⟩ := (hl _ _ _ _).1 h2
      have hn : 0 ≤ n := by
        obtain ⟨x, h | h, -⟩ := (upto_one _ _ _).1 h1
        · exact h.2.1.1
        · exact h.1.1
      refine ⟨l, its, rfl, h4, ?_⟩
      rw [then_upto, upto_append]
      exact ⟨m1, by rw [h3, show ((n.toNat : Nat) : Int) = n by omega]; exact h1, h5⟩
    · rintro ⟨l, its, rfl, h4, h⟩
      rw [then_upto, upto_append] at h
      obtain ⟨m1, h1, h5⟩ := h
      exact ⟨l, r, ⟨_, m1, h1, (hl _ _ _ _).2 ⟨by simp, its, h4, h5⟩⟩, rfl, rfl⟩
  case oldStation =>
    simp only [PropC.read, Says, readOldStation, Option.map_eq_some_iff, Option.bind_eq_bind, Option.bind_eq_some_iff, Prod.exists, read_ext, Prod.mk.injEq]
    have hl := read_listRel readOldLayout OldItems read_old1
    constructor
    · rintro ⟨l, r', ⟨n, m1, h1, h2⟩, rfl, rfl⟩
      obtain ⟨h3, its, h4, h5⟩ := (hl _ _ _ _).1 h2
      have hn : 0 ≤ n := by
        obtain ⟨x, h | h, -⟩ := (upto_one _ _ _).1 h1
        · exact h.2.1.1
        · exact h.1.1
      refine ⟨l, its, rfl, h4, ?_⟩
      rw [then_upto, upto_append]
      exact ⟨m1, by rw [h3, show ((n.toNat : Nat) : Int) = n by omega]; exact h1, h5⟩
    · rintro ⟨l, its, rfl, h4, h⟩
      rw [then_upto, upto_append] at h
      obtain ⟨m1, h1, h5⟩ := h
      exact ⟨l, r, ⟨_, m1, h1, (hl _ _ _ _).2 ⟨by simp, its, h4, h5⟩⟩, rfl, rfl⟩

/-! ### Definitions -/

theorem byCode_iff (f : Nat) (c : Nat) (e : Entry) : byCode f c = some e ↔ (∃ t, table f = some t ∧ e ∈ t) ∧ e.code = c := by
  unfold byCode
  have hu : ∀ f, ∀ t, table f = some t → (t.map (·.code)).Nodup := by
    intro f
    by_cases hf : f < 21
    · have : ∀ f : Fin 21, ∀ t ∈ table f, (t.map (·.code)).Nodup := by decide +kernel
      exact this ⟨f, hf⟩
    · intro t ht
      have : table f = none := by
        unfold table
        split <;> first | omega | rfl
      rw [this] at ht
      cases ht
  cases ht : table f with
  | none => simp
  | some t =>
    have hn := hu f t ht
    simp only [Option.bind_some, Option.some.injEq, exists_eq_left']
    constructor
    · intro h
      have h1 := List.find?_some h
      exact ⟨List.mem_of_find?_eq_some h, by simpa using h1⟩
    · rintro ⟨hm, rfl⟩
      clear ht
      induction t with
      | nil => simp at hm
      | cons a t ih =>
        rw [List.map_cons, List.nodup_cons] at hn
        rcases List.mem_cons.1 hm with rfl | hm
        · simp
        · have : (a.code == e.code) = false := by
            rw [beq_eq_false_iff_ne]
            intro he
            exact hn.1 (he ▸ List.mem_map.2 ⟨e, hm, rfl⟩)
          rw [List.find?_cons, this]
          exact ih hn.2 hm

theorem read_props (feature count : Nat) (t : List Entry) (ht : table feature = some t) : ∀ (n : Nat) (d d' : List (String × List PVal)) (b r : Bytes),
    decodeProps feature count n d b = some (d', r) ↔ ∃ ps : List (Entry × List PVal), ps.length = n ∧ (∀ p ∈ ps, p.1 ∈ t) ∧
      (ps.map fun p => (p.1.name, p.2)).foldl (fun m e => dictSet m e.1 e.2) d = d' ∧ Each (PropertySays count) ps b r := by
  intro n
  induction n with
  | zero =>
    intro d d' b r
    simp only [decodeProps, Option.some.injEq, Prod.mk.injEq]
    constructor
    · rintro ⟨rfl, rfl⟩; exact ⟨[], rfl, by simp, rfl, rfl⟩
    · rintro ⟨ps, h1, -, h2, h3⟩
      rw [List.length_eq_zero_iff] at h1
      subst h1
      exact ⟨h2, h3⟩
  | succ n ih =>
    intro d d' b r
    simp only [decodeProps, Option.bind_eq_bind, Option.bind_eq_some_iff, Prod.exists, read_byte, byCode_iff, ht, Option.some.injEq, exists_eq_left', ih]
    constructor
    · rintro ⟨c, m1, h1, e, ⟨h2, h3⟩, l, m2, h4, ps, h5, h6, h7, h8⟩
      have := upto_byte_bound h1
      obtain ⟨h9, h10⟩ := (readN_each _ _ (reads_value e.fmt) _ _ _ _).1 h4
      refine ⟨(e, l) :: ps, by simp [h5], ?_, h7, m2, ⟨h9, m1, ?_, h10⟩, h8⟩
      · intro p hp
        rcases List.mem_cons.1 hp with rfl | hp
        · exact h2
        · exact h6 p hp
      · rw [then_upto]
        simp only [h3]
        rwa [show ((c.toNat : Nat) : Int) = c by omega]
    · rintro ⟨ps, h5, h6, h7, h8⟩
      cases ps with
      | nil => simp at h5
      | cons p ps =>
        obtain ⟨e, l⟩ := p
        obtain ⟨m2, ⟨h9, m1, h1, h10⟩, h8⟩ := h8
        exact ⟨_, m1, h1, e, ⟨h6 (e, l) (by simp), by simp⟩, l, m2, (readN_each _ _ (reads_value e.fmt) _ _ _ _).2 ⟨h9, h10⟩, ps, by simpa using h5,
          fun p hp => h6 p (by simp [hp]), h7, h8⟩

/-- **C65** A pseudo sprite is decompiled to this definition, exactly when its bytes state it. -/
theorem reads_define (T : Nat → List (String × VarData)) (ctx : PCtx) (bs : Bytes) (d : Def0) : Reads T ctx bs (.define d) ↔ DefineSays d bs := by
  have key : ∀ t, decode0 t = some d ↔ ∃ (tb : List Entry) (ps : List (Entry × List PVal)) (m r : Bytes), table d.feature = some tb ∧ (∀ p ∈ ps, p.1 ∈ tb) ∧
      Upto [B d.feature, B ps.length, B d.count, .E d.firstId] t m ∧ Each (PropertySays d.count) ps m r ∧ DictOf d.props (ps.map fun p => (p.1.name, p.2)) := by
    intro t
    simp only [decode0, Option.bind_eq_bind, Option.bind_eq_some_iff, Prod.exists, read_byte, read_ext]
    constructor
    · rintro ⟨f, m1, h1, np, m2, h2, n, m3, h3, first, m4, h4, h⟩
      have := upto_byte_bound h1
      have := upto_byte_bound h2
      have := upto_byte_bound h3
      split at h
      · simp at h
      · simp only [Option.bind_eq_some_iff, Prod.exists] at h
        obtain ⟨ps, r, h5, h⟩ := h
        split at h
        · simp at h
        · next hno =>
          simp only [Option.some.injEq] at h
          subst h
          obtain ⟨tb, ht⟩ := Option.isSome_iff_exists.1 (by rw [Option.isSome_iff_ne_none]; simpa using hno : (table f.toNat).isSome = true)
          obtain ⟨ps', h6, h7, h8, h9⟩ := (read_props _ _ tb ht _ _ _ _ _).1 h5
          refine ⟨tb, ps', m4, r, ht, h7, ?_, h9, (dictOf_iff _ _).1 h8⟩
          simp only [upto_cons2]
          exact ⟨m1, by rw [show ((f.toNat : Nat) : Int) = f by omega]; exact h1, m2, by rw [h6, show ((np.toNat : Nat) : Int) = np by omega]; exact h2,
            m3, by rw [show ((n.toNat : Nat) : Int) = n by omega]; exact h3, h4⟩
    · rintro ⟨tb, ps, m, r, ht, h7, h, h9, h8⟩
      simp only [upto_cons2] at h
      obtain ⟨m1, h1, m2, h2, m3, h3, h4⟩ := h
      have hf : d.feature < 21 := by
        apply Decidable.byContradiction
        intro hf
        have : table d.feature = none := by
          unfold table
          split <;> first | omega | rfl
        rw [this] at ht
        cases ht
      refine ⟨_, m1, h1, _, m2, h2, _, m3, h3, _, m, h4, ?_⟩
      simp only [Int.toNat_natCast]
      rw [if_neg (by omega)]
      simp only [Option.bind_eq_some_iff, Prod.exists]
      refine ⟨d.props, r, (read_props _ _ tb ht _ _ _ _ _).2 ⟨ps, rfl, h7, (dictOf_iff _ _).2 h8, h9⟩, ?_⟩
      rw [ht]
      simp
  constructor
  · rintro ⟨c, h⟩
    obtain ⟨t, rfl, h⟩ := (pseudo_first _ _ _ _ _ 0 rfl).1 h
    rw [dp00] at h
    simp only [Option.map_eq_some_iff, Prod.mk.injEq, Option.some.injEq, Decoded.define.injEq] at h
    obtain ⟨_, h1, rfl, -⟩ := h
    obtain ⟨tb, ps, m, r, h2, h3, h4, h5, h6⟩ := (key t).1 h1
    exact ⟨tb, ps, m, r, h2, h3, (upto_cons _ _ _ _).2 ⟨t, (upto_known 0 _ _).2 rfl, h4⟩, h5, h6⟩
  · rintro ⟨tb, ps, m, r, h2, h3, h4, h5, h6⟩
    obtain ⟨t, h7, h8⟩ := (upto_cons _ _ _ _).1 h4
    have := (upto_known 0 _ _).1 (show Upto [B ((0 : UInt8).toNat : Nat)] bs t from h7)
    subst this
    exact ⟨ctx.enter, by rw [dp00, (key t).2 ⟨tb, ps, m, r, h2, h3, h8, h5, h6⟩]; rfl⟩

/-- A label cut off by the end of the sprite is read as it is, and cannot be written again. -/
theorem short_label (T : Nat → List (String × VarData)) (ctx : PCtx) : Reads T ctx [0, 11, 1, 1, 0, 0x17, 0x43] (.define ⟨11, 0, 1, [("label", [.label (.bytes [0x43])])]⟩) ∧
    Def0.getData ⟨11, 0, 1, [("label", [.label (.bytes [0x43])])]⟩ = none := by
  refine ⟨⟨ctx.enter, ?_⟩, by decide +kernel⟩
  rw [dp00]
  have : decode0 [11, 1, 1, 0, 0x17, 0x43] = some ⟨11, 0, 1, [("label", [.label (.bytes [0x43])])]⟩ := by decide +kernel
  rw [this]; rfl

/-- Old layouts of stations are read, but never written. -/
theorem old_layouts_not_written (v : PVal) : PropC.encode .oldStation v = none := by cases v <;> rfl

/-- Two old layouts of a station: none, and a ground with a sprite and its child. -/
example : decode0 ([4, 1, 1, 255, 5, 0, 9, 2] ++ [0, 0, 0, 0] ++ [7, 0, 0, 0] ++ [1, 2, 3, 4, 5, 6, 8, 0, 0, 0x80] ++ [9, 9, 0x80, 0, 0, 0, 10, 0, 0, 0] ++ [0x80]) =
    some ⟨4, 5, 1, [("layout", [.oldStation [none, some [
      { flat := ⟨.ground, ⟨7, 0, true, false, false, false⟩, []⟩ },
      { flat := ⟨.parent 1 2 3 4 5 6, ⟨8, 0, false, false, false, false⟩, []⟩, children := [⟨.child 9 9, ⟨10, 0, true, false, false, false⟩, []⟩] }]]])]⟩ := by
  decide +kernel

/-- Two cargos with their labels and weights; the weight comes twice. -/
example : DefineSays ⟨11, 3, 2, [("weight", [.int 5, .int 6]), ("label", [.label (.bytes [65, 66, 67, 68]), .label (.bytes [69, 70, 71, 72])])]⟩
    [0, 11, 3, 2, 3, 0x0f, 1, 2, 0x17, 65, 66, 67, 68, 69, 70, 71, 72, 0x0f, 5, 6, 99] := by
  rw [← reads_define (fun _ => []) {}]
  refine ⟨PCtx.enter {}, ?_⟩
  rw [dp00]
  have : decode0 [11, 3, 2, 3, 0x0f, 1, 2, 0x17, 65, 66, 67, 68, 69, 70, 71, 72, 0x0f, 5, 6, 99] =
    some ⟨11, 3, 2, [("weight", [.int 5, .int 6]), ("label", [.label (.bytes [65, 66, 67, 68]), .label (.bytes [69, 70, 71, 72])])]⟩ := by decide +kernel
  rw [this]; rfl

end Grf.Acts
