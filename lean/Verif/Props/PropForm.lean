import Verif.Spec.PropForm
import Verif.Props.ReadFormat2
import Verif.Props.ReadFormat4
/-!
# C65: item definitions are read exactly in their documented form
-/
set_option linter.unusedSimpArgs false
namespace Grf.Acts
open Grf.Spec PropC

theorem then_upto (l : List Piece) (b r : Bytes) : Then l b r ↔ Upto l b r := Iff.rfl

theorem readN_each {α : Type} (rd : Bytes → Option (α × Bytes)) (P : α → Bytes → Bytes → Prop) (h : ∀ v b r, rd b = some (v, r) ↔ P v b r) :
    ∀ (n : Nat) (l : List α) (b r : Bytes), readN rd n b = some (l, r) ↔ l.length = n ∧ Each P l b r := by
  intro n
  induction n with
  | zero =>
    intro l b r
    simp only [readN, Option.some.injEq, Prod.mk.injEq]
    constructor
    · rintro ⟨rfl, rfl⟩; exact ⟨rfl, rfl⟩
    · rintro ⟨h1, h2⟩
      cases l with
      | nil => exact ⟨rfl, h2⟩
      | cons => simp at h1
  | succ n ih =>
    intro l b r
    simp only [readN, Option.bind_eq_bind, Option.bind_eq_some_iff, Prod.exists, Option.some.injEq, Prod.mk.injEq, h, ih]
    constructor
    · rintro ⟨v, m, h1, l', r', ⟨rfl, h2⟩, rfl, rfl⟩
      exact ⟨rfl, m, h1, h2⟩
    · rintro ⟨h1, h2⟩
      cases l with
      | nil => simp at h1
      | cons v l =>
        obtain ⟨m, h2, h3⟩ := h2
        exact ⟨v, m, h2, l, r, ⟨by simpa using h1, h3⟩, rfl, rfl⟩

theorem slice_iff (n : Nat) (x b r : Bytes) : (b.take n, b.drop n) = (x, r) ↔ Cut n x b r := by
  simp only [Prod.mk.injEq, Cut]
  constructor
  · rintro ⟨rfl, rfl⟩
    refine ⟨(List.take_append_drop n b).symm, ?_⟩
    by_cases h : n ≤ b.length
    · left; simp [h]
    · right; exact ⟨by simp; omega, List.drop_eq_nil_of_le (by omega)⟩
  · rintro ⟨rfl, h | ⟨h, rfl⟩⟩
    · subst h; simp
    · simp [List.take_of_length_le (Nat.le_of_lt h), List.drop_eq_nil_of_le (Nat.le_of_lt h)]

theorem read_label (l : Lab) (b r : Bytes) : readLabel b = some (l, r) ↔ LabelSays l b r := by
  simp only [readLabel, slice, Option.some.injEq, Prod.mk.injEq, LabelSays, ← slice_iff]
  constructor
  · rintro ⟨rfl, rfl⟩; exact ⟨_, rfl, rfl, rfl⟩
  · rintro ⟨x, rfl, rfl, rfl⟩; exact ⟨rfl, rfl⟩

theorem read_counted (l : List Int) (b r : Bytes) : readCounted b = some (l, r) ↔ BytesSay l b r := by
  simp only [readCounted, Option.bind_eq_bind, Option.bind_eq_some_iff, Prod.exists, read_byte, Option.some.injEq, Prod.mk.injEq, BytesSay, then_upto,
    ← slice_iff]
  constructor
  · rintro ⟨n, m, h, rfl, rfl⟩
    have := upto_byte_bound h
    refine ⟨n.toNat, m, _, ?_, ⟨rfl, rfl⟩, rfl⟩
    rwa [show ((n.toNat : Nat) : Int) = n by omega]
  · rintro ⟨n, m, x, h, ⟨rfl, rfl⟩, rfl⟩
    exact ⟨n, m, h, by simp [intsOf], by simp⟩

/-! ### Layouts of industries -/

theorem read_tiles : ∀ (n : Nat) (first : Bool) (l : List Tile) (b r : Bytes), readTiles n first b = some (l, r) ↔
    ∃ its, List.Forall₂ TileItems l its ∧ (first = true → ∀ t, l.head? = some t → t.xofs ≠ 254) ∧
      ((l.length < n ∧ Then (its.flatten ++ [B 0, B 128]) b r) ∨ (l.length = n ∧ Then its.flatten b r)) := by
  intro n
  induction n with
  | zero =>
    intro first l b r
    simp only [readTiles, Option.some.injEq, Prod.mk.injEq]
    constructor
    · rintro ⟨rfl, rfl⟩; exact ⟨[], .nil, by simp, .inr ⟨rfl, (upto_nil _ _).2 rfl⟩⟩
    · rintro ⟨its, h1, -, ⟨h, -⟩ | ⟨h, h2⟩⟩
      · simp at h
      · rw [List.length_eq_zero_iff] at h
        subst h
        cases h1
        exact ⟨rfl, (upto_nil _ _).1 h2⟩
  | succ n ih =>
    intro first l b r
    rw [readTiles]
    simp only [Option.bind_eq_bind, Option.bind_eq_some_iff, Prod.exists, read_byte]
    constructor
    · rintro ⟨x, r1, h1, h⟩
      split at h
      · simp at h
      · next hx =>
        simp only [Option.bind_eq_some_iff, Prod.exists, read_byte] at h
        obtain ⟨y, r2, h2, h⟩ := h
        split at h
        · next hxy =>
          simp only [Option.some.injEq, Prod.mk.injEq] at h
          obtain ⟨rfl, rfl⟩ := h
          obtain ⟨rfl, rfl⟩ := hxy
          exact ⟨[], .nil, by simp, .inl ⟨by simp, (upto_cons2 _ _ _ _ _).2 ⟨r1, h1, h2⟩⟩⟩
        · next hxy =>
          simp only [Option.bind_eq_some_iff, Prod.exists, read_byte] at h
          obtain ⟨g, r3, h3, h⟩ := h
          have hg := upto_byte_bound h3
          have key : ∀ (t : Tile) (it : List Piece) (r4 : Bytes), TileItems t it → t.xofs = x → Upto it b r4 →
              (∃ l', readTiles n false r4 = some (l', r) ∧ l = t :: l') →
              ∃ its, List.Forall₂ TileItems l its ∧ (first = true → ∀ t, l.head? = some t → t.xofs ≠ 254) ∧
                ((l.length < n + 1 ∧ Then (its.flatten ++ [B 0, B 128]) b r) ∨ (l.length = n + 1 ∧ Then its.flatten b r)) := by
            rintro t it r4 ht htx hu ⟨l', h5, rfl⟩
            obtain ⟨its, h6, -, h7⟩ := (ih _ _ _ _).1 h5
            refine ⟨it :: its, .cons ht h6, ?_, ?_⟩
            · rintro hf t' ht'
              simp only [List.head?_cons, Option.some.injEq] at ht'
              subst ht'
              rw [htx]
              intro e
              exact hx ⟨e, hf⟩
            · rcases h7 with ⟨h7, h8⟩ | ⟨h7, h8⟩
              · left
                refine ⟨by simpa using h7, ?_⟩
                rw [List.flatten_cons, List.append_assoc, then_upto, upto_append]
                exact ⟨r4, hu, h8⟩
              · right
                refine ⟨by simpa using h7, ?_⟩
                rw [List.flatten_cons, then_upto, upto_append]
                exact ⟨r4, hu, h8⟩
          split at h
          · next hg1 =>
            simp only [Option.bind_eq_some_iff, Prod.exists, read_word, Option.some.injEq, Prod.mk.injEq] at h
            obtain ⟨i, r4, h4, l', r5, h5, rfl, rfl⟩ := h
            subst hg1
            refine key (.new x y i) [B x, B y, B 254, W i] r4 ⟨rfl, hxy⟩ rfl ?_ ⟨l', h5, rfl⟩
            simp only [upto_cons2]
            exact ⟨r1, h1, r2, h2, r3, h3, h4⟩
          · next hg1 =>
            split at h
            · simp at h
            · next hg2 =>
              simp only [Option.bind_eq_some_iff, Prod.exists, Option.some.injEq, Prod.mk.injEq] at h
              obtain ⟨l', r5, h5, rfl, rfl⟩ := h
              refine key (.old x y g) [B x, B y, B g] r3 ⟨rfl, by omega, hxy⟩ rfl ?_ ⟨l', h5, rfl⟩
              simp only [upto_cons2]
              exact ⟨r1, h1, r2, h2, h3⟩
    · rintro ⟨its, h1, h2, h3⟩
      cases h1 with
      | nil =>
        rcases h3 with ⟨-, h3⟩ | ⟨h3, -⟩
        · obtain ⟨r1, h4, h5⟩ := (upto_cons2 _ _ _ _ _).1 h3
          refine ⟨0, r1, h4, ?_⟩
          rw [if_neg (by simp)]
          simp only [Option.bind_eq_some_iff, Prod.exists, read_byte]
          exact ⟨128, r, h5, by rw [if_pos (by simp)]⟩
        · simp at h3
      | @cons t it l its ht hl =>
        have hx := h2
        simp only [List.head?_cons, Option.some.injEq, forall_eq'] at hx
        have h3' : ∃ r4, Upto it b r4 ∧ readTiles n false r4 = some (l, r) := by
          rcases h3 with ⟨h3, h4⟩ | ⟨h3, h4⟩
          · rw [List.flatten_cons, List.append_assoc, then_upto, upto_append] at h4
            obtain ⟨r4, h5, h6⟩ := h4
            exact ⟨r4, h5, (ih _ _ _ _).2 ⟨its, hl, by simp, .inl ⟨by simpa using h3, h6⟩⟩⟩
          · rw [List.flatten_cons, then_upto, upto_append] at h4
            obtain ⟨r4, h5, h6⟩ := h4
            exact ⟨r4, h5, (ih _ _ _ _).2 ⟨its, hl, by simp, .inr ⟨by simpa using h3, h6⟩⟩⟩
        obtain ⟨r4, h5, h6⟩ := h3'
        cases t with
        | new x y i =>
          obtain ⟨rfl, hxy⟩ := ht
          simp only [upto_cons2] at h5
          obtain ⟨r1, h7, r2, h8, r3, h9, h10⟩ := h5
          refine ⟨x, r1, h7, ?_⟩
          rw [if_neg (by rintro ⟨rfl, hf⟩; exact hx hf rfl)]
          simp only [Option.bind_eq_some_iff, Prod.exists, read_byte]
          refine ⟨y, r2, h8, ?_⟩
          rw [if_neg hxy]
          simp only [Option.bind_eq_some_iff, Prod.exists, read_byte]
          refine ⟨254, r3, h9, ?_⟩
          rw [if_pos rfl]
          simp only [Option.bind_eq_some_iff, Prod.exists, read_word]
          exact ⟨i, r4, h10, l, r, h6, rfl⟩
        | old x y i =>
          obtain ⟨rfl, hi, hxy⟩ := ht
          simp only [upto_cons2] at h5
          obtain ⟨r1, h7, r2, h8, h9⟩ := h5
          refine ⟨x, r1, h7, ?_⟩
          rw [if_neg (by rintro ⟨rfl, hf⟩; exact hx hf rfl)]
          simp only [Option.bind_eq_some_iff, Prod.exists, read_byte]
          refine ⟨y, r2, h8, ?_⟩
          rw [if_neg hxy]
          simp only [Option.bind_eq_some_iff, Prod.exists, read_byte]
          refine ⟨i, r4, h9, ?_⟩
          rw [if_neg (by omega), if_neg (by omega)]
          simp only [Option.bind_eq_some_iff, Prod.exists]
          exact ⟨l, r, h6, rfl⟩
        | check x y => exact ht.elim

/-! ### Dictionaries of texts -/

theorem addText_lookup (d : List (Int × List Bytes)) (k : Int) (v : Bytes) (x : Int) :
    (addText d k v).lookup x = if x = k then some ((d.lookup k).getD [] ++ [v]) else d.lookup x := by
  induction d with
  | nil =>
    simp only [addText, List.lookup_cons, List.lookup_nil]
    by_cases h : x = k
    · subst h; simp
    · rw [if_neg h, show (x == k) = false by simpa using h]
  | cons kv d ih =>
    obtain ⟨k', l⟩ := kv
    simp only [addText]
    by_cases h : k' = k
    · subst h
      rw [if_pos rfl]
      simp only [List.lookup_cons, beq_self_eq_true, Option.getD_some]
      by_cases hx : x = k'
      · subst hx; simp
      · rw [if_neg hx, show (x == k') = false by simpa using hx]
    · rw [if_neg h]
      simp only [List.lookup_cons, ih]
      by_cases hx : x = k'
      · subst hx
        simp [h]
      · rw [show (x == k') = false by simpa using hx, show (k == k') = false by simpa using fun e => h e.symm]

/-- Adding the texts one by one. -/
def addAll (d : List (Int × List Bytes)) (es : List (Int × Bytes)) : List (Int × List Bytes) := es.foldl (fun d e => addText d e.1 e.2) d

theorem addAll_keys (es : List (Int × Bytes)) : (addAll [] es).map (·.1) = (es.map (·.1)).eraseDups := by
  have : ∀ (es : List (Int × Bytes)) (d : List (Int × List Bytes)), (addAll d es).map (·.1) = (es.map (·.1)).foldl (fun l e => if e ∈ l then l else l ++ [e]) (d.map (·.1)) := by
    intro es
    induction es with
    | nil => intro d; rfl
    | cons e es ih =>
      intro d
      have := ih (addText d e.1 e.2)
      rw [addText_keys] at this
      exact this
  rw [this, ← firsts_eraseDups]
  rfl

theorem addAll_lookup (es : List (Int × Bytes)) : ∀ (d : List (Int × List Bytes)) (k : Int), (addAll d es).lookup k =
    if k ∈ es.map (·.1) then some ((d.lookup k).getD [] ++ (es.filter fun e => e.1 == k).map (·.2)) else d.lookup k := by
  induction es with
  | nil => intro d k; simp [addAll]
  | cons e es ih =>
    intro d k
    have := ih (addText d e.1 e.2) k
    rw [show addAll d (e :: es) = addAll (addText d e.1 e.2) es from rfl, this, addText_lookup]
    by_cases hk : k = e.1
    · subst hk
      by_cases h : e.1 ∈ es.map (·.1)
      · rw [if_pos h, if_pos (by simp)]; simp
      · rw [if_neg h, if_pos (by simp)]
        have : es.filter (fun x => x.1 == e.1) = [] := by
          rw [List.filter_eq_nil_iff]
          intro x hx hh
          simp only [beq_iff_eq] at hh
          exact h (List.mem_map.2 ⟨x, hx, hh⟩)
        simp [this]
    · simp only [if_neg hk]
      have hb : (e.1 == k) = false := by simpa using fun h => hk h.symm
      by_cases h : k ∈ es.map (·.1)
      · rw [if_pos h, if_pos (by rw [List.map_cons]; exact List.mem_cons_of_mem _ h)]; simp [hb]
      · rw [if_neg h, if_neg (by rw [List.map_cons, List.mem_cons]; rintro (e' | e'); exact hk e'; exact h e')]

theorem addAll_iff (d : List (Int × List Bytes)) (es : List (Int × Bytes)) : addAll [] es = d ↔
    d.map (·.1) = (es.map (·.1)).eraseDups ∧ ∀ p ∈ d, p.2 = (es.filter fun e => e.1 == p.1).map (·.2) := by
  have hn : ((es.map (·.1)).eraseDups).Nodup := by
    rw [← firsts_eraseDups]
    have : ∀ (l acc : List Int), acc.Nodup → (l.foldl (fun l e => if e ∈ l then l else l ++ [e]) acc).Nodup := by
      intro l
      induction l with
      | nil => intro acc h; exact h
      | cons x l ih =>
        intro acc h
        apply ih
        simp only
        split
        · exact h
        · next hx =>
          rw [List.nodup_append]
          exact ⟨h, by simp, by intro a ha b hb; simp at hb; rw [hb]; intro e; exact hx (e ▸ ha)⟩
    exact this _ _ (by simp)
  have hval : ∀ (d : List (Int × List Bytes)), d.map (·.1) = (es.map (·.1)).eraseDups → ∀ p ∈ d, d.lookup p.1 = some p.2 := by
    intro d hd p hp
    exact IdMap.lookup_of_mem (by rw [hd]; exact hn) hp
  constructor
  · rintro rfl
    refine ⟨addAll_keys es, fun p hp => ?_⟩
    have h1 := hval _ (addAll_keys es) p hp
    rw [addAll_lookup] at h1
    split at h1
    · simpa using h1.symm
    · simp at h1
  · rintro ⟨h1, h2⟩
    apply dict_unique
    · rw [addAll_keys, h1]
    · rw [addAll_keys]; exact hn
    · intro k
      rw [addAll_lookup]
      by_cases hk : k ∈ es.map (·.1)
      · rw [if_pos hk]
        have : k ∈ d.map (·.1) := by rw [h1]; simpa using hk
        obtain ⟨p, hp, rfl⟩ := List.mem_map.1 this
        rw [hval d h1 p hp, h2 p hp]; simp
      · rw [if_neg hk]
        have : k ∉ d.map (·.1) := by rw [h1]; simpa using hk
        symm
        rw [List.lookup_nil, List.lookup_eq_none_iff]
        intro p hp
        rw [bne_iff_ne]
        intro e
        exact this (List.mem_map.2 ⟨p, hp, e.symm⟩)

theorem upto_text (x b r : Bytes) : Upto [text x] b r ↔ b = x ++ r := by
  rw [upto_one]
  simp only [text, Piece.Form, Field.Fits, Field.bytes, true_and]
  constructor
  · rintro ⟨_, rfl, rfl⟩; rfl
  · rintro rfl; exact ⟨x, rfl, rfl⟩

theorem read_multiDict : ∀ (fuel : Nat) (d : List (Int × List Bytes)) (b : Bytes) (d' : List (Int × List Bytes)) (r : Bytes), b.length < fuel →
    (readMultiDict fuel d b = some (d', r) ↔ ∃ es : List (Int × Bytes), (∀ e ∈ es, e.1 ≠ 0 ∧ 0 ∉ e.2) ∧ addAll d es = d' ∧
      Upto ((es.flatMap fun e => [B e.1, text e.2, B 0]) ++ [B 0]) b r) := by
  intro fuel
  induction fuel with
  | zero => intro d b d' r h; simp at h
  | succ fuel ih =>
    intro d b d' r hlen
    cases b with
    | nil =>
      simp only [readMultiDict]
      constructor
      · intro h; simp at h
      · rintro ⟨es, -, -, h⟩
        exfalso
        cases es with
        | nil =>
          have h' : Upto [B 0] [] r := h
          have := (upto_known 0 [] r).1 h'
          simp at this
        | cons e es =>
          rw [List.flatMap_cons, List.append_assoc] at h
          obtain ⟨m, h, -⟩ := (upto_cons _ _ _ _).1 h
          rw [← read_byte] at h
          simp [readU, takeBytes] at h
    | cons k t =>
      simp only [readMultiDict]
      by_cases hk : k = 0
      · subst hk
        rw [if_pos rfl]
        simp only [Option.some.injEq, Prod.mk.injEq]
        constructor
        · rintro ⟨rfl, rfl⟩
          exact ⟨[], by simp, rfl, (upto_known 0 _ _).2 rfl⟩
        · rintro ⟨es, h1, h2, h3⟩
          cases es with
          | nil =>
            have := (upto_known 0 _ _).1 (show Upto [B 0] (0 :: t) r from h3)
            simp only [List.cons.injEq, true_and] at this
            exact ⟨h2, this⟩
          | cons e es =>
            exfalso
            rw [List.flatMap_cons, List.append_assoc] at h3
            obtain ⟨m, h, -⟩ := (upto_cons _ _ _ _).1 h3
            rw [← read_byte, readU_one] at h
            simp only [Option.some.injEq, Prod.mk.injEq] at h
            exact (h1 e (by simp)).1 h.1.symm
      · rw [if_neg hk]
        have hk0 : ((k.toNat : Nat) : Int) ≠ 0 := by
          intro e
          apply hk
          apply UInt8.toNat_inj.mp
          simpa using e
        constructor
        · intro h
          split at h
          · simp at h
          · next v r' hs =>
            obtain ⟨hv, rfl⟩ := (splitNul_iff _ _ _).1 hs
            obtain ⟨es, h1, h2, h3⟩ := (ih _ _ _ _ (by simp at hlen; omega)).1 h
            refine ⟨((k.toNat : Int), v) :: es, ?_, h2, ?_⟩
            · intro e he
              rcases List.mem_cons.1 he with rfl | he
              · exact ⟨hk0, hv⟩
              · exact h1 e he
            · rw [List.flatMap_cons, List.append_assoc, upto_append]
              refine ⟨r', ?_, h3⟩
              simp only [upto_cons2]
              exact ⟨v ++ 0 :: r', (upto_known k _ _).2 rfl, 0 :: r', (upto_text _ _ _).2 rfl, (upto_known 0 _ _).2 rfl⟩
        · rintro ⟨es, h1, h2, h3⟩
          cases es with
          | nil =>
            exfalso
            have := (upto_known 0 _ _).1 (show Upto [B 0] (k :: t) r from h3)
            simp only [List.cons.injEq] at this
            exact hk this.1
          | cons e es =>
            rw [List.flatMap_cons, List.append_assoc, upto_append] at h3
            obtain ⟨m, h3, h4⟩ := h3
            simp only [upto_cons2] at h3
            obtain ⟨m1, h5, m2, h6, h7⟩ := h3
            rw [← read_byte, readU_one] at h5
            simp only [Option.some.injEq, Prod.mk.injEq] at h5
            obtain ⟨he, rfl⟩ := h5
            rw [upto_text] at h6
            have h8 := (upto_known 0 _ _).1 (show Upto [B ((0 : UInt8).toNat : Nat)] m2 m from h7)
            subst h6 h8
            have hs := (splitNul_iff (e.2 ++ 0 :: m) e.2 m).2 ⟨(h1 e (by simp)).2, rfl⟩
            rw [hs]
            simp only
            rw [ih _ _ _ _ (by simp at hlen; omega)]
            refine ⟨es, fun e' he' => h1 e' (by simp [he']), ?_, h4⟩
            rw [← h2, he]
            rfl

/-! ### Layouts of stations -/

theorem drawn_addChild (l : List Spr) (c : Flat) (h : l ≠ []) : drawn (addChild l c) = drawn l ++ [c] := by
  induction l with
  | nil => exact absurd rfl h
  | cons s l ih =>
    cases l with
    | nil => simp [addChild, drawn]
    | cons s' l =>
      have := ih (by simp)
      simp only [addChild, drawn, List.flatMap_cons, List.append_assoc] at this ⊢
      rw [this]

theorem drawn_snoc (l : List Spr) (s : Spr) : drawn (l ++ [s]) = drawn l ++ (s.flat :: s.children) := by simp [drawn]

/-- What the loops keep: the grouping of the sprites read so far. -/
theorem shape_addChild (l : List Spr) (x y : Int) (s : SpriteRef) (rs : List (Reg × RVal)) (h : Shape l) : Shape (addChild l ⟨.child x y, s, rs⟩) := by
  have aux : ∀ (r : List Spr), (∀ s ∈ r, ∀ c ∈ s.children, ∃ x y, c.kind = .child x y) →
      ((∀ s' ∈ addChild r ⟨.child x y, s, rs⟩, ∀ c ∈ s'.children, ∃ x y, c.kind = .child x y) ∧
      (addChild r ⟨.child x y, s, rs⟩).map (·.flat) = r.map (·.flat)) := by
    intro r
    induction r with
    | nil => intro h; exact ⟨by simpa [addChild] using h, rfl⟩
    | cons a r ih =>
      intro h
      cases r with
      | nil =>
        refine ⟨?_, rfl⟩
        intro s' hs' c hc
        simp only [addChild, List.mem_singleton] at hs'
        subst hs'
        simp only [List.mem_append, List.mem_singleton] at hc
        rcases hc with hc | rfl
        · exact h a (by simp) c hc
        · exact ⟨x, y, rfl⟩
      | cons a' r =>
        obtain ⟨h1, h2⟩ := ih (fun s' hs' => h s' (by simp [hs']))
        refine ⟨?_, ?_⟩
        · intro s' hs'
          simp only [addChild] at hs'
          rcases List.mem_cons.1 hs' with rfl | hs'
          · exact h s' (by simp)
          · exact h1 s' hs'
        · simp only [addChild, List.map_cons] at h2 ⊢
          rw [h2]
  obtain ⟨⟨g, r, rfl, hg, hr⟩, hc⟩ := h
  obtain ⟨h1, h2⟩ := aux (g :: r) hc
  refine ⟨?_, h1⟩
  cases he : addChild (g :: r) ⟨.child x y, s, rs⟩ with
  | nil => rw [he] at h2; simp at h2
  | cons g' r' =>
    rw [he] at h2
    simp only [List.map_cons, List.cons.injEq] at h2
    refine ⟨g', r', rfl, by rw [h2.1]; exact hg, ?_⟩
    intro s' hs'
    have : s'.flat ∈ r.map (·.flat) := by rw [← h2.2]; exact List.mem_map.2 ⟨s', hs', rfl⟩
    obtain ⟨s0, hs0, e⟩ := List.mem_map.1 this
    rw [← e]; exact hr s0 hs0

theorem shape_snoc (l : List Spr) (x y z a b c : Int) (s : SpriteRef) (rs : List (Reg × RVal)) (h : Shape l) :
    Shape (l ++ [{ flat := ⟨.parent x y z a b c, s, rs⟩ }]) := by
  obtain ⟨⟨g, r, rfl, hg, hr⟩, hc⟩ := h
  refine ⟨⟨g, r ++ [_], rfl, hg, ?_⟩, ?_⟩
  · intro s' hs'
    rcases List.mem_append.1 hs' with hs' | hs'
    · exact hr s' hs'
    · simp only [List.mem_singleton] at hs'
      subst hs'
      exact ⟨x, y, z, a, b, c, rfl⟩
  · intro s' hs'
    rcases List.mem_append.1 hs' with hs' | hs'
    · exact hc s' hs'
    · simp only [List.mem_singleton] at hs'
      subst hs'
      simp

/-- One step of grouping. -/
def addFlat (l : List Spr) (f : Flat) : List Spr :=
  match f.kind with
  | .child _ _ => addChild l f
  | _ => l ++ [{ flat := f }]

/-- A sprite that is not the ground. -/
def NotGround (f : Flat) : Prop := f.kind ≠ .ground

theorem shape_addFlat (l : List Spr) (f : Flat) (hf : NotGround f) (h : Shape l) : Shape (addFlat l f) ∧ drawn (addFlat l f) = drawn l ++ [f] := by
  obtain ⟨k, s, rs⟩ := f
  have hne : l ≠ [] := by
    obtain ⟨⟨g, r, rfl, _⟩, _⟩ := h
    simp
  cases k with
  | ground => exact absurd rfl hf
  | parent => exact ⟨shape_snoc _ _ _ _ _ _ _ _ _ h, by simp [addFlat, drawn]⟩
  | child => exact ⟨shape_addChild _ _ _ _ _ h, drawn_addChild _ _ hne⟩

theorem shape_fold (fs : List Flat) : ∀ (l : List Spr), (∀ f ∈ fs, NotGround f) → Shape l →
    Shape (fs.foldl addFlat l) ∧ drawn (fs.foldl addFlat l) = drawn l ++ fs := by
  induction fs with
  | nil => intro l _ h; exact ⟨h, by simp⟩
  | cons f fs ih =>
    intro l hf h
    obtain ⟨h1, h2⟩ := shape_addFlat l f (hf f (by simp)) h
    obtain ⟨h3, h4⟩ := ih _ (fun f' hf' => hf f' (by simp [hf'])) h1
    exact ⟨h3, by rw [List.foldl_cons, h4, h2]; simp⟩

/-- The grouping is determined by the order of the sprites. -/
theorem shape_unique : ∀ (l m : List Spr), (∀ s ∈ l, (∀ x y, s.flat.kind ≠ .child x y) ∧ ∀ c ∈ s.children, ∃ x y, c.kind = .child x y) →
    (∀ s ∈ m, (∀ x y, s.flat.kind ≠ .child x y) ∧ ∀ c ∈ s.children, ∃ x y, c.kind = .child x y) → drawn l = drawn m → l = m := by
  intro l
  induction l with
  | nil =>
    intro m _ hm h
    cases m with
    | nil => rfl
    | cons s m => simp [drawn] at h
  | cons s l ih =>
    intro m hl hm h
    cases m with
    | nil => simp [drawn] at h
    | cons s' m =>
      have head : ∀ (m : List Spr), (∀ s ∈ m, (∀ x y, s.flat.kind ≠ .child x y) ∧ ∀ c ∈ s.children, ∃ x y, c.kind = .child x y) →
          ∀ f r, drawn m = f :: r → ∀ x y, f.kind ≠ .child x y := by
        intro m hm f r h
        cases m with
        | nil => simp [drawn] at h
        | cons a m =>
          simp only [drawn, List.flatMap_cons, List.cons_append, List.cons.injEq] at h
          rw [← h.1]
          exact (hm a (by simp)).1
      simp only [drawn, List.flatMap_cons, List.cons_append, List.cons.injEq] at h
      obtain ⟨h1, h2⟩ := h
      have cut : ∀ (a b c d : List Flat), (∀ f ∈ a, ∃ x y, f.kind = .child x y) → (∀ f ∈ c, ∃ x y, f.kind = .child x y) →
          (∀ f r, b = f :: r → ∀ x y, f.kind ≠ .child x y) → (∀ f r, d = f :: r → ∀ x y, f.kind ≠ .child x y) → a ++ b = c ++ d → a = c ∧ b = d := by
        intro a
        induction a with
        | nil =>
          intro b c d _ hc hb _ e
          cases c with
          | nil => exact ⟨rfl, e⟩
          | cons f c =>
            obtain ⟨x, y, hxy⟩ := hc f (by simp)
            exact absurd hxy (hb f (c ++ d) e x y)
        | cons f a iha =>
          intro b c d ha hc hb hd e
          cases c with
          | nil =>
            obtain ⟨x, y, hxy⟩ := ha f (by simp)
            exact absurd hxy (hd f (a ++ b) e.symm x y)
          | cons f' c =>
            simp only [List.cons_append, List.cons.injEq] at e
            obtain ⟨e1, e2⟩ := iha b c d (fun f hf => ha f (by simp [hf])) (fun f hf => hc f (by simp [hf])) hb hd e.2
            exact ⟨by rw [e.1, e1], e2⟩
      obtain ⟨h3, h4⟩ := cut _ _ _ _ (hl s (by simp)).2 (hm s' (by simp)).2 (head l (fun s hs => hl s (by simp [hs])))
        (head m (fun s hs => hm s (by simp [hs]))) h2
      have := ih m (fun s hs => hl s (by simp [hs])) (fun s hs => hm s (by simp [hs])) h4
      subst this
      obtain ⟨f, c⟩ := s
      obtain ⟨f', c'⟩ := s'
      simp only at h1 h3
      rw [h1, h3]

theorem shape_cond {l : List Spr} (h : Shape l) : ∀ s ∈ l, (∀ x y, s.flat.kind ≠ .child x y) ∧ ∀ c ∈ s.children, ∃ x y, c.kind = .child x y := by
  obtain ⟨⟨g, r, rfl, hg, hr⟩, hc⟩ := h
  intro s hs
  refine ⟨?_, hc s hs⟩
  rcases List.mem_cons.1 hs with rfl | hs
  · intro x y; rw [hg]; simp
  · obtain ⟨a, b, c, d, e, f, h⟩ := hr s hs
    intro x y; rw [h]; simp

/-- Grouping sprites after the ground: the result is the layout with these sprites in this order. -/
theorem grouped_iff (g : Flat) (hg : g.kind = .ground) (rest : List Flat) (hr : ∀ f ∈ rest, NotGround f) (l : List Spr) :
    rest.foldl addFlat [{ flat := g }] = l ↔ Shape l ∧ drawn l = g :: rest := by
  have h0 : Shape [{ flat := g }] := ⟨⟨_, [], rfl, hg, by simp⟩, by simp⟩
  obtain ⟨h1, h2⟩ := shape_fold rest _ hr h0
  constructor
  · rintro rfl; exact ⟨h1, h2⟩
  · rintro ⟨h3, h4⟩
    exact shape_unique _ _ (shape_cond h1) (shape_cond h3) (by rw [h2, h4]; rfl)

theorem read_sprHead (hf : Bool) (s : SpriteRef) (fl : Nat) (b r : Bytes) : readSprHead hf b = some ((s, fl), r) ↔ SpriteFits s ∧ (hf = false → fl = 0) ∧
    Upto ([D (spriteNumber s)] ++ (if hf then [W fl] else [])) b r := by
  rw [← read_head]
  have : readSprHead hf b = readHead hf b := by
    unfold readSprHead readHead SpriteRef.read
    cases readU 4 b <;> rfl
  rw [this]

theorem read_sprLoop (hf : Bool) : ∀ (n : Nat) (acc l : List Spr) (b r : Bytes), readSprLoop hf n acc b = some (l, r) ↔
    ∃ (rest : List Flat) (its : List (List Piece)), rest.length = n ∧ (∀ f ∈ rest, NotGround f) ∧ rest.foldl addFlat acc = l ∧
      List.Forall₂ (NewSprite hf) rest its ∧ Upto its.flatten b r := by
  intro n
  induction n with
  | zero =>
    intro acc l b r
    simp only [readSprLoop, Option.some.injEq, Prod.mk.injEq]
    constructor
    · rintro ⟨rfl, rfl⟩; exact ⟨[], [], rfl, by simp, rfl, .nil, (upto_nil _ _).2 rfl⟩
    · rintro ⟨rest, its, h1, -, h2, h3, h4⟩
      rw [List.length_eq_zero_iff] at h1
      subst h1
      cases h3
      exact ⟨h2, (upto_nil _ _).1 h4⟩
  | succ n ih =>
    intro acc l b r
    simp only [readSprLoop, Option.bind_eq_bind, Option.bind_eq_some_iff, Prod.exists, read_sprHead, read_byte]
    constructor
    · rintro ⟨s, fl, r1, ⟨h1, h2, h3⟩, x, r2, h4, y, r3, h5, z, r4, h6, h⟩
      split at h
      · next hz =>
        subst hz
        simp only [Option.bind_eq_some_iff, Prod.exists, read_regs, announced_eq, ih] at h
        obtain ⟨rs, r5, ⟨h7, h8, h9⟩, rest, its, h10, h11, h12, h13, h14⟩ := h
        refine ⟨⟨.child x y, s, rs⟩ :: rest, _ :: its, by simp [h10], ?_, h12, .cons ⟨h1, (fl : Int), false, _, fun e => by rw [h2 e]; rfl, .over x y, h7, h8, rfl⟩ h13, ?_⟩
        · intro f hf
          rcases List.mem_cons.1 hf with rfl | hf
          · simp [NotGround]
          · exact h11 f hf
        · rw [List.flatten_cons, upto_append]; refine ⟨r5, ?_, h14⟩
          rw [upto_append]; refine ⟨r4, ?_, h9⟩
          rw [upto_append]; refine ⟨r1, h3, ?_⟩
          simp only [upto_cons2]
          exact ⟨r2, h4, r3, h5, h6⟩
      · next hz =>
        simp only [Option.bind_eq_some_iff, Prod.exists, read_byte, read_regs, announced_eq, ih] at h
        obtain ⟨a, q1, g1, c, q2, g2, d, q3, g3, rs, r5, ⟨h7, h8, h9⟩, rest, its, h10, h11, h12, h13, h14⟩ := h
        refine ⟨⟨.parent x y z a c d, s, rs⟩ :: rest, _ :: its, by simp [h10], ?_, h12, .cons ⟨h1, (fl : Int), true, _, fun e => by rw [h2 e]; rfl, .own x y z a c d hz, h7, h8, rfl⟩ h13, ?_⟩
        · intro f hf
          rcases List.mem_cons.1 hf with rfl | hf
          · simp [NotGround]
          · exact h11 f hf
        · rw [List.flatten_cons, upto_append]; refine ⟨r5, ?_, h14⟩
          rw [upto_append]; refine ⟨q3, ?_, h9⟩
          rw [upto_append]; refine ⟨r1, h3, ?_⟩
          simp only [upto_cons2]
          exact ⟨r2, h4, r3, h5, r4, h6, q1, g1, q2, g2, g3⟩
    · rintro ⟨rest, its, h10, h11, h12, h13, h14⟩
      cases h13 with
      | nil => simp at h10
      | @cons f it rest its hs hrest =>
        rw [List.flatten_cons, upto_append] at h14
        obtain ⟨r5, h, h14⟩ := h14
        obtain ⟨k, s, rs⟩ := f
        obtain ⟨h1, fl, parent, place, h2, hplace, h7, h8, rfl⟩ := hs
        rw [upto_append] at h; obtain ⟨q, h, h9⟩ := h
        rw [upto_append] at h; obtain ⟨r1, h3, h⟩ := h
        have hfl : 0 ≤ fl := by
          cases hf with
          | false => rw [h2 rfl]; omega
          | true =>
            rw [upto_append] at h3
            obtain ⟨_, _, h3⟩ := h3
            simp only [if_true] at h3
            obtain ⟨x, ⟨h, -⟩, -⟩ := (upto_one _ _ _).1 h3
            exact h.1
        obtain ⟨n', rfl⟩ := Int.eq_ofNat_of_zero_le hfl
        simp only at hplace h7 h8 h9 h3 h1
        cases hplace with
        | ground => exact absurd rfl (h11 ⟨.ground, s, rs⟩ (List.mem_cons_self ..))
        | own x y z a c d hz =>
          simp only [upto_cons2] at h
          obtain ⟨r2, h4, r3, h5, r4, h6, q1, g1, q2, g2, g3⟩ := h
          refine ⟨s, n', r1, ⟨h1, fun e => by have := h2 e; omega, h3⟩, x, r2, h4, y, r3, h5, z, r4, h6, ?_⟩
          rw [if_neg hz]
          simp only [Option.bind_eq_some_iff, Prod.exists, read_byte, read_regs, announced_eq, ih]
          exact ⟨a, q1, g1, c, q2, g2, d, q, g3, rs, r5, ⟨h7, h8, h9⟩, rest, its, by simpa using h10, fun f hf => h11 f (by simp [hf]), h12, hrest, h14⟩
        | over x y =>
          simp only [upto_cons2] at h
          obtain ⟨r2, h4, r3, h5, h6⟩ := h
          refine ⟨s, n', r1, ⟨h1, fun e => by have := h2 e; omega, h3⟩, x, r2, h4, y, r3, h5, 128, q, h6, ?_⟩
          rw [if_pos rfl]
          simp only [Option.bind_eq_some_iff, Prod.exists, read_byte, read_regs, announced_eq, ih]
          exact ⟨rs, r5, ⟨h7, h8, h9⟩, rest, its, by simpa using h10, fun f hf => h11 f (by simp [hf]), h12, hrest, h14⟩

/-- Sprites that are drawn: the ground first and nowhere else. -/
theorem drawn_ground {l : List Spr} (h : Shape l) : ∃ g rest, drawn l = g :: rest ∧ g.kind = .ground ∧ ∀ f ∈ rest, NotGround f := by
  obtain ⟨⟨g, r, rfl, hg, hr⟩, hc⟩ := h
  refine ⟨g.flat, g.children ++ drawn r, by simp [drawn], hg, ?_⟩
  intro f hf
  rcases List.mem_append.1 hf with hf | hf
  · obtain ⟨x, y, e⟩ := hc g (by simp) f hf
    simp [NotGround, e]
  · simp only [drawn, List.mem_flatMap, List.mem_cons] at hf
    obtain ⟨s, hs, rfl | hf⟩ := hf
    · obtain ⟨_, _, _, _, _, _, e⟩ := hr s hs
      simp [NotGround, e]
    · obtain ⟨x, y, e⟩ := hc s (by simp [hs]) f hf
      simp [NotGround, e]

theorem read_station1 (l : List Spr) (b r : Bytes) :
    ((readU 1 b).bind fun p => readSprs p.1.toNat p.2) = some (l, r) ↔ ∃ items, StationItems l items ∧ Upto items b r := by
  simp only [Option.bind_eq_some_iff, Prod.exists, read_byte, readSprs, Option.bind_eq_bind, read_sprHead, read_regs, announced_eq, read_sprLoop]
  constructor
  · rintro ⟨n, r0, h0, s, fl, r1, ⟨h1, h2, h3⟩, rs, r2, ⟨h4, h5, h6⟩, rest, its, h7, h8, h9, h10, h11⟩
    have hn := upto_byte_bound h0
    have hb : bitSet n 6 = (n.toNat / 64 % 2 == 1) := by
      rw [show n = ((n.toNat : Nat) : Int) by omega, bitSet_nat]
      simp only [Int.toNat_natCast]
      have : n.toNat / 2 ^ 6 % 2 = 0 ∨ n.toNat / 2 ^ 6 % 2 = 1 := by omega
      rcases this with h | h <;> simp only [h, show (64 : Nat) = 2 ^ 6 from rfl] <;> rfl
    rw [← hb] at h2 h3 h10
    obtain ⟨g1, g2⟩ := (grouped_iff _ rfl rest h8 l).1 h9
    refine ⟨_, ⟨g1, n, _ :: its, by rw [g2]; simp [h7]; omega, by rw [g2]; exact .cons ⟨h1, (fl : Int), false, [], fun e => by rw [h2 e]; rfl, .ground, h4, h5, rfl⟩ h10, rfl⟩, ?_⟩
    rw [upto_append]; refine ⟨r0, h0, ?_⟩
    rw [List.flatten_cons, upto_append]; refine ⟨r2, ?_, h11⟩
    rw [upto_append]; refine ⟨r1, ?_, h6⟩
    rwa [List.append_nil]
  · rintro ⟨items, ⟨g1, n, its', h7, h10, rfl⟩, h⟩
    obtain ⟨g, rest, hd, hg, hr⟩ := drawn_ground g1
    rw [hd] at h10 h7
    cases h10 with
    | @cons _ it _ its hs h10 =>
      rw [upto_append] at h; obtain ⟨r0, h0, h⟩ := h
      rw [List.flatten_cons, upto_append] at h; obtain ⟨r2, h, h11⟩ := h
      have hn := upto_byte_bound h0
      have hb : bitSet n 6 = (n.toNat / 64 % 2 == 1) := by
        rw [show n = ((n.toNat : Nat) : Int) by omega, bitSet_nat]
        simp only [Int.toNat_natCast]
        have : n.toNat / 2 ^ 6 % 2 = 0 ∨ n.toNat / 2 ^ 6 % 2 = 1 := by omega
        rcases this with h | h <;> simp only [h, show (64 : Nat) = 2 ^ 6 from rfl] <;> rfl
      obtain ⟨k, s, rs⟩ := g
      simp only at hg
      subst hg
      obtain ⟨h1, fl, parent, place, h2, hplace, h4, h5, rfl⟩ := hs
      cases hplace
      rw [List.append_nil] at h
      rw [upto_append] at h; obtain ⟨r1, h3, h6⟩ := h
      have hfl : 0 ≤ fl := by
        cases hbb : bitSet n 6 with
        | false => rw [h2 hbb]; omega
        | true =>
          rw [hbb] at h3
          rw [upto_append] at h3
          obtain ⟨_, _, h3⟩ := h3
          simp only [if_true] at h3
          obtain ⟨x, ⟨h, -⟩, -⟩ := (upto_one _ _ _).1 h3
          exact h.1
      obtain ⟨fl, rfl⟩ := Int.eq_ofNat_of_zero_le hfl
      rw [hb] at h2 h3 h10
      refine ⟨n, r0, h0, s, fl, r1, ⟨h1, fun e => by have := h2 e; omega, h3⟩, rs, r2, ⟨h4, h5, h6⟩, rest, its, ?_, hr, ?_, h10, h11⟩
      · simp only [List.length_cons] at h7; omega
      · exact (grouped_iff _ rfl rest hr l).2 ⟨g1, hd⟩

theorem upto_length {l : List Piece} {b r : Bytes} (h : Upto l b r) : r.length ≤ b.length := by
  obtain ⟨x, -, rfl⟩ := h
  simp

theorem byte_length {v : Int} {b r : Bytes} (h : Upto [B v] b r) : b.length = r.length + 1 := by
  rw [← read_byte] at h
  cases b with
  | nil => simp [readU, takeBytes] at h
  | cons c b =>
    rw [readU_one] at h
    simp only [Option.some.injEq, Prod.mk.injEq] at h
    rw [← h.2]; simp

theorem read_oldLoop : ∀ (fuel : Nat) (acc l : List Spr) (b r : Bytes), b.length < fuel → (readOldLoop fuel acc b = some (l, r) ↔
    ∃ (rest : List Flat) (its : List (List Piece)), (∀ f ∈ rest, NotGround f) ∧ rest.foldl addFlat acc = l ∧
      List.Forall₂ OldSprite rest its ∧ Upto (its.flatten ++ [B 128]) b r) := by
  intro fuel
  induction fuel with
  | zero => intro acc l b r h; simp at h
  | succ fuel ih =>
    intro acc l b r hlen
    simp only [readOldLoop, Option.bind_eq_bind, Option.bind_eq_some_iff, Prod.exists, read_byte]
    constructor
    · rintro ⟨x, r1, h1, h⟩
      split at h
      · next hx =>
        subst hx
        simp only [Option.some.injEq, Prod.mk.injEq] at h
        obtain ⟨rfl, rfl⟩ := h
        exact ⟨[], [], by simp, rfl, .nil, h1⟩
      · next hx =>
        simp only [Option.bind_eq_some_iff, Prod.exists, read_byte, read_spriteRef] at h
        obtain ⟨y, r2, h2, z, r3, h3, a, r4, h4, c, r5, h5, d, r6, h6, s, r7, ⟨h7, h8⟩, h⟩ := h
        have hl : r7.length < fuel := by
          have := upto_length h8
          have := upto_length h6
          have := upto_length h5
          have := upto_length h4
          have := upto_length h3
          have := upto_length h2
          have := byte_length h1
          omega
        have key : ∀ (f : Flat) (it : List Piece), NotGround f → OldSprite f it → Upto it b r7 → readOldLoop fuel (addFlat acc f) r7 = some (l, r) →
            ∃ (rest : List Flat) (its : List (List Piece)), (∀ f ∈ rest, NotGround f) ∧ rest.foldl addFlat acc = l ∧
              List.Forall₂ OldSprite rest its ∧ Upto (its.flatten ++ [B 128]) b r := by
          intro f it hn hf hu hr
          obtain ⟨rest, its, g1, g2, g3, g4⟩ := (ih _ _ _ _ hl).1 hr
          refine ⟨f :: rest, it :: its, ?_, g2, .cons hf g3, ?_⟩
          · intro f' hf'
            rcases List.mem_cons.1 hf' with rfl | hf'
            · exact hn
            · exact g1 f' hf'
          · rw [List.flatten_cons, List.append_assoc, upto_append]; exact ⟨r7, hu, g4⟩
        split at h
        · next hz =>
          subst hz
          refine key ⟨.child x y, s, []⟩ _ (by simp [NotGround]) (.over x y a c d s h7 hx) ?_ h
          simp only [upto_cons2]
          exact ⟨r1, h1, r2, h2, r3, h3, r4, h4, r5, h5, r6, h6, h8⟩
        · next hz =>
          refine key ⟨.parent x y z a c d, s, []⟩ _ (by simp [NotGround]) (.own x y z a c d s h7 hx hz) ?_ h
          simp only [upto_cons2]
          exact ⟨r1, h1, r2, h2, r3, h3, r4, h4, r5, h5, r6, h6, h8⟩
    · rintro ⟨rest, its, g1, g2, g3, g4⟩
      cases g3 with
      | nil =>
        exact ⟨128, r, g4, by rw [if_pos rfl]; rw [← g2]; rfl⟩
      | @cons f it rest its hf hrest =>
        rw [List.flatten_cons, List.append_assoc, upto_append] at g4
        obtain ⟨r7, hu, g4⟩ := g4
        have hr : r7.length < fuel → readOldLoop fuel (addFlat acc f) r7 = some (l, r) := fun hl =>
          (ih _ _ _ _ hl).2 ⟨rest, its, fun f hf => g1 f (by simp [hf]), g2, hrest, g4⟩
        cases hf with
        | own x y z a c d s h7 hx hz =>
          simp only [upto_cons2] at hu
          obtain ⟨r1, h1, r2, h2, r3, h3, r4, h4, r5, h5, r6, h6, h8⟩ := hu
          have hl : r7.length < fuel := by
            have := upto_length h8
            have := upto_length h6
            have := upto_length h5
            have := upto_length h4
            have := upto_length h3
            have := upto_length h2
            have := byte_length h1
            omega
          refine ⟨x, r1, h1, ?_⟩
          rw [if_neg hx]
          simp only [Option.bind_eq_some_iff, Prod.exists, read_byte, read_spriteRef]
          exact ⟨y, r2, h2, z, r3, h3, a, r4, h4, c, r5, h5, d, r6, h6, s, r7, ⟨h7, h8⟩, by rw [if_neg hz]; exact hr hl⟩
        | over x y a c d s h7 hx =>
          simp only [upto_cons2] at hu
          obtain ⟨r1, h1, r2, h2, r3, h3, r4, h4, r5, h5, r6, h6, h8⟩ := hu
          have hl : r7.length < fuel := by
            have := upto_length h8
            have := upto_length h6
            have := upto_length h5
            have := upto_length h4
            have := upto_length h3
            have := upto_length h2
            have := byte_length h1
            omega
          refine ⟨x, r1, h1, ?_⟩
          rw [if_neg hx]
          simp only [Option.bind_eq_some_iff, Prod.exists, read_byte, read_spriteRef]
          exact ⟨y, r2, h2, 128, r3, h3, a, r4, h4, c, r5, h5, d, r6, h6, s, r7, ⟨h7, h8⟩, by rw [if_pos rfl]; exact hr hl⟩

theorem oldSprite_notGround {f : Flat} {it : List Piece} (h : OldSprite f it) : NotGround f := by
  cases h <;> simp [NotGround]

theorem forall2_left {α β : Type} {R : α → β → Prop} {P : α → Prop} (h : ∀ a b, R a b → P a) {l : List α} {m : List β} (hl : List.Forall₂ R l m) : ∀ a ∈ l, P a := by
  induction hl with
  | nil => simp
  | cons hr _ ih =>
    intro a ha
    rcases List.mem_cons.1 ha with rfl | ha
    · exact h _ _ hr
    · exact ih a ha

theorem read_old1 (o : Option (List Spr)) (b r : Bytes) : readOldLayout b = some (o, r) ↔ ∃ items, OldItems o items ∧ Upto items b r := by
  have hs : ∀ (v : Int) (b r : Bytes), Upto [D v] b r → ∃ s, SpriteRef.fromGrf false v = s ∧ SpriteFits s ∧ spriteNumber s = v := by
    intro v b r h
    have h1 : SpriteRef.read false b = some (SpriteRef.fromGrf false v, r) := by
      simp only [SpriteRef.read, (read_dword v b r).2 h, Option.bind_eq_bind, Option.bind_some]
    obtain ⟨h2, h3⟩ := (read_spriteRef _ _ _).1 h1
    refine ⟨_, rfl, h2, ?_⟩
    have e1 := (read_dword _ _ _).2 h3
    rw [(read_dword v b r).2 h] at e1
    simp only [Option.some.injEq, Prod.mk.injEq, and_true] at e1
    exact e1.symm
  simp only [readOldLayout, Option.bind_eq_bind, Option.bind_eq_some_iff, Prod.exists, read_dword]
  constructor
  · rintro ⟨v, r1, h1, h⟩
    split at h
    · next hv =>
      subst hv
      simp only [Option.some.injEq, Prod.mk.injEq] at h
      obtain ⟨rfl, rfl⟩ := h
      exact ⟨_, rfl, h1⟩
    · next hv =>
      simp only [Option.bind_eq_some_iff, Prod.exists, Option.some.injEq, Prod.mk.injEq] at h
      obtain ⟨l, r2, h2, rfl, rfl⟩ := h
      obtain ⟨s, e, hf, hn⟩ := hs v _ _ h1
      rw [e] at h2
      obtain ⟨rest, its, g1, g2, g3, g4⟩ := (read_oldLoop _ _ _ _ _ (Nat.lt_succ_self _)).1 h2
      obtain ⟨g5, g6⟩ := (grouped_iff _ rfl rest g1 l).1 g2
      refine ⟨_, ⟨g5, s, rest, its, g6, hf, by rw [hn]; exact hv, g3, rfl⟩, ?_⟩
      rw [List.append_assoc, upto_append]
      exact ⟨r1, by rw [hn]; exact h1, g4⟩
  · rintro ⟨items, ho, h⟩
    cases o with
    | none =>
      have e : items = [D 0] := ho
      subst e
      exact ⟨0, r, h, by rw [if_pos rfl]⟩
    | some l =>
      obtain ⟨g5, s, rest, its, g6, hf, hv, g3, rfl⟩ := ho
      rw [List.append_assoc, upto_append] at h
      obtain ⟨r1, h1, g4⟩ := h
      refine ⟨spriteNumber s, r1, h1, ?_⟩
      rw [if_neg hv]
      simp only [Option.bind_eq_some_iff, Prod.exists, Option.some.injEq, Prod.mk.injEq]
      have e : SpriteRef.fromGrf false (spriteNumber s) = s := by
        have h2 := (read_spriteRef s b r1).2 ⟨hf, h1⟩
        simp only [SpriteRef.read, (read_dword _ b r1).2 h1, Option.bind_eq_bind, Option.bind_some, Option.some.injEq, Prod.mk.injEq, and_true] at h2
        exact h2
      rw [e]
      refine ⟨l, r, (read_oldLoop _ _ _ _ _ (Nat.lt_succ_self _)).2 ⟨rest, its, ?_, ?_, g3, g4⟩, rfl, rfl⟩
      · exact forall2_left (fun _ _ h => oldSprite_notGround h) g3
      · exact (grouped_iff _ rfl rest (forall2_left (fun _ _ h => oldSprite_notGround h) g3) l).2 ⟨g5, g6⟩

end Grf.Acts
