import Verif.Spec.ReadFormat
import Verif.Props.Exact
import Verif.Props.ActionFormat
/-!
# C64: the decompiler reads exactly the documented forms

Every theorem is an equivalence: the decoder returns this action for these bytes, if and only if the bytes begin with the items of the action.
-/
namespace Grf.Acts
open PropC Grf.Spec

/-! ### Reading items -/

/-- The bytes begin with the items, and `r` are the bytes after them. -/
def Upto (l : List Piece) (b r : Bytes) : Prop := ∃ x, Holds l x ∧ b = x ++ r

theorem begins_iff (l : List Piece) (b : Bytes) : Begins l b ↔ ∃ r, Upto l b r :=
  ⟨fun ⟨x, t, h, e⟩ => ⟨t, x, h, e⟩, fun ⟨t, x, h, e⟩ => ⟨x, t, h, e⟩⟩

theorem upto_nil (b r : Bytes) : Upto [] b r ↔ b = r := by simp [Upto, Holds]

theorem upto_cons (i : Piece) (l : List Piece) (b r : Bytes) : Upto (i :: l) b r ↔ ∃ m, Upto [i] b m ∧ Upto l m r := by
  constructor
  · rintro ⟨x, ⟨y, z, h1, h2, rfl⟩, rfl⟩
    exact ⟨z ++ r, ⟨y, ⟨y, [], h1, rfl, by simp⟩, by simp⟩, z, h2, rfl⟩
  · rintro ⟨m, ⟨x, ⟨y, z, h1, h2, rfl⟩, rfl⟩, w, h3, rfl⟩
    simp only [Holds] at h2
    subst h2
    exact ⟨y ++ w, ⟨y, w, h1, h3, rfl⟩, by simp⟩

theorem upto_append (l l' : List Piece) (b r : Bytes) : Upto (l ++ l') b r ↔ ∃ m, Upto l b m ∧ Upto l' m r := by
  induction l generalizing b with
  | nil => simp [upto_nil]
  | cons i l ih =>
    rw [List.cons_append, upto_cons]
    constructor
    · rintro ⟨m, h1, h2⟩
      obtain ⟨m', h3, h4⟩ := (ih m).1 h2
      exact ⟨m', (upto_cons _ _ _ _).2 ⟨m, h1, h3⟩, h4⟩
    · rintro ⟨m, h1, h2⟩
      obtain ⟨m', h3, h4⟩ := (upto_cons _ _ _ _).1 h1
      exact ⟨m', h3, (ih m').2 ⟨m, h4, h2⟩⟩

theorem upto_one (i : Piece) (b r : Bytes) : Upto [i] b r ↔ ∃ x, i.Form x ∧ b = x ++ r := by
  constructor
  · rintro ⟨x, ⟨y, z, h1, h2, rfl⟩, rfl⟩
    simp only [Holds] at h2
    subst h2
    exact ⟨y, h1, by simp⟩
  · rintro ⟨x, h, rfl⟩
    exact ⟨x, ⟨x, [], h, rfl, by simp⟩, rfl⟩

theorem read_byte (v : Int) (b r : Bytes) : readU 1 b = some (v, r) ↔ Upto [B v] b r := by
  rw [upto_one]
  constructor
  · intro h
    have hb := readU_bound h
    cases b with
    | nil => simp [readU, takeBytes] at h
    | cons x b =>
      rw [Grf.readU_one] at h
      simp only [Option.some.injEq, Prod.mk.injEq] at h
      obtain ⟨rfl, rfl⟩ := h
      have := x.toNat_lt
      exact ⟨[x], ⟨⟨by omega, by omega⟩, by simp [Field.bytes]⟩, rfl⟩
  · rintro ⟨x, ⟨⟨h1, h2⟩, rfl⟩, rfl⟩
    simp only [Field.bytes, List.cons_append, List.nil_append]
    rw [Grf.readU_one]
    simp only [Option.some.injEq, Prod.mk.injEq, and_true]
    rw [UInt8.toNat_ofNat']
    omega

theorem form_enc (f : Field) (x : Bytes) : (Piece.field f).Form x ↔ enc f = some x := by
  rw [enc_iff]; exact Iff.rfl

theorem read_packed (k : Nat) (mk : Int → Field) (he : ∀ v, enc (mk v) = packU k v) (v : Int) (b r : Bytes) :
    readU k b = some (v, r) ↔ Upto [.field (mk v)] b r := by
  rw [upto_one]
  simp only [form_enc, he]
  constructor
  · intro h
    simp only [readU, takeBytes, Option.bind_eq_bind, Option.bind_eq_some_iff] at h
    obtain ⟨⟨x, t⟩, h1, h2⟩ := h
    split at h1
    · next hk =>
      simp only [Option.some.injEq, Prod.mk.injEq] at h1 h2
      obtain ⟨rfl, rfl⟩ := h1
      obtain ⟨rfl, rfl⟩ := h2
      refine ⟨b.take k, ?_, (List.take_append_drop k b).symm⟩
      have hl : (b.take k).length = k := by simp [hk]
      have := packU_of_lt (n := leVal (b.take k)) (k := k) (by have := leVal_lt (b.take k); rwa [hl] at this)
      rw [this]
      have := leBytes_leVal (b.take k)
      rw [hl] at this
      rw [this]
    · cases h1
  · rintro ⟨x, h, rfl⟩
    exact readU_packU h r

theorem read_word (v : Int) (b r : Bytes) : readU 2 b = some (v, r) ↔ Upto [W v] b r := read_packed 2 .W (fun _ => rfl) v b r

theorem read_dword (v : Int) (b r : Bytes) : readU 4 b = some (v, r) ↔ Upto [D v] b r := read_packed 4 .D (fun _ => rfl) v b r

theorem read_ext (v : Int) (b r : Bytes) : readExt b = some (v, r) ↔ Upto [.E v] b r := by
  rw [upto_one]
  constructor
  · intro h
    cases b with
    | nil => cases h
    | cons x b =>
      simp only [readExt] at h
      split at h
      · next hx =>
        simp only [Option.some.injEq, Prod.mk.injEq] at h
        obtain ⟨rfl, rfl⟩ := h
        have := x.toNat_lt
        have : x.toNat ≠ 255 := by
          intro e; exact hx (by rw [← UInt8.toNat_inj, e]; rfl)
        exact ⟨[x], .inl ⟨by omega, ⟨by omega, by omega⟩, by simp [Field.bytes]⟩, rfl⟩
      · next hx =>
        simp only [ne_eq, Decidable.not_not] at hx
        subst hx
        obtain ⟨y, ⟨hy, rfl⟩, rfl⟩ := (upto_one _ _ _).1 ((read_word v b r).1 h)
        exact ⟨_, .inr ⟨hy, rfl⟩, rfl⟩
  · rintro ⟨x, ⟨h1, h2, rfl⟩ | ⟨h1, rfl⟩, rfl⟩
    · simp only [Field.bytes, List.cons_append, List.nil_append, readExt]
      have e : (UInt8.ofNat v.toNat).toNat = v.toNat := by
        rw [UInt8.toNat_ofNat']
        have := h2.1
        omega
      rw [if_pos]
      · simp only [Option.some.injEq, Prod.mk.injEq, and_true, e]
        have := h2.1
        omega
      · intro hc
        rw [hc] at e
        have := h2.1
        have e2 : (0xff : UInt8).toNat = 255 := rfl
        omega
    · simp only [List.cons_append, readExt]
      rw [if_neg (by simp)]
      exact (read_word v _ r).2 ((upto_one _ _ _).2 ⟨_, ⟨h1, rfl⟩, rfl⟩)

theorem read_list {α : Type} (rd : Bytes → Option (α × Bytes)) (items : α → List Piece) (h : ∀ v b r, rd b = some (v, r) ↔ Upto (items v) b r) :
    ∀ (n : Nat) (l : List α) (b r : Bytes), readN rd n b = some (l, r) ↔ l.length = n ∧ Upto (l.flatMap items) b r := by
  intro n
  induction n with
  | zero =>
    intro l b r
    simp only [readN, Option.some.injEq, Prod.mk.injEq]
    constructor
    · rintro ⟨rfl, rfl⟩; exact ⟨rfl, (upto_nil _ _).2 rfl⟩
    · rintro ⟨h1, h2⟩
      cases l with
      | nil => exact ⟨rfl, (upto_nil _ _).1 h2⟩
      | cons => simp at h1
  | succ n ih =>
    intro l b r
    simp only [readN, Option.bind_eq_bind, Option.bind_eq_some_iff, Prod.exists, Option.some.injEq, Prod.mk.injEq, h, ih]
    constructor
    · rintro ⟨v, m, h1, l', r', ⟨rfl, h2⟩, rfl, rfl⟩
      exact ⟨rfl, by rw [List.flatMap_cons, upto_append]; exact ⟨m, h1, h2⟩⟩
    · rintro ⟨h1, h2⟩
      cases l with
      | nil => simp at h1
      | cons v l =>
        rw [List.flatMap_cons, upto_append] at h2
        obtain ⟨m, h2, h3⟩ := h2
        exact ⟨v, m, h2, l, r, ⟨by simpa using h1, h3⟩, rfl, rfl⟩

theorem flatMap_single {α β : Type} (l : List α) (g : α → β) : l.flatMap (fun x => [g x]) = l.map g := by
  induction l with
  | nil => rfl
  | cons x l ih => rw [List.flatMap_cons, ih]; rfl

theorem read_byteList (n : Nat) (l : List Int) (b r : Bytes) : readN (readU 1) n b = some (l, r) ↔ l.length = n ∧ Upto (l.map B) b r := by
  rw [read_list (readU 1) (fun v => [B v]) read_byte, flatMap_single]

theorem read_wordList (n : Nat) (l : List Int) (b r : Bytes) : readN (readU 2) n b = some (l, r) ↔ l.length = n ∧ Upto (l.map W) b r := by
  rw [read_list (readU 2) (fun v => [W v]) read_word, flatMap_single]

theorem read_extList (n : Nat) (l : List Int) (b r : Bytes) : readN readExt n b = some (l, r) ↔ l.length = n ∧ Upto (l.map .E) b r := by
  rw [read_list readExt (fun v => [.E v]) read_ext, flatMap_single]

theorem upto_byte_bound {v : Int} {b r : Bytes} (h : Upto [B v] b r) : 0 ≤ v ∧ v ≤ 255 := by
  obtain ⟨x, ⟨h, -⟩, -⟩ := (upto_one _ _ _).1 h
  exact h

theorem upto_known (n : UInt8) (b r : Bytes) : Upto [B n.toNat] b r ↔ b = n :: r := by
  rw [← read_byte]
  constructor
  · intro h
    cases b with
    | nil => simp [readU, takeBytes] at h
    | cons x b =>
      rw [Grf.readU_one] at h
      simp only [Option.some.injEq, Prod.mk.injEq] at h
      have : x = n := by rw [← UInt8.toNat_inj]; omega
      rw [this, h.2]
  · rintro rfl
    exact Grf.readU_one n r

/-- The first item of an action is its number. -/
theorem begins_number (n : UInt8) (k : Int) (hk : k = (n.toNat : Int)) (l : List Piece) (b : Bytes) : Begins (B k :: l) b ↔ ∃ t, b = n :: t ∧ Begins l t := by
  subst hk
  rw [begins_iff]
  constructor
  · rintro ⟨r, h⟩
    obtain ⟨m, h1, h2⟩ := (upto_cons _ _ _ _).1 h
    exact ⟨m, (upto_known n b m).1 h1, (begins_iff _ _).2 ⟨r, h2⟩⟩
  · rintro ⟨t, rfl, h⟩
    obtain ⟨r, h⟩ := (begins_iff _ _).1 h
    exact ⟨r, (upto_cons _ _ _ _).2 ⟨t, (upto_known n _ t).2 rfl, h⟩⟩

theorem feature_iff (n : Int) (f : Nat) : feature n = some f ↔ n = f ∧ f ≤ 0x14 := by
  unfold feature
  constructor
  · intro h
    split at h
    · simp only [Option.some.injEq] at h; omega
    · cases h
  · rintro ⟨rfl, h⟩
    rw [if_pos (by omega)]; simp

theorem pseudo_first (T : Nat → List (String × VarData)) (ctx c : PCtx) (bs : Bytes) (d : Decoded) (n : UInt8) (hn : d.number = n) :
    decodePseudo T ctx bs = some (some d, c) ↔ ∃ t, bs = n :: t ∧ decodePseudo T ctx (n :: t) = some (some d, c) := by
  constructor
  · intro h
    cases bs with
    | nil => cases h
    | cons a t =>
      have := decoded_kind_is_first_byte T ctx c a t d h
      rw [hn] at this
      subst this
      exact ⟨t, rfl, h⟩
  · rintro ⟨t, rfl, h⟩; exact h

theorem begins_tail (l : List Piece) (b : Bytes) : Begins l b ↔ ∃ r, Upto l b r := begins_iff l b

/-! ### The actions -/

/-- **C64** Sprite sets. -/
theorem reads_sets (T : Nat → List (String × VarData)) (ctx c : PCtx) (bs : Bytes) (a : Sets) :
    decodePseudo T ctx bs = some (some (.sets a), c) ↔
      Begins (setsItems a) bs ∧ a.feature ≤ 0x14 ∧ (a.firstSet = none → a.setCount ≠ 0) ∧ c = ⟨.graphics, a.setCount * a.spriteCount⟩ := by
  obtain ⟨f, n, k, first⟩ := a
  rw [pseudo_first _ _ _ _ _ 1 rfl]
  have key : ∀ t m, decode1 t = some (⟨f, n, k, first⟩, m) ↔ (∃ r, Upto ((setsItems ⟨f, n, k, first⟩).tail) t r) ∧ f ≤ 0x14 ∧
      (first = none → n ≠ 0) ∧ m = n * k := by
    intro t m
    cases first with
    | none =>
      simp only [decode1, Option.bind_eq_bind, Option.bind_eq_some_iff, Prod.exists, read_byte, feature_iff, setsItems, List.tail_cons]
      constructor
      · rintro ⟨f', r1, h1, f'', ⟨rfl, hf⟩, n', r2, h2, h⟩
        split at h
        · simp only [Option.bind_eq_some_iff, Prod.exists, read_ext] at h
          obtain ⟨_, _, _, _, _, _, _, _, _, e⟩ := h
          simp at e
        · next hn =>
          simp only [Option.bind_eq_some_iff, Prod.exists, read_ext] at h
          obtain ⟨k', r3, h3, e⟩ := h
          simp only [Option.some.injEq, Prod.mk.injEq, Sets.mk.injEq, and_true] at e
          obtain ⟨⟨rfl, rfl, rfl⟩, rfl⟩ := e
          exact ⟨⟨r3, (upto_cons _ _ _ _).2 ⟨r1, h1, (upto_cons _ _ _ _).2 ⟨r2, h2, h3⟩⟩⟩, hf, fun _ => hn, rfl⟩
      · rintro ⟨⟨r, h⟩, hf, hn, rfl⟩
        obtain ⟨r1, h1, h⟩ := (upto_cons _ _ _ _).1 h
        obtain ⟨r2, h2, h⟩ := (upto_cons _ _ _ _).1 h
        refine ⟨_, r1, h1, f, ⟨rfl, hf⟩, n, r2, h2, ?_⟩
        rw [if_neg (hn trivial)]
        simp only [Option.bind_eq_some_iff, Prod.exists, read_ext]
        exact ⟨k, r, h, rfl⟩
    | some first =>
      simp only [decode1, Option.bind_eq_bind, Option.bind_eq_some_iff, Prod.exists, read_byte, feature_iff, setsItems, List.tail_cons]
      constructor
      · rintro ⟨f', r1, h1, f'', ⟨rfl, hf⟩, n', r2, h2, h⟩
        split at h
        · next hn =>
          subst hn
          simp only [Option.bind_eq_some_iff, Prod.exists, read_ext] at h
          obtain ⟨x, r3, h3, y, r4, h4, z, r5, h5, e⟩ := h
          simp only [Option.some.injEq, Prod.mk.injEq, Sets.mk.injEq] at e
          obtain ⟨⟨rfl, rfl, rfl, rfl⟩, rfl⟩ := e
          exact ⟨⟨r5, (upto_cons _ _ _ _).2 ⟨r1, h1, (upto_cons _ _ _ _).2 ⟨r2, h2, (upto_cons _ _ _ _).2 ⟨r3, h3,
            (upto_cons _ _ _ _).2 ⟨r4, h4, h5⟩⟩⟩⟩⟩, hf, by simp, rfl⟩
        · simp only [Option.bind_eq_some_iff, Prod.exists, read_ext] at h
          obtain ⟨_, _, _, e⟩ := h
          simp at e
      · rintro ⟨⟨r, h⟩, hf, hn, rfl⟩
        obtain ⟨r1, h1, h⟩ := (upto_cons _ _ _ _).1 h
        obtain ⟨r2, h2, h⟩ := (upto_cons _ _ _ _).1 h
        obtain ⟨r3, h3, h⟩ := (upto_cons _ _ _ _).1 h
        obtain ⟨r4, h4, h⟩ := (upto_cons _ _ _ _).1 h
        refine ⟨_, r1, h1, f, ⟨rfl, hf⟩, 0, r2, h2, ?_⟩
        rw [if_pos rfl]
        simp only [Option.bind_eq_some_iff, Prod.exists, read_ext]
        exact ⟨first, r3, h3, n, r4, h4, k, r, h, rfl⟩
  have hi : ∃ l, setsItems ⟨f, n, k, first⟩ = B 1 :: l := by cases first <;> exact ⟨_, rfl⟩
  obtain ⟨l, hl⟩ := hi
  rw [hl, begins_number 1 1 rfl]
  rw [hl] at key
  simp only [dp01, Option.map_eq_some_iff, Prod.mk.injEq, Option.some.injEq, Decoded.sets.injEq, begins_tail]
  simp only [List.tail_cons] at key
  constructor
  · rintro ⟨t, rfl, ⟨a, m⟩, h, rfl, rfl⟩
    obtain ⟨h1, h2, h3, rfl⟩ := (key t m).1 h
    exact ⟨⟨t, rfl, h1⟩, h2, h3, rfl⟩
  · rintro ⟨⟨t, rfl, h1⟩, h2, h3, rfl⟩
    exact ⟨t, rfl, (_, _), (key t _).2 ⟨h1, h2, h3, rfl⟩, rfl, rfl⟩

theorem upto_cons2 (i j : Piece) (l : List Piece) (b r : Bytes) : Upto (i :: j :: l) b r ↔ ∃ m, Upto [i] b m ∧ Upto (j :: l) m r :=
  upto_cons i (j :: l) b r

/-- A decoder whose result is described by items, with the byte of the action before it. -/
theorem reads_wrap {α : Type} {T : Nat → List (String × VarData)} {ctx : PCtx} {dec : Bytes → Option α} {mk : α → Decoded} {cx : α → PCtx}
    {n : UInt8} (hdp : ∀ t, decodePseudo T ctx (n :: t) = (dec t).map fun d => (some (mk d), cx d)) (d : Decoded) (hn : d.number = n)
    (l : List Piece) (k : Int) (hk : k = (n.toNat : Int)) (P : α → Prop) (hkey : ∀ t a, mk a = d → (dec t = some a ↔ Begins l t ∧ P a)) (c : PCtx) (bs : Bytes) :
    decodePseudo T ctx bs = some (some d, c) ↔ Begins (B k :: l) bs ∧ ∃ a, mk a = d ∧ P a ∧ c = cx a := by
  rw [pseudo_first _ _ _ _ _ n hn, begins_number n k hk]
  simp only [hdp, Option.map_eq_some_iff, Prod.mk.injEq, Option.some.injEq]
  constructor
  · rintro ⟨t, rfl, a, h, h1, rfl⟩
    obtain ⟨h2, h3⟩ := (hkey t a h1).1 h
    exact ⟨⟨t, rfl, h2⟩, a, h1, h3, rfl⟩
  · rintro ⟨⟨t, rfl, h2⟩, a, h1, h3, rfl⟩
    exact ⟨t, rfl, a, (hkey t a h1).2 ⟨h2, h3⟩, h1, rfl⟩

theorem flag_byte (t k : Int) (f : Bool) (h : 0 ≤ t ∧ t ≤ 255) :
    (pyAnd t 0x7f = k ∧ (pyAnd t 0x80 != 0) = f) ↔ (0 ≤ k ∧ k < 128) ∧ t = flagged f k := by
  have h1 : ∀ t : Fin 256, (0 ≤ pyAnd (t.val : Int) 0x7f ∧ pyAnd (t.val : Int) 0x7f < 128) ∧
      (t.val : Int) = flagged (pyAnd (t.val : Int) 0x80 != 0) (pyAnd (t.val : Int) 0x7f) := by decide +kernel
  have h2 : ∀ k : Fin 128, ∀ f : Bool, pyAnd (flagged f (k.val : Int)) 0x7f = k.val ∧ (pyAnd (flagged f (k.val : Int)) 0x80 != 0) = f := by decide +kernel
  obtain ⟨n, rfl⟩ := Int.eq_ofNat_of_zero_le h.1
  constructor
  · rintro ⟨rfl, rfl⟩
    exact h1 ⟨n, by omega⟩
  · rintro ⟨⟨h3, h4⟩, e⟩
    obtain ⟨m, rfl⟩ := Int.eq_ofNat_of_zero_le h3
    rw [e]
    exact h2 ⟨m, by omega⟩ f

theorem flagged_bound (k : Int) (f : Bool) (h : 0 ≤ k ∧ k < 128) : 0 ≤ flagged f k ∧ flagged f k ≤ 255 := by
  have h2 : ∀ k : Fin 128, ∀ f : Bool, 0 ≤ flagged f (k.val : Int) ∧ flagged f (k.val : Int) ≤ 255 := by decide +kernel
  obtain ⟨m, rfl⟩ := Int.eq_ofNat_of_zero_le h.1
  exact h2 ⟨m, by omega⟩ f

/-- **C64** Replacement of new graphics. -/
theorem reads_newSprites (T : Nat → List (String × VarData)) (ctx c : PCtx) (bs : Bytes) (a : NewSprites) :
    decodePseudo T ctx bs = some (some (.newSprites a), c) ↔
      Begins (newSpritesItems a) bs ∧ (0 ≤ a.setType ∧ a.setType < 128) ∧ c = ⟨.graphics, a.count⟩ := by
  obtain ⟨t, n, o⟩ := a
  have hflag : ∀ u : Int, 0 ≤ u ∧ u ≤ 255 → (pyAnd u 0x80 ≠ 0 ↔ 128 ≤ u) ∧ (128 ≤ u → pyAnd u (-129) = u - 128) := by
    intro u hu
    have : ∀ t : Fin 256, (pyAnd (t.val : Int) 0x80 ≠ 0 ↔ 128 ≤ (t.val : Int)) ∧ (128 ≤ (t.val : Int) → pyAnd (t.val : Int) (-129) = (t.val : Int) - 128) := by
      decide +kernel
    obtain ⟨m, rfl⟩ := Int.eq_ofNat_of_zero_le hu.1
    exact this ⟨m, by omega⟩
  cases o with
  | none =>
    rw [reads_wrap (dp05 T ctx) (.newSprites ⟨t, n, none⟩) rfl [B t, .E n] 5 rfl (fun a => (0 ≤ t ∧ t < 128) ∧ a.2 = n)]
    · constructor
      · rintro ⟨h1, ⟨x, y⟩, e, ⟨h2, rfl⟩, rfl⟩; exact ⟨h1, h2, rfl⟩
      · rintro ⟨h1, h2, rfl⟩; exact ⟨h1, (⟨t, n, none⟩, n), rfl, ⟨h2, rfl⟩, rfl⟩
    · rintro bs ⟨x, y⟩ e
      simp only [Decoded.newSprites.injEq] at e
      subst e
      simp only [decode5, Option.bind_eq_bind, Option.bind_eq_some_iff, Prod.exists, read_byte, read_ext, begins_iff, upto_cons2]
      constructor
      · rintro ⟨u, r1, h1, k, r2, h2, h⟩
        have hu := upto_byte_bound h1
        split at h
        · simp only [Option.bind_eq_some_iff, Prod.exists, Option.some.injEq, Prod.mk.injEq, NewSprites.mk.injEq] at h
          obtain ⟨_, _, _, ⟨_, _, e⟩, _⟩ := h
          cases e
        · next hn =>
          rw [(hflag u hu).1] at hn
          simp only [Option.some.injEq, Prod.mk.injEq, NewSprites.mk.injEq, and_true] at h
          obtain ⟨⟨rfl, rfl⟩, rfl⟩ := h
          exact ⟨⟨r2, r1, h1, h2⟩, ⟨hu.1, by omega⟩, rfl⟩
      · rintro ⟨⟨r2, r1, h1, h2⟩, h3, rfl⟩
        refine ⟨t, r1, h1, _, r2, h2, ?_⟩
        rw [if_neg]
        rw [(hflag t (upto_byte_bound h1)).1]
        omega
  | some o =>
    have hw : 0 ≤ t ∧ t < 128 → withBit 7 t = t + 128 := by
      intro h
      unfold withBit
      rw [if_pos (by omega)]; rfl
    rw [show newSpritesItems ⟨t, n, some o⟩ = [B 5, B (withBit 7 t), .E n, .E o] from rfl,
      reads_wrap (dp05 T ctx) (.newSprites ⟨t, n, some o⟩) rfl [B (withBit 7 t), .E n, .E o] 5 rfl (fun a => (0 ≤ t ∧ t < 128) ∧ a.2 = n)]
    · constructor
      · rintro ⟨h1, ⟨x, y⟩, e, ⟨h2, rfl⟩, rfl⟩; exact ⟨h1, h2, rfl⟩
      · rintro ⟨h1, h2, rfl⟩; exact ⟨h1, (⟨t, n, some o⟩, n), rfl, ⟨h2, rfl⟩, rfl⟩
    · rintro bs ⟨x, y⟩ e
      simp only [Decoded.newSprites.injEq] at e
      subst e
      simp only [decode5, Option.bind_eq_bind, Option.bind_eq_some_iff, Prod.exists, read_byte, read_ext, begins_iff, upto_cons2]
      constructor
      · rintro ⟨u, r1, h1, k, r2, h2, h⟩
        have hu := upto_byte_bound h1
        split at h
        · next hn =>
          rw [(hflag u hu).1] at hn
          simp only [Option.bind_eq_some_iff, Prod.exists, Option.some.injEq, Prod.mk.injEq, NewSprites.mk.injEq, read_ext] at h
          obtain ⟨o', r3, h3, ⟨e1, rfl, rfl⟩, rfl⟩ := h
          rw [(hflag u hu).2 hn] at e1
          have : withBit 7 t = u := by rw [hw (by omega)]; omega
          rw [this]
          exact ⟨⟨r3, r1, h1, r2, h2, h3⟩, by omega, rfl⟩
        · simp only [Option.some.injEq, Prod.mk.injEq, NewSprites.mk.injEq] at h
          obtain ⟨⟨_, _, e⟩, _⟩ := h
          cases e
      · rintro ⟨⟨r3, r1, h1, r2, h2, h3⟩, h4, rfl⟩
        rw [hw h4] at h1
        refine ⟨_, r1, h1, _, r2, h2, ?_⟩
        have hb := upto_byte_bound h1
        rw [if_pos (((hflag _ hb).1).2 (by omega))]
        simp only [Option.bind_eq_some_iff, Prod.exists, Option.some.injEq, Prod.mk.injEq, NewSprites.mk.injEq, read_ext]
        refine ⟨o, r3, h3, ⟨?_, by simp⟩, by simp⟩
        rw [(hflag _ hb).2 (by omega)]; omega

/-! ### Kinds which do not change the context -/

/-- The decoder returns this action for these bytes. -/
def Reads (T : Nat → List (String × VarData)) (ctx : PCtx) (bs : Bytes) (d : Decoded) : Prop := ∃ c, decodePseudo T ctx bs = some (some d, c)

theorem reads_rest {α : Type} {T : Nat → List (String × VarData)} {ctx : PCtx} {dec : Bytes → Option α} {mk : α → Decoded} {cx : α → PCtx}
    {n : UInt8} (hdp : ∀ t, decodePseudo T ctx (n :: t) = (dec t).map fun d => (some (mk d), cx d)) (a : α) (hn : (mk a).number = n)
    (hmk : ∀ b, mk b = mk a → b = a)
    (l : List Piece) (k : Int) (hk : k = (n.toNat : Int)) (Q : Bytes → Prop) (hkey : ∀ t, dec t = some a ↔ ∃ r, Upto l t r ∧ Q r) (bs : Bytes) :
    Reads T ctx bs (mk a) ↔ ∃ x r, Holds (B k :: l) x ∧ bs = x ++ r ∧ Q r := by
  have e : (∃ x r, Holds (B k :: l) x ∧ bs = x ++ r ∧ Q r) ↔ ∃ r, Upto (B k :: l) bs r ∧ Q r :=
    ⟨fun ⟨x, r, h1, h2, h3⟩ => ⟨r, ⟨x, h1, h2⟩, h3⟩, fun ⟨r, ⟨x, h1, h2⟩, h3⟩ => ⟨x, r, h1, h2, h3⟩⟩
  rw [e, Reads]
  subst hk
  constructor
  · rintro ⟨c, h⟩
    obtain ⟨t, rfl, h⟩ := (pseudo_first _ _ _ _ _ n hn).1 h
    rw [hdp] at h
    simp only [Option.map_eq_some_iff, Prod.mk.injEq, Option.some.injEq] at h
    obtain ⟨b, h1, h2, -⟩ := h
    have := hmk b h2
    subst this
    obtain ⟨r, h3, h4⟩ := (hkey t).1 h1
    exact ⟨r, (upto_cons _ _ _ _).2 ⟨t, (upto_known n _ t).2 rfl, h3⟩, h4⟩
  · rintro ⟨r, h1, h2⟩
    obtain ⟨t, h3, h4⟩ := (upto_cons _ _ _ _).1 h1
    rw [upto_known] at h3
    subst h3
    exact ⟨cx a, by rw [hdp, (hkey t).2 ⟨r, h4, h2⟩]; rfl⟩

theorem reads_begin {α : Type} {T : Nat → List (String × VarData)} {ctx : PCtx} {dec : Bytes → Option α} {mk : α → Decoded} {cx : α → PCtx}
    {n : UInt8} (hdp : ∀ t, decodePseudo T ctx (n :: t) = (dec t).map fun d => (some (mk d), cx d)) (a : α) (hn : (mk a).number = n)
    (hmk : ∀ b, mk b = mk a → b = a)
    (l : List Piece) (k : Int) (hk : k = (n.toNat : Int)) (P : Prop) (hkey : ∀ t, dec t = some a ↔ (∃ r, Upto l t r) ∧ P) (bs : Bytes) :
    Reads T ctx bs (mk a) ↔ Begins (B k :: l) bs ∧ P := by
  rw [reads_rest hdp a hn hmk l k hk (fun _ => P) (fun t => by rw [hkey]; simp)]
  constructor
  · rintro ⟨x, r, h1, h2, h3⟩; exact ⟨⟨x, r, h1, h2⟩, h3⟩
  · rintro ⟨⟨x, r, h1, h2⟩, h3⟩; exact ⟨x, r, h1, h2, h3⟩

theorem upto_len {α : Type} (l : List α) (v : Int) : (l.length = v.toNat ∧ 0 ≤ v) ↔ v = l.length := by omega

theorem upto_byte_ok (n : Nat) (b r : Bytes) (h : Upto [B n] b r) : n ≤ 255 := by have := upto_byte_bound h; omega

/-- A list of things with the number of them in a byte before it. -/
theorem counted {α : Type} (l : List α) (its : α → List Piece) (t r : Bytes) :
    (∃ n m, Upto [B n] t m ∧ l.length = n.toNat ∧ Upto (l.flatMap its) m r) ↔ Upto (B l.length :: l.flatMap its) t r := by
  rw [upto_cons]
  constructor
  · rintro ⟨n, m, h1, h2, h3⟩
    have := upto_byte_bound h1
    obtain rfl : n = l.length := by omega
    exact ⟨m, h1, h3⟩
  · rintro ⟨m, h1, h2⟩
    exact ⟨_, m, h1, by omega, h2⟩

theorem read_entry (e : Int × Int) (b r : Bytes) : readEntry b = some (e, r) ↔ Upto [B e.1, W e.2] b r := by
  obtain ⟨k, v⟩ := e
  simp only [readEntry, Option.bind_eq_bind, Option.bind_eq_some_iff, Prod.exists, read_byte, read_word, Option.some.injEq, Prod.mk.injEq, upto_cons2]
  constructor
  · rintro ⟨_, m, h1, _, m', h2, ⟨rfl, rfl⟩, rfl⟩; exact ⟨m, h1, h2⟩
  · rintro ⟨m, h1, h2⟩; exact ⟨_, m, h1, _, r, h2, ⟨rfl, rfl⟩, rfl⟩

theorem read_set (e : Int × Int) (b r : Bytes) : readSet b = some (e, r) ↔ Upto [B e.2, W e.1] b r := by
  obtain ⟨k, v⟩ := e
  simp only [readSet, Option.bind_eq_bind, Option.bind_eq_some_iff, Prod.exists, read_byte, read_word, Option.some.injEq, Prod.mk.injEq, upto_cons2]
  constructor
  · rintro ⟨_, m, h1, _, m', h2, ⟨rfl, rfl⟩, rfl⟩; exact ⟨m, h1, h2⟩
  · rintro ⟨m, h1, h2⟩; exact ⟨_, m, h1, _, r, h2, ⟨rfl, rfl⟩, rfl⟩

/-- **C64** Replacement of original sprites. -/
theorem reads_old (T : Nat → List (String × VarData)) (ctx c : PCtx) (bs : Bytes) (sets : List (Int × Int)) :
    decodePseudo T ctx bs = some (some (.oldSprites sets), c) ↔
      Begins (oldItems sets) bs ∧ c = ⟨.graphics, (sets.map (·.2)).sum⟩ := by
  rw [show oldItems sets = B 10 :: (B sets.length :: sets.flatMap fun s => [B s.2, W s.1]) from rfl,
    reads_wrap (dp0a T ctx) (.oldSprites sets) rfl (B sets.length :: sets.flatMap fun s => [B s.2, W s.1]) 10 rfl (fun a => a.2 = (sets.map (·.2)).sum)]
  · constructor
    · rintro ⟨h1, ⟨x, y⟩, e, rfl, rfl⟩; exact ⟨h1, rfl⟩
    · rintro ⟨h1, rfl⟩; exact ⟨h1, (sets, _), rfl, rfl, rfl⟩
  · rintro bs ⟨x, y⟩ e
    simp only [Decoded.oldSprites.injEq] at e
    subst e
    simp only [decodeA, Option.bind_eq_bind, Option.bind_eq_some_iff, Prod.exists, read_byte, read_list readSet _ read_set, begins_iff,
      Option.some.injEq, Prod.mk.injEq, ← counted]
    constructor
    · rintro ⟨n, m, h1, l, r, ⟨h2, h3⟩, rfl, rfl⟩
      exact ⟨⟨r, n, m, h1, h2, h3⟩, rfl⟩
    · rintro ⟨⟨r, n, m, h1, h2, h3⟩, rfl⟩
      exact ⟨n, m, h1, _, r, ⟨h2, h3⟩, rfl, rfl⟩

/-- **C64** Glyphs and translations (12, 13) are never read: the decompiler fails on all of them. -/
theorem reads_glyphs (T : Nat → List (String × VarData)) (ctx : PCtx) (bs : Bytes) :
    decodePseudo T ctx (0x12 :: bs) = none ∧ decodePseudo T ctx (0x13 :: bs) = none := by
  refine ⟨dp12 T ctx bs, ?_⟩
  rw [decodePseudo_cons _ _ _ _ (by decide) (by decide)]; rfl

/-- **C64** Sprites whose bytes are changed by parameters. -/
theorem reads_modify (T : Nat → List (String × VarData)) (ctx : PCtx) (bs : Bytes) (ps : List ModParam) :
    Reads T ctx bs (.modify ps) ↔ Begins (modifyItems ps) bs ∧ ∀ p ∈ ps, p.num ≠ 255 := by
  have key : ∀ (fuel : Nat) (t : Bytes) (ps : List ModParam), t.length < fuel → (decode6 fuel t = some ps ↔
      (∃ r, Upto ((ps.flatMap fun p => [B p.num, B p.size, .E p.offset]) ++ [B 255]) t r) ∧ ∀ p ∈ ps, p.num ≠ 255) := by
    intro fuel
    induction fuel with
    | zero => intro t ps h; omega
    | succ fuel ih =>
      intro t ps ht
      simp only [decode6, Option.bind_eq_bind, Option.bind_eq_some_iff, Prod.exists, read_byte]
      have short : ∀ {n : Int} {m : Bytes}, Upto [B n] t m → m.length < fuel := by
        intro n m h
        obtain ⟨x, ⟨_, rfl⟩, rfl⟩ := (upto_one _ _ _).1 h
        simp [Field.bytes] at ht
        omega
      constructor
      · rintro ⟨n, m, h1, h⟩
        split at h
        · next hn =>
          subst hn
          simp only [Option.some.injEq] at h
          subst h
          exact ⟨⟨m, h1⟩, by simp⟩
        · next hn =>
          simp only [Option.bind_eq_some_iff, Prod.exists, read_byte, read_ext, Option.some.injEq] at h
          obtain ⟨s, m2, h2, o, m3, h3, l, h4, rfl⟩ := h
          have e2 : m2.length < fuel := by
            have := short h1
            obtain ⟨x, _, rfl⟩ := (upto_one _ _ _).1 h2
            simp at this; omega
          have e3 : m3.length < fuel := by
            obtain ⟨x, _, rfl⟩ := (upto_one _ _ _).1 h3
            simp at e2; omega
          obtain ⟨⟨r, h5⟩, h6⟩ := (ih m3 l e3).1 h4
          refine ⟨⟨r, ?_⟩, ?_⟩
          · rw [List.flatMap_cons, List.append_assoc, upto_append]
            refine ⟨m3, ?_, h5⟩
            simp only [upto_cons2]
            exact ⟨m, h1, m2, h2, h3⟩
          · intro p hp
            rcases List.mem_cons.1 hp with rfl | hp
            · exact hn
            · exact h6 p hp
      · rintro ⟨⟨r, h⟩, hn⟩
        cases ps with
        | nil =>
          exact ⟨255, r, h, by rw [if_pos rfl]⟩
        | cons p ps =>
          rw [List.flatMap_cons, List.append_assoc, upto_append] at h
          obtain ⟨m3, h, h5⟩ := h
          simp only [upto_cons2] at h
          obtain ⟨m, h1, m2, h2, h3⟩ := h
          have e2 : m2.length < fuel := by
            have := short h1
            obtain ⟨x, _, rfl⟩ := (upto_one _ _ _).1 h2
            simp at this; omega
          have e3 : m3.length < fuel := by
            obtain ⟨x, _, rfl⟩ := (upto_one _ _ _).1 h3
            simp at e2; omega
          refine ⟨p.num, m, h1, ?_⟩
          rw [if_neg (hn p (by simp))]
          simp only [Option.bind_eq_some_iff, Prod.exists, read_byte, read_ext, Option.some.injEq]
          exact ⟨p.size, m2, h2, p.offset, m3, h3, ps, (ih m3 ps e3).2 ⟨⟨r, h5⟩, fun p hp => hn p (by simp [hp])⟩, rfl⟩
  exact reads_begin (dec := fun t => decode6 (t.length + 1) t) (dp06 T ctx) ps rfl (by simp) _ 6 rfl _
    (fun t => key (t.length + 1) t ps (by omega)) bs

/-- **C64** Number of sounds. -/
theorem reads_sounds (T : Nat → List (String × VarData)) (ctx c : PCtx) (bs : Bytes) (n : Int) :
    decodePseudo T ctx bs = some (some (.sounds n), c) ↔ Begins [B 17, W n] bs ∧ c = ⟨.sound, n⟩ := by
  rw [reads_wrap (dp11 T ctx) (.sounds n) rfl [W n] 17 rfl (fun _ => True)]
  · simp
  · intro t a e
    simp only [Decoded.sounds.injEq] at e
    subst e
    simp only [decode11, Option.map_eq_some_iff, Prod.exists, read_word, begins_iff, and_true]
    constructor
    · rintro ⟨_, r, h, rfl⟩; exact ⟨r, h⟩
    · rintro ⟨r, h⟩; exact ⟨_, r, h, rfl⟩

/-- **C64** Comments: all bytes after the first. -/
theorem reads_comment (T : Nat → List (String × VarData)) (ctx : PCtx) (bs data : Bytes) :
    Reads T ctx bs (.comment data) ↔ bs = 12 :: data := by
  constructor
  · rintro ⟨c, h⟩
    obtain ⟨t, rfl, h⟩ := (pseudo_first _ _ _ _ _ 12 rfl).1 h
    rw [dp0c] at h
    simp only [Option.some.injEq, Prod.mk.injEq, Decoded.comment.injEq] at h
    rw [h.1]
  · rintro rfl
    exact ⟨_, dp0c T ctx data⟩

/-- **C64** Labels: the label and all bytes after it. -/
theorem reads_label (T : Nat → List (String × VarData)) (ctx : PCtx) (bs : Bytes) (a : Lbl) :
    Reads T ctx bs (.label a) ↔ ∃ x, Holds [B 16, B a.label] x ∧ bs = x ++ a.comment := by
  rw [reads_rest (dp10 T ctx) a rfl (by simp) [B a.label] 16 rfl (fun r => r = a.comment)]
  · constructor
    · rintro ⟨x, r, h, rfl, rfl⟩; exact ⟨x, h, rfl⟩
    · rintro ⟨x, h, rfl⟩; exact ⟨x, _, h, rfl, rfl⟩
  · intro t
    obtain ⟨l, s⟩ := a
    simp only [decode10, Option.bind_eq_bind, Option.bind_eq_some_iff, Prod.exists, read_byte, Option.some.injEq, Lbl.mk.injEq]
    constructor
    · rintro ⟨_, r, h, rfl, rfl⟩; exact ⟨r, h, rfl⟩
    · rintro ⟨r, h, rfl⟩; exact ⟨_, r, h, rfl, rfl⟩

/-- **C64** Arithmetic on parameters. -/
theorem reads_compute (T : Nat → List (String × VarData)) (ctx : PCtx) (bs : Bytes) (a : Compute) :
    Reads T ctx bs (.compute a) ↔ Begins (computeItems a) bs ∧ (0 ≤ a.operation ∧ a.operation ≤ 12) ∧
      ((a.source1 = 255 ∨ a.source2 = 255) → ∃ n, a.value = .int n) ∧ (a.source1 ≠ 255 → a.source2 ≠ 255 → a.value = .none) := by
  obtain ⟨t, op, u, s1, s2, v⟩ := a
  have e0 : computeItems ⟨t, op, u, s1, s2, v⟩ = B 13 :: (B t :: B (flagged u op) :: B s1 :: B s2 :: (match v with | .int n => [D n] | _ => [])) := rfl
  rw [e0]
  refine reads_begin (dp0d T ctx) ⟨t, op, u, s1, s2, v⟩ rfl (by simp) _ 13 rfl _ (fun bs => ?_) bs
  simp only [decodeD, Option.bind_eq_bind, Option.bind_eq_some_iff, Prod.exists, read_byte]
  have hv : ∀ (m : Bytes), readValue s1 s2 m = some v ↔ (∃ r, Upto (match v with | .int n => [D n] | _ => []) m r) ∧
      ((s1 = 255 ∨ s2 = 255) → ∃ n, v = .int n) ∧ (s1 ≠ 255 → s2 ≠ 255 → v = .none) := by
    intro m
    unfold readValue
    split
    · next h =>
      simp only [Option.map_eq_some_iff, Prod.exists, read_dword]
      constructor
      · rintro ⟨n, r, h1, rfl⟩
        exact ⟨⟨r, h1⟩, fun _ => ⟨n, rfl⟩, fun h2 h3 => by omega⟩
      · rintro ⟨⟨r, h1⟩, h2, -⟩
        obtain ⟨n, rfl⟩ := h2 h
        exact ⟨n, r, h1, rfl⟩
    · next h =>
      simp only [not_or] at h
      constructor
      · intro e
        simp only [Option.some.injEq] at e
        subst e
        exact ⟨⟨m, (upto_nil _ _).2 rfl⟩, fun h2 => by omega, fun _ _ => rfl⟩
      · rintro ⟨-, -, h3⟩
        rw [h3 h.1 h.2]
  constructor
  · rintro ⟨t', r1, h1, o, r2, h2, a1, r3, h3, a2, r4, h4, v', h5, h⟩
    split at h
    · next ho =>
      simp only [Option.some.injEq, Compute.mk.injEq] at h
      obtain ⟨rfl, e1, e2, rfl, rfl, rfl⟩ := h
      obtain ⟨h6, h7⟩ := (flag_byte o op u (upto_byte_bound h2)).1 ⟨e1, e2⟩
      rw [e1] at ho
      subst h7
      obtain ⟨⟨r, h8⟩, h9⟩ := (hv r4).1 h5
      refine ⟨⟨r, ?_⟩, ⟨h6.1, ho⟩, h9⟩
      rw [upto_cons]; refine ⟨r1, h1, ?_⟩
      rw [upto_cons]; refine ⟨r2, h2, ?_⟩
      rw [upto_cons]; refine ⟨r3, h3, ?_⟩
      rw [upto_cons]; exact ⟨r4, h4, h8⟩
    · cases h
  · rintro ⟨⟨r, h⟩, ho, h9⟩
    rw [upto_cons] at h; obtain ⟨r1, h1, h⟩ := h
    rw [upto_cons] at h; obtain ⟨r2, h2, h⟩ := h
    rw [upto_cons] at h; obtain ⟨r3, h3, h⟩ := h
    rw [upto_cons] at h; obtain ⟨r4, h4, h⟩ := h
    have hb := (flag_byte (flagged u op) op u (upto_byte_bound h2)).2 ⟨by omega, rfl⟩
    refine ⟨t, r1, h1, _, r2, h2, _, r3, h3, _, r4, h4, v, (hv r4).2 ⟨⟨r, h⟩, h9⟩, ?_⟩
    rw [hb.1, hb.2, if_pos ho.2]

theorem little_leBytes (n : Nat) (v : Nat) : littleEndian n (v : Int) = leBytes n v := by
  induction n generalizing v with
  | zero => rfl
  | succ n ih =>
    rw [littleEndian, leBytes, show ((v : Int) / 256) = ((v / 256 : Nat) : Int) by omega, ih]
    congr 1
    rw [show ((v : Int) % 256).toNat = v % 256 by omega]
    apply UInt8.toNat_inj.1
    rw [UInt8.toNat_ofNat', UInt8.toNat_ofNat']
    omega

theorem pow_cast {m n : Nat} (h : m < 256 ^ n) : (m : Int) < 256 ^ n := by
  have : ((m : Nat) : Int) < ((256 ^ n : Nat) : Int) := Int.ofNat_lt.2 h
  rwa [Int.natCast_pow] at this

theorem pow_uncast {m n : Nat} (h : (m : Int) < 256 ^ n) : m < 256 ^ n := by
  apply Int.ofNat_lt.1
  rwa [Int.natCast_pow]

theorem splitNul_iff (b t r : Bytes) : splitNul b = some (t, r) ↔ (0 : UInt8) ∉ t ∧ b = t ++ 0 :: r := by
  constructor
  · intro h
    by_cases h0 : (0 : UInt8) ∈ b
    · obtain ⟨x, y, rfl, hx⟩ := List.append_of_mem h0 |> fun ⟨x, y, e⟩ => (by
        obtain ⟨x, y, e, hx⟩ := List.eq_append_cons_of_mem h0
        exact ⟨x, y, e, hx⟩ : ∃ x y, b = x ++ 0 :: y ∧ (0 : UInt8) ∉ x)
      rw [splitNul_append x hx] at h
      simp only [Option.some.injEq, Prod.mk.injEq] at h
      obtain ⟨rfl, rfl⟩ := h
      exact ⟨hx, rfl⟩
    · exfalso
      have : ∀ b : Bytes, (0 : UInt8) ∉ b → splitNul b = none := by
        intro b
        induction b with
        | nil => intro _; rfl
        | cons x b ih =>
          intro hb
          simp only [List.mem_cons, not_or] at hb
          rw [splitNul, if_neg (fun e => hb.1 e.symm), ih hb.2]
          rfl
      rw [this b h0] at h
      cases h
  · rintro ⟨h, rfl⟩
    exact splitNul_append t h r

theorem splitNul_none (b : Bytes) : splitNul b = none ↔ (0 : UInt8) ∉ b := by
  constructor
  · intro h hm
    obtain ⟨t, r, e⟩ := splitNul_isSome b hm
    rw [h] at e; cases e
  · intro h
    cases e : splitNul b with
    | none => rfl
    | some p =>
      obtain ⟨t, r⟩ := p
      obtain ⟨_, rfl⟩ := (splitNul_iff _ _ _).1 e
      simp at h

/-- A number of `n` bytes. -/
theorem read_number (n : Nat) (v : Int) (b r : Bytes) :
    readU n b = some (v, r) ↔ Upto [text (littleEndian n v)] b r ∧ 0 ≤ v ∧ v < 256 ^ n := by
  rw [upto_one]
  constructor
  · intro h
    have h0 := h
    simp only [readU, takeBytes, Option.bind_eq_bind, Option.bind_eq_some_iff] at h
    obtain ⟨⟨x, t⟩, h1, h2⟩ := h
    split at h1
    · next hk =>
      simp only [Option.some.injEq, Prod.mk.injEq] at h1 h2
      obtain ⟨rfl, rfl⟩ := h1
      obtain ⟨rfl, rfl⟩ := h2
      have hl : (b.take n).length = n := by simp [hk]
      have h3 := leVal_lt (b.take n)
      rw [hl] at h3
      have h4 := leBytes_leVal (b.take n)
      rw [hl] at h4
      refine ⟨⟨b.take n, ⟨?_, ?_⟩, (List.take_append_drop n b).symm⟩, by omega, pow_cast h3⟩
      · trivial
      · rw [little_leBytes, h4]; rfl
    · cases h1
  · rintro ⟨⟨x, ⟨-, rfl⟩, rfl⟩, h1, h2⟩
    obtain ⟨m, rfl⟩ := Int.eq_ofNat_of_zero_le h1
    have h3 : m < 256 ^ n := pow_uncast h2
    rw [little_leBytes]
    exact readU_leBytes h3 r

/-- **C64** Conditions: the value has one byte for the tests of a bit (0 and 1), whatever size is given. -/
theorem reads_cond (T : Nat → List (String × VarData)) (ctx : PCtx) (bs : Bytes) (a : If) :
    Reads T ctx bs (.cond a) ↔ ∃ (size : Int) (n : Nat) (v : Int), Begins (ifItems a.isStatic a.var size a.condition n v a.skip) bs ∧
      n = (if a.condition < 2 then 1 else size.toNat) ∧ a.varsize = some (n : Int) ∧ a.value = .int v ∧ (0 ≤ v ∧ v < 256 ^ n) := by
  obtain ⟨st, var, sz, cond, val, skip⟩ := a
  have key : ∀ t, decode7 st t = some ⟨st, var, sz, cond, val, skip⟩ ↔ ∃ (size : Int) (n : Nat) (v : Int),
      (∃ r, Upto [B var, B size, B cond, text (littleEndian n v), B skip] t r) ∧
      n = (if cond < 2 then 1 else size.toNat) ∧ sz = some (n : Int) ∧ val = .int v ∧ (0 ≤ v ∧ v < 256 ^ n) := by
    intro t
    simp only [decode7, Option.bind_eq_bind, Option.bind_eq_some_iff, Prod.exists, read_byte]
    simp only [read_number, Option.some.injEq, If.mk.injEq, upto_cons2, true_and]
    constructor
    · rintro ⟨_, r1, h1, size, r2, h2, _, r3, h3, v, r4, ⟨h4, h5⟩, _, r5, h6, rfl, rfl, rfl, rfl, rfl⟩
      have := upto_byte_bound h2
      refine ⟨size, _, v, ⟨r5, r1, h1, r2, h2, r3, h3, r4, h4, h6⟩, ?_, ?_, rfl, h5⟩
      · split <;> rfl
      · split
        · rfl
        · simp only [Option.some.injEq]; omega
    · rintro ⟨size, n, v, ⟨r5, r1, h1, r2, h2, r3, h3, r4, h4, h6⟩, rfl, rfl, rfl, h5⟩
      have := upto_byte_bound h2
      have e : ((if cond < 2 then 1 else size.toNat : Nat) : Int) = if cond < 2 then 1 else size := by
        split <;> omega
      have e2 : (if cond < 2 then 1 else size : Int).toNat = if cond < 2 then 1 else size.toNat := by split <;> rfl
      refine ⟨_, r1, h1, _, r2, h2, _, r3, h3, v, r4, ?_, _, r5, h6, rfl, ?_, rfl, rfl, rfl⟩
      · rw [e2]; exact ⟨h4, h5⟩
      · rw [e]
  have wrap : ∀ (b : UInt8) (k : Int), k = (b.toNat : Int) → (Decoded.cond ⟨st, var, sz, cond, val, skip⟩).number = b →
      (∀ t, decodePseudo T ctx (b :: t) = (decode7 st t).map fun d => (some (.cond d), ctx.enter)) →
      (Reads T ctx bs (.cond ⟨st, var, sz, cond, val, skip⟩) ↔ ∃ (size : Int) (n : Nat) (v : Int),
        Begins (B k :: [B var, B size, B cond, text (littleEndian n v), B skip]) bs ∧
        n = (if cond < 2 then 1 else size.toNat) ∧ sz = some (n : Int) ∧ val = .int v ∧ (0 ≤ v ∧ v < 256 ^ n)) := by
    intro b k hk hb hdp
    simp only [begins_number b k hk, begins_iff]
    constructor
    · rintro ⟨c, h⟩
      obtain ⟨t, rfl, h⟩ := (pseudo_first _ _ _ _ _ b hb).1 h
      rw [hdp] at h
      simp only [Option.map_eq_some_iff, Prod.mk.injEq, Option.some.injEq, Decoded.cond.injEq] at h
      obtain ⟨_, h1, rfl, -⟩ := h
      obtain ⟨size, n, v, h2, h3⟩ := (key t).1 h1
      exact ⟨size, n, v, ⟨t, rfl, h2⟩, h3⟩
    · rintro ⟨size, n, v, ⟨t, rfl, h2⟩, h3⟩
      exact ⟨ctx.enter, by rw [hdp, (key t).2 ⟨size, n, v, h2, h3⟩]; rfl⟩
  cases st with
  | false => exact wrap 7 7 rfl rfl (dp07 T ctx)
  | true => exact wrap 9 9 rfl rfl (dp09 T ctx)

/-- **C64** Name and description of the file: without a NUL after the id of the file, the name is everything but the last byte and the
description nearly the whole action. -/
theorem reads_description (T : Nat → List (String × VarData)) (ctx : PCtx) (bs : Bytes) (a : Description) :
    Reads T ctx bs (.description a) ↔ ∃ (v : UInt8), a.version = (v.toNat : Int) ∧
      ((∃ d, a.grfid.length = 4 ∧ 0 ∉ a.name ∧ a.description = d.dropLast ∧ bs = [8, v] ++ a.grfid ++ a.name ++ [0] ++ d) ∨
       (∃ t, bs = [8, v] ++ t ∧ 0 ∉ t.drop 4 ∧ a.grfid = t.take 4 ∧ a.name = (t.drop 4).dropLast ∧ a.description = (v :: t).dropLast)) := by
  obtain ⟨ver, g, name, d⟩ := a
  constructor
  · rintro ⟨c, h⟩
    obtain ⟨t, rfl, h⟩ := (pseudo_first _ _ _ _ _ 8 rfl).1 h
    rw [dp08] at h
    simp only [Option.map_eq_some_iff, Prod.mk.injEq, Option.some.injEq, Decoded.description.injEq] at h
    obtain ⟨_, h1, rfl, -⟩ := h
    cases t with
    | nil => simp [decode8, readU, takeBytes] at h1
    | cons v t =>
      simp only [decode8, Grf.readU_one, Option.bind_eq_bind, Option.bind_some, List.drop_succ_cons, List.drop_zero] at h1
      refine ⟨v, ?_⟩
      cases hs : splitNul (t.drop 4) with
      | some p =>
        obtain ⟨n', d'⟩ := p
        rw [hs] at h1
        simp only [Option.some.injEq, Description.mk.injEq] at h1
        obtain ⟨rfl, rfl, rfl, rfl⟩ := h1
        obtain ⟨e2, e1⟩ := (splitNul_iff _ _ _).1 hs
        refine ⟨rfl, .inl ⟨d', ?_, e2, rfl, ?_⟩⟩
        · simp only [List.length_take]
          have : (t.drop 4).length ≠ 0 := by rw [e1]; simp
          simp at this; omega
        · have := List.take_append_drop 4 t
          rw [e1] at this
          simp only [List.cons_append, List.nil_append, List.append_assoc]
          exact congrArg (fun l => 8 :: v :: l) this.symm
      | none =>
        rw [hs] at h1
        simp only [Option.some.injEq, Description.mk.injEq] at h1
        obtain ⟨rfl, rfl, rfl, rfl⟩ := h1
        refine ⟨rfl, .inr ⟨t, rfl, ?_, rfl, rfl, rfl⟩⟩
        exact (splitNul_none _).1 hs
  · rintro ⟨v, e, ⟨d', h1, h2, h3, rfl⟩ | ⟨t, rfl, h2, h3, h4, h5⟩⟩
    · simp only at e h1 h2 h3
      subst e h3
      refine ⟨ctx.enter, ?_⟩
      simp only [List.cons_append, List.nil_append, List.append_assoc]
      rw [dp08]
      simp only [decode8, Grf.readU_one, Option.bind_eq_bind, Option.bind_some, List.drop_succ_cons, List.drop_zero]
      rw [List.drop_append_of_le_length (by omega), List.drop_of_length_le (l := g) (by omega), List.take_append_of_le_length (by omega),
        List.take_of_length_le (by omega), List.nil_append, splitNul_append name h2]
      rfl
    · simp only at e h3 h4 h5
      subst e h3 h4 h5
      refine ⟨ctx.enter, ?_⟩
      simp only [List.cons_append, List.nil_append]
      rw [dp08]
      simp only [decode8, Grf.readU_one, Option.bind_eq_bind, Option.bind_some, List.drop_succ_cons, List.drop_zero]
      rw [(splitNul_none _).2 h2]
      rfl

end Grf.Acts
