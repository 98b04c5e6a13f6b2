import Verif.Model.PropCodec
import Verif.Props.SpriteRef
/-!
# Proofs about the property codecs: lists, bytes, labels, tiles, registers
-/
namespace Grf.PropC

theorem cat_nil {bs : Bytes} (h : cat [] = some bs) : bs = [] := by simpa [cat] using h.symm

theorem cat_cons {x : Option Bytes} {xs : List (Option Bytes)} {bs : Bytes} (h : cat (x :: xs) = some bs) :
    ∃ a b, x = some a ∧ cat xs = some b ∧ bs = a ++ b := by
  simp only [cat, Option.bind_eq_bind, Option.bind_eq_some_iff, Option.some.injEq] at h
  obtain ⟨a, ha, b, hb, rfl⟩ := h
  exact ⟨a, b, ha, hb, rfl⟩

theorem cat_append {xs ys : List (Option Bytes)} {bs : Bytes} (h : cat (xs ++ ys) = some bs) :
    ∃ a b, cat xs = some a ∧ cat ys = some b ∧ bs = a ++ b := by
  induction xs generalizing bs with
  | nil => exact ⟨[], bs, rfl, h, rfl⟩
  | cons x xs ih =>
    obtain ⟨a, b, ha, hb, rfl⟩ := cat_cons h
    obtain ⟨c, d, hc, hd, rfl⟩ := ih hb
    exact ⟨a ++ c, d, by simp [cat, ha, hc], hd, by simp⟩

/-- Reading a list element by element. -/
theorem readN_cat {α β : Type} {e : α → Option Bytes} {r : Bytes → Option (β × Bytes)} {f : α → β} (l : List α)
    (h : ∀ x ∈ l, ∀ bs, e x = some bs → ∀ t, r (bs ++ t) = some (f x, t)) :
    ∀ bs, cat (l.map e) = some bs → ∀ t, readN r l.length (bs ++ t) = some (l.map f, t) := by
  induction l with
  | nil =>
    intro bs hb t
    rw [cat_nil hb]; rfl
  | cons x l ih =>
    intro bs hb t
    obtain ⟨a, b, ha, hb', rfl⟩ := cat_cons hb
    have h1 := h x (by simp) a ha (b ++ t)
    have h2 := ih (fun y hy => h y (by simp [hy])) b hb' t
    simp only [List.length_cons, readN, List.append_assoc, h1, h2, Option.bind_eq_bind, Option.bind_some, List.map_cons]

theorem byteOf_some {v : Int} {b : UInt8} (h : byteOf v = some b) : v = (b.toNat : Int) := by
  unfold byteOf at h
  split at h
  · next hv =>
    simp only [Option.some.injEq] at h
    subst h
    rw [UInt8.toNat_ofNat']
    have := hv.1; have := hv.2
    omega
  · simp at h

theorem bytesOf_some {l : List Int} {bs : Bytes} (h : bytesOf l = some bs) : l = intsOf bs := by
  induction l generalizing bs with
  | nil => simp [bytesOf] at h; subst h; rfl
  | cons v l ih =>
    simp only [bytesOf, List.mapM_cons, Option.bind_eq_bind, Option.bind_eq_some_iff, Option.pure_def, Option.some.injEq] at h
    obtain ⟨b, hb, r, hr, rfl⟩ := h
    rw [byteOf_some hb, ih hr]; rfl

theorem bytesOf_length {l : List Int} {bs : Bytes} (h : bytesOf l = some bs) : bs.length = l.length := by
  rw [bytesOf_some h]; simp [intsOf]

theorem readU_one (b : UInt8) (t : Bytes) : readU 1 (b :: t) = some ((b.toNat : Int), t) := by
  simp [readU, takeBytes, leVal]

theorem readN_bytes (bs t : Bytes) : readN (readU 1) bs.length (bs ++ t) = some (intsOf bs, t) := by
  induction bs with
  | nil => rfl
  | cons b bs ih =>
    simp only [List.length_cons, readN, List.cons_append, readU_one, Option.bind_eq_bind, Option.bind_some, ih]; rfl

theorem intsOf_nil : intsOf [] = [] := rfl
theorem intsOf_cons (b : UInt8) (bs : Bytes) : intsOf (b :: bs) = (b.toNat : Int) :: intsOf bs := rfl

theorem bytesOf_two {a b : Int} {bs : Bytes} (h : bytesOf [a, b] = some bs) :
    ∃ x y : UInt8, bs = [x, y] ∧ a = x.toNat ∧ b = y.toNat := by
  have hl := bytesOf_length h
  match bs, hl with
  | [x, y], _ =>
    have := bytesOf_some h
    simp only [intsOf_cons, intsOf_nil, List.cons.injEq, and_true] at this
    exact ⟨x, y, rfl, this.1, this.2⟩

theorem bytesOf_one {a : Int} {bs : Bytes} (h : bytesOf [a] = some bs) :
    ∃ x : UInt8, bs = [x] ∧ a = x.toNat := by
  have hl := bytesOf_length h
  match bs, hl with
  | [x], _ =>
    have := bytesOf_some h
    simp only [intsOf_cons, intsOf_nil, List.cons.injEq, and_true] at this
    exact ⟨x, rfl, this⟩

theorem packU_one_some {v : Int} {bs : Bytes} (h : packU 1 v = some bs) : ∃ x : UInt8, bs = [x] ∧ v = x.toNat := by
  obtain ⟨h0, h1, rfl⟩ := packU_some h
  refine ⟨UInt8.ofNat v.toNat, by simp [leBytes], ?_⟩
  rw [UInt8.toNat_ofNat']
  omega

/-- What an integer label becomes. -/
def normLab : Lab → Lab
  | .int n => .bytes (leBytes 4 n.toNat)
  | .bytes b => .bytes b

theorem encodeLabel_some {l : Lab} {bs : Bytes} (h : encodeLabel l = some bs) : bs.length = 4 ∧ normLab l = .bytes bs := by
  cases l with
  | int n =>
    simp only [encodeLabel] at h
    refine ⟨packU_length h, ?_⟩
    obtain ⟨_, _, rfl⟩ := packU_some h
    rfl
  | bytes b =>
    simp only [encodeLabel] at h
    split at h
    · simp only [Option.some.injEq] at h; subst h; exact ⟨by assumption, rfl⟩
    · simp at h

theorem readLabel_encode {l : Lab} {bs : Bytes} (h : encodeLabel l = some bs) (t : Bytes) :
    readLabel (bs ++ t) = some (normLab l, t) := by
  obtain ⟨hl, hn⟩ := encodeLabel_some h
  simp [readLabel, slice, hn, ← hl]

/-! ### Industry tiles -/

theorem packS_byte {v : Int} {bs : Bytes} (h : packS 1 v = some bs) :
    ∃ x : UInt8, bs = [x] ∧ v = utoi8 (pyAnd (x.toNat : Int) 0xff) ∧ -128 ≤ v ∧ v < 128 ∧
      ((x.toNat : Int) = if 0 ≤ v then v else v + 256) := by
  obtain ⟨h0, h1, rfl⟩ := packS_some h
  have hr0 : -128 ≤ v := by simpa using h0
  have hr1 : v < 128 := by simpa using h1
  have hmod : (v % ((256 ^ 1 : Nat) : Int)) = if 0 ≤ v then v else v + 256 := by
    simp only [Nat.pow_one]
    split <;> omega
  refine ⟨UInt8.ofNat (v % ((256 ^ 1 : Nat) : Int)).toNat, by simp [leBytes], ?_, hr0, hr1, ?_⟩
  · have hx : (((UInt8.ofNat (v % ((256 ^ 1 : Nat) : Int)).toNat).toNat : Nat) : Int) = if 0 ≤ v then v else v + 256 := by
      rw [UInt8.toNat_ofNat', hmod]; split <;> omega
    have hm : pyAnd (((UInt8.ofNat (v % ((256 ^ 1 : Nat) : Int)).toNat).toNat : Nat) : Int) 0xff =
        (((UInt8.ofNat (v % ((256 ^ 1 : Nat) : Int)).toNat).toNat % 2 ^ 8 : Nat) : Int) := SpriteRef.and_mask 8 _
    have hlt := (UInt8.ofNat (v % ((256 ^ 1 : Nat) : Int)).toNat).toNat_lt
    rw [hm, Nat.mod_eq_of_lt hlt, hx]
    have := utoi8_spec (if 0 ≤ v then v else v + 256) (by split <;> omega) (by split <;> omega)
    refine signedRep_unique _ _ _ _ ?_ this.1
    unfold IsSignedRep
    split <;> refine ⟨by omega, by omega, ?_⟩
    · exact ⟨0, by omega⟩
    · exact ⟨1, by omega⟩
  · rw [UInt8.toNat_ofNat', hmod]; split <;> omega

theorem readTiles_tile (tl : Tile) (hacc : tl.accepted = true) {bs : Bytes} (he : tl.encode = some bs) (n : Nat) (first : Bool)
    (hf : first = true → tl.xofs ≠ 0xfe) (hc : ∀ x y, tl ≠ .check x y) (t : Bytes) :
    readTiles (n + 1) first (bs ++ t) = (readTiles n false t).map fun p => (tl :: p.1, p.2) := by
  cases tl with
  | new x y i =>
    simp only [Tile.encode] at he
    obtain ⟨a, r1, ha, he1, rfl⟩ := cat_cons he
    obtain ⟨b, r2, hb, he2, rfl⟩ := cat_cons he1
    obtain ⟨c, r3, hc, he3, rfl⟩ := cat_cons he2
    obtain ⟨d, r4, hd, he4, rfl⟩ := cat_cons he3
    rw [cat_nil he4]
    have hx : ¬ (x = 0xfe ∧ first = true) := fun ⟨h1, h2⟩ => hf h2 h1
    have hy : ¬ (x = 0 ∧ y = 0x80) := by
      rintro ⟨rfl, rfl⟩; simp [Tile.accepted] at hacc
    simp only [readTiles, List.append_assoc, List.append_nil, readU_packU ha, readU_packU hb, readU_packU hc, readU_packU hd,
      Option.bind_eq_bind, Option.bind_some, if_neg hx, if_neg hy, if_true]
    cases readTiles n false t <;> rfl
  | old x y i =>
    simp only [Tile.encode] at he
    obtain ⟨a, r1, ha, he1, rfl⟩ := cat_cons he
    obtain ⟨b, r2, hb, he2, rfl⟩ := cat_cons he1
    obtain ⟨c, r3, hc, he3, rfl⟩ := cat_cons he2
    rw [cat_nil he3]
    have hx : ¬ (x = 0xfe ∧ first = true) := fun ⟨h1, h2⟩ => hf h2 h1
    have hy : ¬ (x = 0 ∧ y = 0x80) := by
      rintro ⟨rfl, rfl⟩; simp [Tile.accepted] at hacc
    simp only [Tile.accepted, Bool.and_eq_true, decide_eq_true_eq] at hacc
    have hi1 : ¬ i = 0xfe := by omega
    have hi2 : ¬ i = 0xff := by omega
    simp only [readTiles, List.append_assoc, List.append_nil, readU_packU ha, readU_packU hb, readU_packU hc,
      Option.bind_eq_bind, Option.bind_some, if_neg hx, if_neg hy, if_neg hi1, if_neg hi2]
    cases readTiles n false t <;> rfl
  | check x y => exact absurd rfl (hc x y)

/-- One layout is read up to its terminator. -/
theorem readTiles_layout (l : List Tile) (hacc : ∀ t ∈ l, t.accepted = true) (hck : ∀ t ∈ l, ∀ x y, t ≠ .check x y) :
    ∀ (n : Nat) (first : Bool) (bs : Bytes), l.length < n → (first = true → ∀ t ∈ l.head?, t.xofs ≠ 0xfe) →
      cat (l.map Tile.encode) = some bs → ∀ t, readTiles n first (bs ++ ([0, 0x80] ++ t)) = some (l, t) := by
  induction l with
  | nil =>
    intro n first bs hn _ he t
    rw [cat_nil he]
    match n, hn with
    | n + 1, _ => simp [readTiles, readU_one]
  | cons tl l ih =>
    intro n first bs hn hf he t
    obtain ⟨a, b, ha, hb, rfl⟩ := cat_cons he
    match n, hn with
    | n + 1, hn =>
      rw [List.append_assoc, readTiles_tile tl (hacc tl (by simp)) ha n first (fun h => hf h tl (by simp)) (hck tl (by simp)),
        ih (fun x hx => hacc x (by simp [hx])) (fun x hx => hck x (by simp [hx])) n false b (by simp at hn; omega) (by simp) hb t]
      rfl

theorem tile_length (t : Tile) {bs : Bytes} (h : t.encode = some bs) : 3 ≤ bs.length := by
  cases t <;> simp only [Tile.encode] at h <;>
  · obtain ⟨a, r1, ha, h1, rfl⟩ := cat_cons h
    obtain ⟨b, r2, hb, h2, rfl⟩ := cat_cons h1
    obtain ⟨c, r3, hc, h3, rfl⟩ := cat_cons h2
    have := packU_length hc
    first
    | (have := packU_length ha; have := packU_length hb; simp; omega)
    | (have := packS_length ha; have := packS_length hb; simp; omega)

theorem tiles_length (l : List Tile) {bs : Bytes} (h : cat (l.map Tile.encode) = some bs) : l.length ≤ bs.length := by
  induction l generalizing bs with
  | nil => simp
  | cons t l ih =>
    obtain ⟨a, b, ha, hb, rfl⟩ := cat_cons h
    have := tile_length t ha
    have := ih hb
    simp; omega

theorem readLayouts_encode (ls : List (List Tile)) (hacc : ∀ l ∈ ls, ∀ t ∈ l, t.accepted = true)
    (hf : ∀ l ∈ ls, ∀ t ∈ l.head?, t.xofs ≠ 0xfe) (hck : ∀ l ∈ ls, ∀ t ∈ l, ∀ x y, t ≠ .check x y) {bs : Bytes} (h : encodeLayouts ls = some bs) (t : Bytes) :
    readLayouts (bs ++ t) = some (ls, t) := by
  simp only [encodeLayouts, Option.bind_eq_bind, Option.bind_eq_some_iff, Option.some.injEq] at h
  obtain ⟨body, hbody, n, hn, s, hs, rfl⟩ := h
  simp only [readLayouts, List.append_assoc, readU_packU hn, readU_packU hs, Option.bind_eq_bind, Option.bind_some,
    Int.toNat_natCast]
  -- every layout is shorter than the body
  have key : ∀ (m : List (List Tile)) (b : Bytes), cat (m.map encodeLayout) = some b →
      ∀ l ∈ m, l.length < b.length := by
    intro m
    induction m with
    | nil => simp
    | cons x m ih =>
      intro b hb l hl
      obtain ⟨p, q, hp, hq, rfl⟩ := cat_cons hb
      simp only [List.mem_cons] at hl
      rcases hl with rfl | hl
      · simp only [encodeLayout, Option.bind_eq_bind, Option.bind_eq_some_iff, Option.some.injEq] at hp
        obtain ⟨c, hc, rfl⟩ := hp
        have := tiles_length l hc
        simp; omega
      · have := ih q hq l hl
        simp; omega
  have := readN_cat (e := encodeLayout) (r := readTiles body.length true) (f := id) ls ?_ body hbody t
  · simpa using this
  · intro l hl bs hbs t
    simp only [encodeLayout, Option.bind_eq_bind, Option.bind_eq_some_iff, Option.some.injEq] at hbs
    obtain ⟨c, hc, rfl⟩ := hbs
    rw [List.append_assoc]
    exact readTiles_layout l (hacc l hl) (hck l hl) body.length true c (key ls body hbody l hl) (fun _ => hf l hl) hc t

end Grf.PropC
