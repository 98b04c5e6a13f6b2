import Verif.Model.SpriteRef
import Verif.Props.Common
import Verif.Proofs.Container
/-!
# C05: sprite references
-/
namespace Grf.SpriteRef

/-- Specification (NewGRF documentation): the 32 bits of a sprite word. Bits 0-13 sprite, 14 always transparent, 15 recolour,
16-29 palette, 30 never transparent, 31 the flag whose meaning ("global"/"local") depends on the table. -/
def word (id pal : Int) (at_ ur nt fl : Bool) : Int :=
  id + 2 ^ 14 * at_.toInt + 2 ^ 15 * ur.toInt + 2 ^ 16 * pal + 2 ^ 30 * nt.toInt + 2 ^ 31 * fl.toInt

theorem or_flag {n v : Nat} (b : Bool) (h : v < 2 ^ n) :
    pyOr (v : Int) (flag b n) = ((v + (if b then 2 ^ n else 0) : Nat) : Int) := by
  cases b
  · show Int.ofNat (v ||| 0) = _
    simp
  · have e : flag true n = Int.ofNat (2 ^ n) := by simp [flag]
    rw [e]
    show Int.ofNat (v ||| 2 ^ n) = _
    have := Nat.two_pow_add_eq_or_of_lt h 1
    simp only [Nat.mul_one] at this
    rw [Nat.or_comm, ← this]; simp; omega

theorem toGrf_word (g : Bool) (r : SpriteRef) (h : r.accepted = true) (h0 : 0 ≤ r.id) (h1 : 0 ≤ r.pal) :
    toGrf g r = word r.id r.pal r.alwaysTransparent r.useRecolour r.noTransparent (r.isGlobal == g) := by
  obtain ⟨id, pal, ig, ur, at_, nt⟩ := r
  simp only [accepted, Bool.and_eq_true, decide_eq_true_eq] at h h0 h1 ⊢
  obtain ⟨i, rfl⟩ := Int.eq_ofNat_of_zero_le h0
  obtain ⟨p, rfl⟩ := Int.eq_ofNat_of_zero_le h1
  have hi : i < 2 ^ 14 := by have := h.1; omega
  have hp : p < 2 ^ 14 := by have := h.2; omega
  simp only [toGrf]
  generalize (ig == g) = fl
  rw [or_flag at_ hi, or_flag nt hp]
  have b1 : (i + if at_ = true then 2 ^ 14 else 0) < 2 ^ 15 := by split <;> omega
  have b2 : (p + if nt = true then 2 ^ 14 else 0) < 2 ^ 15 := by split <;> omega
  rw [or_flag ur b1, or_flag fl b2]
  generalize hx : ((i + if at_ = true then 2 ^ 14 else 0) + if ur = true then 2 ^ 15 else 0) = x
  generalize hy : ((p + if nt = true then 2 ^ 14 else 0) + if fl = true then 2 ^ 15 else 0) = y
  have hx' : x < 2 ^ 16 := by subst hx; split <;> split <;> omega
  have e : ((y : Int) * 65536) = Int.ofNat (2 ^ 16 * y) := by simp; omega
  rw [e]
  show Int.ofNat (x ||| 2 ^ 16 * y) = _
  rw [Nat.or_comm, ← Nat.two_pow_add_eq_or_of_lt hx']
  subst hx hy
  simp only [word]
  cases at_ <;> cases ur <;> cases nt <;> cases fl <;> simp [Bool.toInt] <;> omega

theorem toGrf_range (g : Bool) (r : SpriteRef) (h : r.accepted = true) (h0 : 0 ≤ r.id) (h1 : 0 ≤ r.pal) :
    0 ≤ toGrf g r ∧ toGrf g r < 2 ^ 32 := by
  rw [toGrf_word g r h h0 h1]
  simp only [accepted, Bool.and_eq_true, decide_eq_true_eq] at h
  simp only [word]
  obtain ⟨id, pal, ig, ur, at_, nt⟩ := r
  simp only at h h0 h1 ⊢
  generalize (ig == g) = fl
  cases at_ <;> cases ur <;> cases nt <;> cases fl <;> simp [Bool.toInt] <;> omega

theorem pyOr_neg_left (a b : Int) (h : a < 0) : pyOr a b < 0 := by
  match a, h with
  | .negSucc a, _ => cases b <;> simp [pyOr] <;> exact Int.negSucc_lt_zero _

theorem pyOr_neg_right (a b : Int) (h : b < 0) : pyOr a b < 0 := by
  match b, h with
  | .negSucc b, _ => cases a <;> simp [pyOr] <;> exact Int.negSucc_lt_zero _

/-- Negative numbers get past the constructor but are refused when the word is written. -/
theorem negative_refused (g : Bool) (r : SpriteRef) (h : r.id < 0 ∨ r.pal < 0) : encode g r = none := by
  have : toGrf g r < 0 := by
    simp only [toGrf]
    cases h with
    | inl h => exact pyOr_neg_left _ _ (pyOr_neg_left _ _ (pyOr_neg_left _ _ h))
    | inr h =>
      refine pyOr_neg_right _ _ ?_
      have := pyOr_neg_left _ (flag (r.isGlobal == g) 15) (pyOr_neg_left _ (flag r.noTransparent 14) h)
      omega
  simp only [encode, packU]
  rw [if_neg (by omega)]

/-- `x & (2^n - 1)` of a nonnegative number. -/
theorem and_mask (n x : Nat) : pyAnd (x : Int) ((2 ^ n - 1 : Nat) : Int) = ((x % 2 ^ n : Nat) : Int) := by
  show Int.ofNat (x &&& (2 ^ n - 1)) = _
  rw [Nat.and_two_pow_sub_one_eq_mod]; rfl

theorem and_bit (n x : Nat) : (pyAnd (x : Int) ((2 ^ n : Nat) : Int) != 0) = decide (x / 2 ^ n % 2 = 1) := by
  show (Int.ofNat (x &&& 2 ^ n) != 0) = _
  have hand : x &&& 2 ^ n = if x.testBit n then 2 ^ n else 0 := by
    apply Nat.eq_of_testBit_eq
    intro i
    rw [Nat.testBit_and, Nat.testBit_two_pow]
    by_cases hi : n = i
    · subst hi; cases hb : x.testBit n <;> simp
    · cases hb : x.testBit n <;> simp [hi]
  rw [hand, Nat.testBit_eq_decide_div_mod_eq]
  by_cases h : x / 2 ^ n % 2 = 1
  · have : 2 ^ n ≠ 0 := Nat.ne_of_gt (Nat.pow_pos (by decide))
    simp [h]; exact_mod_cast this
  · simp [h]

theorem fromGrf_nat (g : Bool) (n : Nat) :
    fromGrf g n = { id := (n % 2 ^ 14 : Nat), pal := (n / 2 ^ 16 % 2 ^ 14 : Nat),
                    isGlobal := decide (n / 2 ^ 31 % 2 = 1) == g,
                    useRecolour := decide (n / 2 ^ 15 % 2 = 1),
                    alwaysTransparent := decide (n / 2 ^ 14 % 2 = 1),
                    noTransparent := decide (n / 2 ^ 30 % 2 = 1) } := by
  have e16 : pyAnd (n : Int) 0xffff = ((n % 2 ^ 16 : Nat) : Int) := and_mask 16 n
  have es : (n : Int) >>> (16 : Nat) = ((n / 2 ^ 16 : Nat) : Int) := by
    show Int.ofNat (n >>> 16) = _
    rw [Nat.shiftRight_eq_div_pow]; rfl
  simp only [fromGrf, e16, es]
  have m14 : ∀ x : Nat, pyAnd (x : Int) 0x3fff = ((x % 2 ^ 14 : Nat) : Int) := fun x => and_mask 14 x
  have b15 : ∀ x : Nat, (pyAnd (x : Int) 0x8000 != 0) = decide (x / 2 ^ 15 % 2 = 1) := fun x => and_bit 15 x
  have b14 : ∀ x : Nat, (pyAnd (x : Int) 0x4000 != 0) = decide (x / 2 ^ 14 % 2 = 1) := fun x => and_bit 14 x
  rw [m14, m14, b15, b15, b14, b14]
  congr 1 <;> first | rfl | (congr 1; omega) | (congr 1; apply propext; constructor <;> intro h <;> omega) | skip
  · have : (n / 2 ^ 16 / 2 ^ 15 % 2 = 1) ↔ (n / 2 ^ 31 % 2 = 1) := by omega
    simp only [this]

/-- Reading the word gives the reference back. -/
theorem fromGrf_toGrf (g : Bool) (r : SpriteRef) (h : r.accepted = true) (h0 : 0 ≤ r.id) (h1 : 0 ≤ r.pal) :
    fromGrf g (toGrf g r) = r := by
  have hr := toGrf_range g r h h0 h1
  obtain ⟨n, hn⟩ := Int.eq_ofNat_of_zero_le hr.1
  have hw := toGrf_word g r h h0 h1
  rw [hn] at hw ⊢
  rw [fromGrf_nat]
  simp only [accepted, Bool.and_eq_true, decide_eq_true_eq] at h
  obtain ⟨id, pal, ig, ur, at_, nt⟩ := r
  simp only [word] at hw h h0 h1 ⊢
  have hg : ∀ fl, (ig == g) = fl → (fl == g) = ig := by cases ig <;> cases g <;> decide
  generalize hfl : (ig == g) = fl at hw
  have hg := hg fl hfl
  have k : ∀ (p : Prop) [Decidable p] (b : Bool), (p ↔ b = true) → decide p = b := by
    intro p _ b hp; cases b <;> simp_all
  congr 1
  · cases at_ <;> cases ur <;> cases nt <;> cases fl <;> simp [Bool.toInt] at hw <;> omega
  · cases at_ <;> cases ur <;> cases nt <;> cases fl <;> simp [Bool.toInt] at hw <;> omega
  · rw [← hg]; congr 1; apply k
    cases at_ <;> cases ur <;> cases nt <;> cases fl <;> simp [Bool.toInt] at hw <;> simp <;> omega
  · apply k
    cases at_ <;> cases ur <;> cases nt <;> cases fl <;> simp [Bool.toInt] at hw <;> simp <;> omega
  · apply k
    cases at_ <;> cases ur <;> cases nt <;> cases fl <;> simp [Bool.toInt] at hw <;> simp <;> omega
  · apply k
    cases at_ <;> cases ur <;> cases nt <;> cases fl <;> simp [Bool.toInt] at hw <;> simp <;> omega

/-- **C05**: whatever the constructor accepts and the writer writes is read back unchanged, with exactly the four bytes
consumed. -/
theorem sprite_ref_roundtrip (g : Bool) (r : SpriteRef) (bs t : Bytes) (h : r.accepted = true)
    (he : encode g r = some bs) : bs.length = 4 ∧ read g (bs ++ t) = some (r, t) := by
  have hneg : ¬ (r.id < 0 ∨ r.pal < 0) := fun hn => by rw [negative_refused g r hn] at he; simp at he
  refine ⟨packU_length he, ?_⟩
  simp only [read, readU_packU he, Option.bind_eq_bind, Option.bind_some]
  rw [fromGrf_toGrf g r h (by omega) (by omega)]

/-- **C05**: exactly the references with ids and palettes in 0..0x3fff can be written. -/
theorem sprite_ref_accepts (g : Bool) (r : SpriteRef) (h : r.accepted = true) :
    (encode g r).isSome ↔ 0 ≤ r.id ∧ 0 ≤ r.pal := by
  constructor
  · intro hs
    apply Classical.byContradiction
    intro hn
    rw [negative_refused g r (by omega)] at hs
    simp at hs
  · intro ⟨h0, h1⟩
    have := toGrf_range g r h h0 h1
    simp only [encode, packU]
    have e : ((256 ^ 4 : Nat) : Int) = 2 ^ 32 := by decide
    rw [e, if_pos this]
    rfl

/-- **C05**: the bytes are the documented bit layout. -/
theorem sprite_ref_layout (g : Bool) (r : SpriteRef) (bs : Bytes) (h : r.accepted = true) (he : encode g r = some bs) :
    (leVal bs : Int) = word r.id r.pal r.alwaysTransparent r.useRecolour r.noTransparent (r.isGlobal == g) := by
  have hneg : ¬ (r.id < 0 ∨ r.pal < 0) := fun hn => by rw [negative_refused g r hn] at he; simp at he
  rw [← toGrf_word g r h (by omega) (by omega)]
  obtain ⟨h0, h1, rfl⟩ := packU_some he
  rw [leVal_leBytes 4 _ (by omega)]; omega

/-- **C05**: different references have different encodings. -/
theorem sprite_ref_injective (g : Bool) (r s : SpriteRef) (bs : Bytes) (hr : r.accepted = true) (hs : s.accepted = true)
    (er : encode g r = some bs) (es : encode g s = some bs) : r = s := by
  have a := (sprite_ref_roundtrip g r bs [] hr er).2
  have b := (sprite_ref_roundtrip g s bs [] hs es).2
  rw [a] at b
  simpa using b

/-- **C05**: every four bytes are the encoding of the reference read from them, which the constructor accepts. -/
theorem sprite_ref_total (g : Bool) (bs t : Bytes) (h : bs.length = 4) :
    ∃ r, read g (bs ++ t) = some (r, t) ∧ r.accepted = true ∧ encode g r = some bs := by
  have hlt := leVal_lt bs
  rw [h] at hlt
  have hacc : (fromGrf g (leVal bs)).accepted = true := by
    rw [fromGrf_nat]; simp [accepted]; omega
  refine ⟨fromGrf g (leVal bs), ?_, hacc, ?_⟩
  · simp [read, readU, takeBytes_append' bs t h]
  · have h0 : 0 ≤ (fromGrf g (leVal bs)).id := by rw [fromGrf_nat]; exact Int.natCast_nonneg _
    have h1 : 0 ≤ (fromGrf g (leVal bs)).pal := by rw [fromGrf_nat]; exact Int.natCast_nonneg _
    have hw := toGrf_word g _ hacc h0 h1
    have key : toGrf g (fromGrf g (leVal bs)) = (leVal bs : Int) := by
      rw [hw, fromGrf_nat]
      generalize leVal bs = n at *
      have bt : ∀ x : Nat, (decide (x % 2 = 1)).toInt = (x % 2 : Nat) := by
        intro x
        by_cases hx : x % 2 = 1
        · simp [hx, Bool.toInt]
        · have : x % 2 = 0 := by omega
          simp [this, Bool.toInt]
      have hg : ∀ b : Bool, ((b == g) == g) = b := by intro b; cases b <;> cases g <;> rfl
      simp only [word, hg, bt]
      omega
    simp only [encode, key]
    rw [packU_of_lt (by exact_mod_cast hlt)]
    rw [← h, leBytes_leVal]

example : encode false ⟨1234, 775, true, true, false, false⟩ = some [0xd2, 0x84, 0x07, 0x03] := by decide +kernel
example : read false [0xd2, 0x84, 0x07, 0x03] = some (⟨1234, 775, true, true, false, false⟩, []) := by decide +kernel
example : accepted ⟨-1, 0, true, false, false, false⟩ = true ∧ encode false ⟨-1, 0, true, false, false, false⟩ = none := by
  decide +kernel

end Grf.SpriteRef
