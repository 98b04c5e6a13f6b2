import Verif.Model.Common
import Verif.Spec.Calendar
/-!
# Properties C01-C04: extended bytes, signed conversions, dates, hex text
-/
namespace Grf
open Spec

/-! ## C01 -/

theorem readExt_enc {v : Int} {bs : Bytes} (h : encodeExtendedByte v = some bs) (t : Bytes) :
    readExt (bs ++ t) = some (v, t) := by
  unfold encodeExtendedByte at h
  split at h
  · next hv =>
    obtain ⟨h0, h1, rfl⟩ := packU_some h
    simp only [leBytes, List.cons_append, List.nil_append, readExt]
    have hb : UInt8.ofNat v.toNat ≠ 0xff := by
      intro hc
      have := congrArg UInt8.toNat hc
      simp at this
      omega
    rw [if_pos hb]
    simp
    omega
  · next hv =>
    simp only [cat, Option.bind_eq_bind, Option.bind_eq_some_iff, Option.some.injEq] at h
    obtain ⟨a, ha, b, ⟨c, hc, d, rfl, rfl⟩, rfl⟩ := h
    have ha' : a = [0xff] := by
      have : packU 1 255 = some [0xff] := by decide
      rw [this] at ha; simpa using ha.symm
    subst ha'
    simp only [List.append_nil, List.cons_append, List.nil_append, readExt]
    rw [if_neg (by decide)]
    exact readU_packU hc t

/-- **C01** (round trip): reading what was written, at any position `pre.length` of any buffer, gives
back the value and the position just past the encoding. -/
theorem extended_byte_roundtrip (v : Int) (bs pre post : Bytes)
    (h : encodeExtendedByte v = some bs) :
    readExtendedByteAt (pre ++ bs ++ post) pre.length = some (v, pre.length + bs.length) := by
  unfold encodeExtendedByte at h
  split at h
  · next hv =>
    obtain ⟨h0, h1, rfl⟩ := packU_some h
    have hb : UInt8.ofNat v.toNat ≠ 0xff := by
      intro hc
      have := congrArg UInt8.toNat hc
      simp at this
      omega
    simp [readExtendedByteAt, leBytes, hb]
    omega
  · next hv =>
    simp only [cat, Option.bind_eq_bind, Option.bind_eq_some_iff, Option.some.injEq] at h
    obtain ⟨a, ha, b, ⟨c, hc, d, rfl, rfl⟩, rfl⟩ := h
    have ha' : a = [0xff] := by
      have : packU 1 255 = some [0xff] := by decide
      rw [this] at ha; simpa using ha.symm
    subst ha'
    obtain ⟨h0, h1, rfl⟩ := packU_some hc
    have e1 : (pre ++ ([255] ++ (leBytes 2 v.toNat ++ [])) ++ post)[pre.length]? = some (255:UInt8) := by
      simp
    have e2 : (pre ++ ([255] ++ (leBytes 2 v.toNat ++ [])) ++ post)[pre.length + 1]?
        = some (UInt8.ofNat v.toNat) := by
      simp [leBytes]
    have e3 : (pre ++ ([255] ++ (leBytes 2 v.toNat ++ [])) ++ post)[pre.length + 2]?
        = some (UInt8.ofNat (v.toNat / 256)) := by
      simp [leBytes]
    simp only [readExtendedByteAt, e1, e2, e3, Option.bind_eq_bind, Option.bind_some]
    rw [if_neg (by decide)]
    simp only [Option.some.injEq, Prod.mk.injEq]
    refine ⟨?_, by simp [leBytes_length]⟩
    have hv2 : v.toNat < 65536 := by omega
    have hl : (UInt8.ofNat v.toNat).toNat < 2 ^ 8 := UInt8.toNat_lt _
    have := Nat.shiftLeft_add_eq_or_of_lt hl (UInt8.ofNat (v.toNat / 256)).toNat
    rw [Nat.or_comm, ← this, Nat.shiftLeft_eq]
    simp only [UInt8.toNat_ofNat']
    omega

/-- **C01** (sizes): one byte below 255, otherwise the three bytes 255, low, high. -/
theorem extended_byte_form (v : Int) (bs : Bytes) (h : encodeExtendedByte v = some bs) :
    (v < 255 → bs.length = 1) ∧ (255 ≤ v → bs.length = 3 ∧ bs.head? = some 0xff) := by
  unfold encodeExtendedByte at h
  split at h
  · exact ⟨fun _ => packU_length h, fun h' => by omega⟩
  · refine ⟨fun h' => by omega, fun _ => ?_⟩
    simp only [cat, Option.bind_eq_bind, Option.bind_eq_some_iff, Option.some.injEq] at h
    obtain ⟨a, ha, b, ⟨c, hc, d, rfl, rfl⟩, rfl⟩ := h
    have ha' : a = [0xff] := by
      have : packU 1 255 = some [0xff] := by decide
      rw [this] at ha; simpa using ha.symm
    subst ha'
    simp [packU_length hc]

/-- **C01** (refusal): exactly the values outside `0..65535` raise. -/
theorem extended_byte_accepts (v : Int) :
    (encodeExtendedByte v).isSome ↔ 0 ≤ v ∧ v ≤ 65535 := by
  unfold encodeExtendedByte
  split
  · next h =>
    unfold packU
    split
    · simp; omega
    · next h2 => simp at h2 ⊢; omega
  · next h =>
    have : packU 1 255 = some [0xff] := by decide
    simp only [cat, this, Option.bind_eq_bind, Option.bind_some]
    unfold packU
    split
    · simp; omega
    · next h2 => simp at h2 ⊢; omega

/-- The list reader used by the decoders agrees with the indexed reader of the source. -/
theorem readExtendedByteAt_drop (data : Bytes) (off : Nat) (v : Int) (off' : Nat)
    (h : readExtendedByteAt data off = some (v, off')) :
    readExt (data.drop off) = some (v, data.drop off') := by
  unfold readExtendedByteAt at h
  simp only [Option.bind_eq_bind, Option.bind_eq_some_iff] at h
  obtain ⟨b, hb, h⟩ := h
  have hlt : off < data.length := by
    rcases Nat.lt_or_ge off data.length with h | h
    · exact h
    · simp [h] at hb
  have hd : data.drop off = b :: data.drop (off + 1) := by
    rw [List.drop_eq_getElem_cons hlt]
    congr 1
    rw [List.getElem?_eq_getElem hlt] at hb
    exact Option.some.inj hb
  rw [hd]
  split at h
  · next hne =>
    simp only [Option.some.injEq, Prod.mk.injEq] at h
    obtain ⟨rfl, rfl⟩ := h
    simp [readExt, hne]
  · next he =>
    simp only [Option.bind_eq_some_iff] at h
    obtain ⟨b1, h1, b2, h2, h⟩ := h
    simp only [Option.some.injEq, Prod.mk.injEq] at h
    obtain ⟨rfl, rfl⟩ := h
    simp only [ne_eq, Decidable.not_not] at he
    have hlt2 : off + 2 < data.length := by
      rcases Nat.lt_or_ge (off + 2) data.length with h | h
      · exact h
      · simp [h] at h2
    have hd2 : data.drop (off + 1) = b1 :: b2 :: data.drop (off + 3) := by
      rw [List.drop_eq_getElem_cons (by omega : off + 1 < data.length),
        List.drop_eq_getElem_cons (by omega : off + 1 + 1 < data.length)]
      rw [List.getElem?_eq_getElem (by omega)] at h1 h2
      simp only [Option.some.injEq] at h1 h2
      simp [h1, h2]
    rw [hd2, he]
    simp only [readExt, readU, takeBytes]
    simp only [ne_eq, not_true_eq_false, if_false, List.length_cons, Nat.le_add_left, if_true,
      List.take_succ_cons, List.take_zero, List.drop_succ_cons, List.drop_zero,
      Option.bind_eq_bind, Option.bind_some, leVal]
    have hl : b1.toNat < 2 ^ 8 := UInt8.toNat_lt _
    have := Nat.shiftLeft_add_eq_or_of_lt hl b2.toNat
    rw [Nat.or_comm, ← this, Nat.shiftLeft_eq]
    simp
    omega

example : encodeExtendedByte 300 = some [0xff, 0x2c, 0x01] := by decide
example : encodeExtendedByte 254 = some [254] := by decide
example : encodeExtendedByte 255 = some [255, 255, 0] := by decide

/-! ## C02 -/

theorem ldiff_mask (n v : Nat) : ldiff (2 ^ n - 1) v = 2 ^ n - 1 - v % 2 ^ n := by
  have hlt : v % 2 ^ n < 2 ^ n := Nat.mod_lt _ (Nat.two_pow_pos n)
  have h1 : 2 ^ n - 1 - v % 2 ^ n = 2 ^ n - (v % 2 ^ n + 1) := by omega
  rw [h1]
  apply Nat.eq_of_testBit_eq
  intro i
  rw [Nat.testBit_two_pow_sub_succ hlt, ldiff, Nat.testBit_xor, Nat.testBit_and,
    Nat.testBit_two_pow_sub_one, Nat.testBit_mod_two_pow]
  by_cases h : i < n <;> simp [h]

theorem and_two_pow_of_lt (n v : Nat) (h : v < 2 ^ (n + 1)) :
    v &&& 2 ^ n = if v < 2 ^ n then 0 else 2 ^ n := by
  have hand : v &&& 2 ^ n = if v.testBit n then 2 ^ n else 0 := by
    apply Nat.eq_of_testBit_eq
    intro i
    rw [Nat.testBit_and, Nat.testBit_two_pow]
    by_cases hi : n = i
    · subst hi; cases hb : v.testBit n <;> simp
    · cases hb : v.testBit n <;> simp [hi]
  rw [hand]
  split
  · next hb =>
    split
    · next h1 => rw [Nat.testBit_lt_two_pow h1] at hb; simp at hb
    · rfl
  · next hb =>
    rw [if_pos]
    rcases Nat.lt_or_ge v (2 ^ n) with h1 | h1
    · exact h1
    exfalso
    have : v.testBit n = true := by
      rw [Nat.testBit_eq_decide_div_mod_eq]
      have : v / 2 ^ n = 1 := by
        rw [Nat.pow_succ] at h
        apply Nat.div_eq_of_lt_le <;> omega
      simp [this]
    exact hb this

theorem toSigned_eq (n : Nat) (v : Nat) (h : v < 2 ^ (n + 1)) :
    pyOr v (-(pyAnd v (2 ^ n : Nat))) = if v < 2 ^ n then (v : Int) else (v : Int) - (2 ^ (n + 1) : Nat) := by
  have e : pyAnd (v : Int) (2 ^ n : Nat) = ((v &&& 2 ^ n : Nat) : Int) := rfl
  rw [e, and_two_pow_of_lt n v h]
  split
  · have : (-((0 : Nat) : Int)) = ((0 : Nat) : Int) := rfl
    rw [this]
    show Int.ofNat (v ||| 0) = _
    simp
  · next hge =>
    have hp := Nat.two_pow_pos n
    have : (-((2 ^ n : Nat) : Int)) = Int.negSucc (2 ^ n - 1) := by
      rw [Int.negSucc_eq]; omega
    rw [this]
    show Int.negSucc (ldiff (2 ^ n - 1) v) = _
    rw [ldiff_mask, Int.negSucc_eq]
    have hm : v % 2 ^ n = v - 2 ^ n := by
      rw [Nat.mod_eq_sub_mod (by omega)]
      apply Nat.mod_eq_of_lt
      rw [Nat.pow_succ] at h; omega
    rw [hm, Nat.pow_succ]
    rw [Nat.pow_succ] at h
    omega

/-- The unique signed representative modulo `2 * half`. -/
def IsSignedRep (half : Int) (u s : Int) : Prop :=
  -half ≤ s ∧ s < half ∧ ∃ k : Int, u = s + k * (2 * half)

/-- **C02**: `utoi8` returns the signed byte congruent to its argument, and reducing it modulo 256
gives the argument back. -/
theorem utoi8_spec (v : Int) (h0 : 0 ≤ v) (h1 : v < 256) :
    IsSignedRep 128 v (utoi8 v) ∧ utoi8 v % 256 = v := by
  obtain ⟨n, rfl⟩ := Int.eq_ofNat_of_zero_le h0
  have e : utoi8 (n : Int) = _ := toSigned_eq 7 n (by omega)
  rw [e]
  split
  · exact ⟨⟨by omega, by omega, 0, by omega⟩, by omega⟩
  · exact ⟨⟨by omega, by omega, 1, by omega⟩, by omega⟩

/-- **C02**: the same for dwords. -/
theorem utoi32_spec (v : Int) (h0 : 0 ≤ v) (h1 : v < 4294967296) :
    IsSignedRep 2147483648 v (utoi32 v) ∧ utoi32 v % 4294967296 = v := by
  obtain ⟨n, rfl⟩ := Int.eq_ofNat_of_zero_le h0
  have e : utoi32 (n : Int) = _ := toSigned_eq 31 n (by omega)
  rw [e]
  split
  · exact ⟨⟨by omega, by omega, 0, by omega⟩, by omega⟩
  · exact ⟨⟨by omega, by omega, 1, by omega⟩, by omega⟩

/-- The representative is unique, so `utoi8_spec`/`utoi32_spec` determine the results. -/
theorem signedRep_unique (half u s t : Int) (hs : IsSignedRep half u s) (ht : IsSignedRep half u t) :
    s = t := by
  obtain ⟨a, b, k, hk⟩ := hs
  obtain ⟨c, d, l, hl⟩ := ht
  have hh : 0 < half := by omega
  have : (k - l) * (2 * half) = t - s := by rw [Int.sub_mul]; omega
  have hkl : k = l := by
    rcases Int.lt_trichotomy k l with h | h | h
    · have := Int.mul_le_mul_of_nonneg_right (show k - l ≤ -1 by omega) (show 0 ≤ 2 * half by omega)
      omega
    · exact h
    · have := Int.mul_le_mul_of_nonneg_right (show 1 ≤ k - l by omega) (show 0 ≤ 2 * half by omega)
      omega
  subst hkl; omega

example : utoi8 0x80 = -128 ∧ utoi8 0x7f = 127 ∧ utoi8 0xff = -1 ∧ utoi32 0xfffffffe = -2 := by decide

/-! ## C03 -/

theorem isLeapYear_iff (y : Nat) : isLeapYear y = true ↔ Leap y := by
  simp only [isLeapYear, Leap, Bool.and_eq_true, beq_iff_eq, Bool.or_eq_true, bne_iff_ne, ne_eq]
  omega

theorem daysTill_succ (y : Nat) :
    daysTill (y + 1) = daysTill y + (if Leap y then 366 else 365) := by
  unfold daysTill
  rcases Nat.eq_zero_or_pos y with rfl | hy
  · decide
  · rw [if_pos (by omega : y + 1 > 0), if_pos hy]
    by_cases hl : Leap y
    · rw [if_pos hl]; unfold Leap at hl; omega
    · rw [if_neg hl]; unfold Leap at hl; omega

theorem accumDays_table : accumDays 0 = 0 ∧ accumDays 1 = 31 ∧ accumDays 2 = 60 ∧ accumDays 3 = 91 ∧
    accumDays 4 = 121 ∧ accumDays 5 = 152 ∧ accumDays 6 = 182 ∧ accumDays 7 = 213 ∧ accumDays 8 = 244 ∧
    accumDays 9 = 274 ∧ accumDays 10 = 305 ∧ accumDays 11 = 335 := by decide

/-- Day of the year (0-based) as computed by the code. -/
def dayInYear (y m d : Nat) : Nat :=
  let days := accumDays (m - 1) + d - 1
  if !isLeapYear y && days ≥ accumDays 2 then days - 1 else days

theorem dateToDays_eq (y m d : Nat) : dateToDays y m d = daysTill y + dayInYear y m d := rfl

/-- 1 in leap years. -/
def leapBit (y : Nat) : Nat := if Leap y then 1 else 0

theorem leapBit_le (y : Nat) : leapBit y ≤ 1 := by unfold leapBit; split <;> omega

theorem monthLength_cases (y m : Nat) :
    (m = 2 ∧ monthLength y m = 28 + leapBit y) ∨
    ((m = 4 ∨ m = 6 ∨ m = 9 ∨ m = 11) ∧ monthLength y m = 30) ∨
    (m ≠ 2 ∧ m ≠ 4 ∧ m ≠ 6 ∧ m ≠ 9 ∧ m ≠ 11 ∧ monthLength y m = 31) := by
  unfold monthLength leapBit
  by_cases h2 : m = 2
  · left; by_cases hl : Leap y <;> simp [h2, hl]
  · right
    by_cases h4 : m = 4 ∨ m = 6 ∨ m = 9 ∨ m = 11
    · left; exact ⟨h4, by simp [h2, h4]⟩
    · right; exact ⟨h2, by omega, by omega, by omega, by omega, by simp [h2, h4]⟩

/-- Closed form of the day in the year for the 12 months. -/
theorem dayInYear_cases (y m d : Nat) (hm1 : 1 ≤ m) (hm2 : m ≤ 12) :
    ∃ a, ((leapBit y = 0 ∧ 60 ≤ a + d - 1 ∧ dayInYear y m d = a + d - 1 - 1) ∨
          (¬ (leapBit y = 0 ∧ 60 ≤ a + d - 1) ∧ dayInYear y m d = a + d - 1)) ∧
      ((m = 1 ∧ a = 0) ∨ (m = 2 ∧ a = 31) ∨ (m = 3 ∧ a = 60) ∨ (m = 4 ∧ a = 91) ∨ (m = 5 ∧ a = 121) ∨
       (m = 6 ∧ a = 152) ∨ (m = 7 ∧ a = 182) ∨ (m = 8 ∧ a = 213) ∨ (m = 9 ∧ a = 244) ∨
       (m = 10 ∧ a = 274) ∨ (m = 11 ∧ a = 305) ∨ (m = 12 ∧ a = 335)) := by
  obtain ⟨h0, h1, h2, h3, h4, h5, h6, h7, h8, h9, h10, h11⟩ := accumDays_table
  refine ⟨accumDays (m - 1), ?_, ?_⟩
  · unfold dayInYear leapBit
    rw [h2]
    by_cases hl : Leap y
    · have := (isLeapYear_iff y).2 hl
      simp [this, hl]
    · have : isLeapYear y = false := by
        cases hh : isLeapYear y
        · rfl
        · exact absurd ((isLeapYear_iff y).1 hh) hl
      by_cases h60 : 60 ≤ accumDays (m - 1) + d - 1 <;> simp [this, hl, h60]
  · have : m = 1 ∨ m = 2 ∨ m = 3 ∨ m = 4 ∨ m = 5 ∨ m = 6 ∨ m = 7 ∨ m = 8 ∨ m = 9 ∨ m = 10 ∨ m = 11 ∨ m = 12 := by
      omega
    rcases this with rfl|rfl|rfl|rfl|rfl|rfl|rfl|rfl|rfl|rfl|rfl|rfl <;> simp [h0,h1,h2,h3,h4,h5,h6,h7,h8,h9,h10,h11]

theorem daysTill_succ' (y : Nat) : daysTill (y + 1) = daysTill y + 365 + leapBit y := by
  rw [daysTill_succ]; unfold leapBit; split <;> omega

/-- **C03**: day 0 is 0000-01-01 and the next calendar day has the next number. -/
theorem to_days_next (d : CDate) (h : d.Valid) :
    dateToDays d.next.year d.next.month d.next.day = dateToDays d.year d.month d.day + 1 := by
  obtain ⟨y, m, dd⟩ := d
  obtain ⟨hm1, hm2, hd1, hd2⟩ := h
  simp only at hm1 hm2 hd1 hd2
  simp only [CDate.next]
  obtain ⟨a, ha, hcase⟩ := dayInYear_cases y m dd hm1 hm2
  have hml := monthLength_cases y m
  have hlb := leapBit_le y
  split
  · next hlt =>
    obtain ⟨b, hb, hcb⟩ := dayInYear_cases y m (dd + 1) hm1 hm2
    have hab : a = b := by omega
    subst hab
    simp only [dateToDays_eq]
    omega
  · next hge =>
    split
    · next h12 =>
      obtain ⟨b, hb, hcb⟩ := dayInYear_cases y (m + 1) 1 (by omega) (by omega)
      simp only [dateToDays_eq]
      rcases hcase with ⟨rfl, rfl⟩|⟨rfl, rfl⟩|⟨rfl, rfl⟩|⟨rfl, rfl⟩|⟨rfl, rfl⟩|⟨rfl, rfl⟩|⟨rfl, rfl⟩|⟨rfl, rfl⟩|⟨rfl, rfl⟩|⟨rfl, rfl⟩|⟨rfl, rfl⟩|⟨rfl, rfl⟩ <;>
        omega
    · next h12 =>
      obtain ⟨b, hb, hcb⟩ := dayInYear_cases (y + 1) 1 1 (by omega) (by omega)
      simp only [dateToDays_eq, daysTill_succ']
      omega

theorem next_valid (d : CDate) (h : d.Valid) : d.next.Valid := by
  obtain ⟨y, m, dd⟩ := d
  obtain ⟨hm1, hm2, hd1, hd2⟩ := h
  simp only at hm1 hm2 hd1 hd2
  have hml : ∀ y m, 1 ≤ monthLength y m := by
    intro y m; unfold monthLength; split <;> split <;> omega
  simp only [CDate.next]
  split
  · exact ⟨hm1, hm2, by simp, by simpa using by omega⟩
  · split
    · exact ⟨by simp, by simp; omega, by simp, hml _ _⟩
    · exact ⟨by simp, by simp, by simp, hml _ _⟩

theorem nthDay_valid (n : Nat) : (nthDay n).Valid := by
  induction n with
  | zero => decide
  | succ n ih => exact next_valid _ ih

/-- **C03**: `Date(y, m, d).to_days()` of the `n`-th calendar day since 0000-01-01 is `n`. -/
theorem to_days_nthDay (n : Nat) :
    dateToDays (nthDay n).year (nthDay n).month (nthDay n).day = n := by
  induction n with
  | zero => decide
  | succ n ih => rw [nthDay, to_days_next _ (nthDay_valid n), ih]

theorem daysTill_mono {a b : Nat} (h : a < b) :
    daysTill a + 365 + leapBit a ≤ daysTill b := by
  induction b with
  | zero => omega
  | succ b ih =>
    rcases Nat.lt_or_ge a b with h1 | h1
    · have := ih h1; rw [daysTill_succ' b]; omega
    · have : a = b := by omega
      subst this
      rw [daysTill_succ']; omega

theorem dayInYear_lt (y m d : Nat) (h : (⟨y, m, d⟩ : CDate).Valid) :
    dayInYear y m d < 365 + leapBit y := by
  obtain ⟨hm1, hm2, hd1, hd2⟩ := h
  simp only at hm1 hm2 hd1 hd2
  obtain ⟨a, ha, hcase⟩ := dayInYear_cases y m d hm1 hm2
  have hml := monthLength_cases y m
  have hlb := leapBit_le y
  rcases hcase with ⟨rfl, rfl⟩|⟨rfl, rfl⟩|⟨rfl, rfl⟩|⟨rfl, rfl⟩|⟨rfl, rfl⟩|⟨rfl, rfl⟩|⟨rfl, rfl⟩|⟨rfl, rfl⟩|⟨rfl, rfl⟩|⟨rfl, rfl⟩|⟨rfl, rfl⟩|⟨rfl, rfl⟩ <;>
    omega

theorem dayInYear_mono (y m d m' d' : Nat) (h : (⟨y, m, d⟩ : CDate).Valid)
    (h' : (⟨y, m', d'⟩ : CDate).Valid) (hlt : m < m' ∨ (m = m' ∧ d < d')) :
    dayInYear y m d < dayInYear y m' d' := by
  obtain ⟨hm1, hm2, hd1, hd2⟩ := h
  obtain ⟨hm1', hm2', hd1', hd2'⟩ := h'
  simp only at hm1 hm2 hd1 hd2 hm1' hm2' hd1' hd2'
  obtain ⟨p, hp, hcp⟩ := dayInYear_cases y m d hm1 hm2
  obtain ⟨q, hq, hcq⟩ := dayInYear_cases y m' d' hm1' hm2'
  have hml := monthLength_cases y m
  have hml' := monthLength_cases y m'
  have hlb := leapBit_le y
  generalize leapBit y = e at *
  rcases hcp with ⟨rfl, rfl⟩|⟨rfl, rfl⟩|⟨rfl, rfl⟩|⟨rfl, rfl⟩|⟨rfl, rfl⟩|⟨rfl, rfl⟩|⟨rfl, rfl⟩|⟨rfl, rfl⟩|⟨rfl, rfl⟩|⟨rfl, rfl⟩|⟨rfl, rfl⟩|⟨rfl, rfl⟩ <;>
    omega

/-- **C03**: the day count is strictly increasing in calendar order over valid dates. -/
theorem to_days_strict_mono (a b : CDate) (ha : a.Valid) (hb : b.Valid) (h : a.Before b) :
    dateToDays a.year a.month a.day < dateToDays b.year b.month b.day := by
  obtain ⟨y, m, d⟩ := a
  obtain ⟨y', m', d'⟩ := b
  simp only [CDate.Before] at h
  simp only [dateToDays_eq]
  rcases h with h | ⟨rfl, h⟩
  · have := daysTill_mono h
    have := dayInYear_lt y m d ha
    omega
  · have := dayInYear_mono y m d m' d' ha hb h
    omega

theorem before_total (a b : CDate) : a = b ∨ a.Before b ∨ b.Before a := by
  obtain ⟨y, m, d⟩ := a
  obtain ⟨y', m', d'⟩ := b
  simp only [CDate.Before, CDate.mk.injEq]
  omega

/-- **C03**: different valid dates have different day counts. -/
theorem to_days_injective (a b : CDate) (ha : a.Valid) (hb : b.Valid)
    (h : dateToDays a.year a.month a.day = dateToDays b.year b.month b.day) : a = b := by
  rcases before_total a b with h1 | h1 | h1
  · exact h1
  · have := to_days_strict_mono a b ha hb h1; omega
  · have := to_days_strict_mono b a hb ha h1; omega

/-- **C03**: reading back: the date whose number is `Date.to_days` is the date itself. -/
theorem nthDay_to_days (d : CDate) (h : d.Valid) :
    nthDay (dateToDays d.year d.month d.day) = d :=
  to_days_injective _ _ (nthDay_valid _) h (to_days_nthDay _)

/-- The hypothesis `Valid` is needed: the code accepts 29 February of a non-leap year and gives it the
number of 1 March. -/
theorem to_days_invalid_collision : dateToDays 1999 2 29 = dateToDays 1999 3 1 := by decide

example : (⟨2000, 2, 29⟩ : CDate).Valid ∧ dateToDays 2000 2 29 = 730544 := by decide
example : (⟨1920, 1, 1⟩ : CDate).Valid ∧ dateToDays 1920 1 1 = 701265 := by decide

/-! ## C04 -/

theorem hexDigit_ne_colon (n : Nat) (h : n < 16) : hexDigit n ≠ ':' := by
  have : n = 0 ∨ n = 1 ∨ n = 2 ∨ n = 3 ∨ n = 4 ∨ n = 5 ∨ n = 6 ∨ n = 7 ∨ n = 8 ∨ n = 9 ∨ n = 10 ∨
    n = 11 ∨ n = 12 ∨ n = 13 ∨ n = 14 ∨ n = 15 := by omega
  rcases this with rfl|rfl|rfl|rfl|rfl|rfl|rfl|rfl|rfl|rfl|rfl|rfl|rfl|rfl|rfl|rfl <;> decide

theorem hexVal_hexDigit (n : Nat) (h : n < 16) : hexVal (hexDigit n) = some n := by
  have : n = 0 ∨ n = 1 ∨ n = 2 ∨ n = 3 ∨ n = 4 ∨ n = 5 ∨ n = 6 ∨ n = 7 ∨ n = 8 ∨ n = 9 ∨ n = 10 ∨
    n = 11 ∨ n = 12 ∨ n = 13 ∨ n = 14 ∨ n = 15 := by omega
  rcases this with rfl|rfl|rfl|rfl|rfl|rfl|rfl|rfl|rfl|rfl|rfl|rfl|rfl|rfl|rfl|rfl <;> decide

theorem splitColon_hexByte_end (b : UInt8) : splitColon (hexByte b) = [hexByte b] := by
  have hb := b.toNat_lt
  simp [hexByte, splitColon, hexDigit_ne_colon _ (show b.toNat / 16 < 16 by omega),
    hexDigit_ne_colon _ (show b.toNat % 16 < 16 by omega)]

theorem splitColon_hexByte (b : UInt8) (r : List Char) :
    splitColon (hexByte b ++ ':' :: r) = hexByte b :: splitColon r := by
  have hb := b.toNat_lt
  simp [hexByte, splitColon, hexDigit_ne_colon _ (show b.toNat / 16 < 16 by omega),
    hexDigit_ne_colon _ (show b.toNat % 16 < 16 by omega)]

theorem parseHex_hexByte (b : UInt8) : parseHex (hexByte b) = some b.toNat := by
  have hb := b.toNat_lt
  simp [parseHex, hexByte, hexVal_hexDigit _ (show b.toNat / 16 < 16 by omega),
    hexVal_hexDigit _ (show b.toNat % 16 < 16 by omega)]
  omega

/-- **C04**: `str_hex(hex_str(s)) == s` for every non-empty byte string. -/
theorem hex_roundtrip (s : Bytes) (h : s ≠ []) : strHex (hexStr s) = some s := by
  unfold strHex
  induction s with
  | nil => exact absurd rfl h
  | cons b r ih =>
    cases r with
    | nil =>
      have hb : b.toNat < 256 := b.toNat_lt
      simp [hexStr, splitColon_hexByte_end, parseHex_hexByte, hb]
    | cons c r =>
      have := ih (by simp)
      have hb : b.toNat < 256 := b.toNat_lt
      simp only [hexStr, splitColon_hexByte, List.mapM_cons, this, parseHex_hexByte]
      simp [hb]

/-- The full C04 claim is false of the code at the empty string: `str_hex(hex_str(b''))` raises
`ValueError` (`int('', 16)`). -/
theorem hex_roundtrip_fails_on_empty : strHex (hexStr []) = none := by decide

/-- **C04** Exactly: the text of a byte string is read back as that byte string if and only if the string is not empty. -/
theorem hex_roundtrip_iff (s : Bytes) : strHex (hexStr s) = some s ↔ s ≠ [] := by
  constructor
  · rintro h rfl
    rw [hex_roundtrip_fails_on_empty] at h
    cases h
  · exact hex_roundtrip s

/-- Consequently `hex_str` is injective on all byte strings (the empty one included). -/
theorem hexStr_injective (a b : Bytes) (h : hexStr a = hexStr b) : a = b := by
  have := congrArg strHex h
  by_cases ha : a = [] <;> by_cases hb : b = []
  · rw [ha, hb]
  · subst ha; rw [hex_roundtrip b hb] at this; simp [hex_roundtrip_fails_on_empty] at this
  · subst hb; rw [hex_roundtrip a ha] at this; simp [hex_roundtrip_fails_on_empty] at this
  · rw [hex_roundtrip a ha, hex_roundtrip b hb] at this; exact Option.some.inj this

example : hexStr [0, 0xab, 0xff] = "00:ab:ff".toList := by decide

end Grf
