import Mathlib.Data.List.Forall2
import Verif.Props.Common
import Verif.Props.TextExact
/-!
# C04, C50: hexadecimal digits
-/
namespace Grf

/-- The sixteen digits, small and capital. -/
def smallDigits : List Char := ['0', '1', '2', '3', '4', '5', '6', '7', '8', '9', 'a', 'b', 'c', 'd', 'e', 'f']
def capitalDigits : List Char := ['0', '1', '2', '3', '4', '5', '6', '7', '8', '9', 'A', 'B', 'C', 'D', 'E', 'F']

/-- A digit has the value at which it stands in one of the lists; other characters are not read. -/
theorem hexVal_iff (c : Char) (n : Nat) : hexVal c = some n ↔ smallDigits[n]? = some c ∨ capitalDigits[n]? = some c := by
  constructor
  · intro h
    have key : ∀ k : Fin 103, ∀ n : Fin 16, hexVal (Char.ofNat k.val) = some n.val → smallDigits[n.val]? = some (Char.ofNat k.val) ∨ capitalDigits[n.val]? = some (Char.ofNat k.val) := by
      decide +kernel
    have hc : c.toNat < 103 ∧ n < 16 := by
      unfold hexVal at h
      simp only at h
      repeat' split at h
      all_goals first | (simp only [Option.some.injEq] at h; omega) | cases h
    have := key ⟨c.toNat, hc.1⟩ ⟨n, hc.2⟩
    simp only [Char.ofNat_toNat] at this
    exact this h
  · intro h
    have hn : n < 16 := by
      rcases h with h | h
      · exact (List.getElem?_eq_some_iff.1 h).1
      · exact (List.getElem?_eq_some_iff.1 h).1
    have key : ∀ n : Fin 16, (smallDigits[n.val]?.bind hexVal) = some n.val ∧ (capitalDigits[n.val]?.bind hexVal) = some n.val := by decide +kernel
    have k := key ⟨n, hn⟩
    simp only at k
    rcases h with h | h
    · rw [h] at k; exact k.1
    · rw [h] at k; exact k.2

theorem textEsc_hexVal_iff (c : Char) (n : Nat) : TextEsc.hexVal c = some n ↔ smallDigits[n]? = some c ∨ capitalDigits[n]? = some c := by
  rw [← hexVal_iff]
  have e : TextEsc.hexVal c = hexVal c := by
    have e1 : ('a' ≤ c ↔ 97 ≤ c.toNat) := Iff.rfl
    have e2 : (c ≤ 'f' ↔ c.toNat ≤ 102) := Iff.rfl
    have e3 : ('0' ≤ c ↔ 48 ≤ c.toNat) := Iff.rfl
    have e4 : (c ≤ '9' ↔ c.toNat ≤ 57) := Iff.rfl
    have e5 : ('A' ≤ c ↔ 65 ≤ c.toNat) := Iff.rfl
    have e6 : (c ≤ 'F' ↔ c.toNat ≤ 70) := Iff.rfl
    unfold TextEsc.hexVal hexVal
    simp only [e1, e2, e3, e4, e5, e6]
  rw [e]

/-- The text of a byte: two small digits, the higher first. -/
def ByteText (b : UInt8) (x : List Char) : Prop := ∃ c d, x = [c, d] ∧ smallDigits[b.toNat / 16]? = some c ∧ smallDigits[b.toNat % 16]? = some d

/-- **C04** What `hex_str` gives: the texts of the bytes with colons between. -/
theorem hexStr_text (s : Bytes) : ∃ xs : List (List Char), List.Forall₂ ByteText s xs ∧ hexStr s = [':'].intercalate xs := by
  have hd : ∀ n : Fin 16, smallDigits[n.val]? = some (hexDigit n.val) := by decide +kernel
  have hb : ∀ b : UInt8, ByteText b (hexByte b) := by
    intro b
    have := b.toNat_lt
    exact ⟨_, _, rfl, hd ⟨b.toNat / 16, by omega⟩, hd ⟨b.toNat % 16, by omega⟩⟩
  refine ⟨s.map hexByte, ?_, ?_⟩
  · rw [List.forall₂_map_right_iff, List.forall₂_same]
    exact fun b _ => hb b
  · induction s with
    | nil => rfl
    | cons b r ih =>
      cases r with
      | nil => simp [hexStr, List.intercalate]
      | cons c r =>
        simp only [hexStr, ih]
        simp [List.intercalate]

/-- **C04** Texts that `str_hex` reads: digits, small or capital, at least one for every byte and a value below 256. In particular the text of a
byte string is read as well in capital letters. -/
theorem hex_capitals (s : Bytes) (h : s ≠ []) : strHex ((hexStr s).map Char.toUpper) = some s := by
  have hu : ∀ c : Char, hexVal c ≠ none → hexVal c.toUpper = hexVal c := by
    intro c hc
    obtain ⟨n, hn⟩ := Option.ne_none_iff_exists'.1 hc
    rw [hn]
    have hlt : n < 16 := by
      rcases (hexVal_iff c n).1 hn with h | h
      · exact (List.getElem?_eq_some_iff.1 h).1
      · exact (List.getElem?_eq_some_iff.1 h).1
    have key : ∀ n : Fin 16, (smallDigits[n.val]?.bind fun c => hexVal c.toUpper) = some n.val ∧ (capitalDigits[n.val]?.bind fun c => hexVal c.toUpper) = some n.val := by
      decide +kernel
    have k := key ⟨n, hlt⟩
    simp only at k
    rcases (hexVal_iff c n).1 hn with h | h
    · rw [h] at k; exact k.1
    · rw [h] at k; exact k.2
  have hcol : ∀ c : Char, hexVal c ≠ none → c.toUpper ≠ ':' := by
    intro c hc e
    rw [← hu c hc, e] at hc
    exact hc (by decide)
  have hdig : ∀ n : Nat, n < 16 → hexVal (hexDigit n) ≠ none := fun n hn => by rw [hexVal_hexDigit n hn]; simp
  have hup : ∀ b : UInt8, ∃ c d, (hexByte b).map Char.toUpper = [c, d] ∧ c ≠ ':' ∧ d ≠ ':' ∧ parseHex [c, d] = some b.toNat := by
    intro b
    have hb := b.toNat_lt
    have h1 := hdig (b.toNat / 16) (by omega)
    have h2 := hdig (b.toNat % 16) (by omega)
    refine ⟨(hexDigit (b.toNat / 16)).toUpper, (hexDigit (b.toNat % 16)).toUpper, rfl, hcol _ h1, hcol _ h2, ?_⟩
    simp [parseHex, hu _ h1, hu _ h2, hexVal_hexDigit _ (show b.toNat / 16 < 16 by omega), hexVal_hexDigit _ (show b.toNat % 16 < 16 by omega)]
    omega
  unfold strHex
  induction s with
  | nil => exact absurd rfl h
  | cons b r ih =>
    obtain ⟨c, d, e1, e2, e3, e4⟩ := hup b
    have hb : b.toNat < 256 := b.toNat_lt
    cases r with
    | nil =>
      simp only [hexStr, e1]
      simp [splitColon, e2, e3, e4, hb]
    | cons x r =>
      have := ih (by simp)
      simp only [hexStr, List.map_append, List.map_cons, e1] at this ⊢
      have e0 : Char.toUpper ':' = ':' := by decide
      rw [e0]
      have e5 : splitColon ([c, d] ++ ':' :: (hexStr (x :: r)).map Char.toUpper) = [c, d] :: splitColon ((hexStr (x :: r)).map Char.toUpper) := by
        simp [splitColon, e2, e3]
      rw [e5, List.mapM_cons, this, e4]
      simp [hb]

example : strHex "0A:ff:Fe".toList = some [10, 255, 254] := by decide +kernel

end Grf
