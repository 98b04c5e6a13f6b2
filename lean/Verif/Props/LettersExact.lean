import Verif.Model.Syntax
/-!
# C56: the characters of names and numbers

The lexer's classes of characters, `[a-zA-Z_]`, `[a-zA-Z0-9_]`, `\d` (ASCII) and `[0-9a-fA-F]`, written out.
-/
namespace Grf.Syntax

theorem char_cases (P Q : Char → Prop) (h : ∀ n < 128, P (Char.ofNat n) ↔ Q (Char.ofNat n)) (hP : ∀ c, P c → c.toNat < 128)
    (hQ : ∀ c, Q c → c.toNat < 128) (c : Char) : P c ↔ Q c := by
  have e : Char.ofNat c.toNat = c := Char.ofNat_toNat c
  constructor
  · intro hp; have := (h c.toNat (hP c hp)); rw [e] at this; exact this.1 hp
  · intro hq; have := (h c.toNat (hQ c hq)); rw [e] at this; exact this.2 hq

/-- **C56** Letters and the underscore begin a name. -/
theorem nameStart_iff (c : Char) : isNameStart c = true ↔ c ∈ "abcdefghijklmnopqrstuvwxyzABCDEFGHIJKLMNOPQRSTUVWXYZ_".toList := by
  refine char_cases (fun c => isNameStart c = true) (fun c => c ∈ "abcdefghijklmnopqrstuvwxyzABCDEFGHIJKLMNOPQRSTUVWXYZ_".toList) ?_ ?_ ?_ c
  · decide +kernel
  · intro c h
    simp only [isNameStart, Bool.or_eq_true, Bool.and_eq_true, decide_eq_true_eq, beq_iff_eq] at h
    omega
  · have : ∀ c ∈ "abcdefghijklmnopqrstuvwxyzABCDEFGHIJKLMNOPQRSTUVWXYZ_".toList, c.toNat < 128 := by decide +kernel
    exact this

/-- Decimal digits. -/
theorem digit_iff (c : Char) : isDigit c = true ↔ c ∈ "0123456789".toList := by
  refine char_cases (fun c => isDigit c = true) (fun c => c ∈ "0123456789".toList) ?_ ?_ ?_ c
  · decide +kernel
  · intro c h
    simp only [isDigit, Bool.and_eq_true, decide_eq_true_eq] at h
    omega
  · have : ∀ c ∈ "0123456789".toList, c.toNat < 128 := by decide +kernel
    exact this

/-- **C56** The other characters of names: digits too. -/
theorem nameChar_iff (c : Char) : isNameChar c = true ↔
    c ∈ "abcdefghijklmnopqrstuvwxyzABCDEFGHIJKLMNOPQRSTUVWXYZ_".toList ∨ c ∈ "0123456789".toList := by
  rw [← nameStart_iff, ← digit_iff, isNameChar, Bool.or_eq_true]

/-- **C56** The value of a hexadecimal digit is its place in the row, in small or in capital letters. -/
theorem hexDig_iff (c : Char) (v : Nat) : hexDig c = some v ↔ "0123456789abcdef".toList[v]? = some c ∨ "0123456789ABCDEF".toList[v]? = some c := by
  have hv : 16 ≤ v → (hexDig c = some v ↔ "0123456789abcdef".toList[v]? = some c ∨ "0123456789ABCDEF".toList[v]? = some c) := by
    intro h
    have l1 : "0123456789abcdef".toList.length = 16 := by decide +kernel
    have l2 : "0123456789ABCDEF".toList.length = 16 := by decide +kernel
    rw [List.getElem?_eq_none (by omega), List.getElem?_eq_none (by omega)]
    simp only [reduceCtorEq, or_self, iff_false]
    intro hh
    unfold hexDig at hh
    split at hh
    · simp at hh; omega
    · split at hh
      · simp at hh; omega
      · split at hh
        · simp at hh; omega
        · cases hh
  by_cases h16 : 16 ≤ v
  · exact hv h16
  · have key : ∀ v < 16, ∀ n < 128, hexDig (Char.ofNat n) = some v ↔
        "0123456789abcdef".toList[v]? = some (Char.ofNat n) ∨ "0123456789ABCDEF".toList[v]? = some (Char.ofNat n) := by decide +kernel
    refine char_cases (fun c => hexDig c = some v) (fun c => "0123456789abcdef".toList[v]? = some c ∨ "0123456789ABCDEF".toList[v]? = some c)
      (key v (by omega)) ?_ ?_ c
    · intro c h
      by_cases hc : c.toNat < 128
      · exact hc
      · exfalso
        unfold hexDig at h
        rw [if_neg (by omega), if_neg (by omega), if_neg (by omega)] at h
        cases h
    · have m : ∀ c ∈ "0123456789abcdef".toList ++ "0123456789ABCDEF".toList, c.toNat < 128 := by decide +kernel
      intro c h
      refine m c (List.mem_append.2 ?_)
      rcases h with h | h
      · exact .inl (List.mem_of_getElem? h)
      · exact .inr (List.mem_of_getElem? h)

example : isNameStart 'Z' = true ∧ isNameStart '7' = false ∧ hexDig 'F' = some 15 ∧ hexDig 'g' = none := by decide +kernel

end Grf.Syntax
