import Verif.Props.TextEsc
import Verif.Props.Packets
/-!
# C50: exactly which texts are accepted, and what they compile to
-/
namespace Grf.TextEsc

/-- What a text compiles to, escape by escape. `int16` is the reader of numbers. The number of an escape takes the next two (four after `U`)
characters, or as many as the text still has. -/
inductive Means (int16 : List Char → Option Int) : List Char → Bytes → Prop
  | nil : Means int16 [] []
  | plain (c : Char) (r : List Char) (bs : Bytes) : c ≠ '\\' → Means int16 r bs → Means int16 (c :: r) (utf8 c ++ bs)
  | backslash (r : List Char) (bs : Bytes) : Means int16 r bs → Means int16 ('\\' :: '\\' :: r) (0x5C :: bs)
  | quote (r : List Char) (bs : Bytes) : Means int16 r bs → Means int16 ('\\' :: '"' :: r) (0x22 :: bs)
  | unicode (d r : List Char) (n : Nat) (bs : Bytes) : d.length = 4 ∨ (d.length < 4 ∧ r = []) → int16 d = some (n : Int) →
      n < 0x110000 → ¬ (0xD800 ≤ n ∧ n ≤ 0xDFFF) → Means int16 r bs → Means int16 ('\\' :: 'U' :: d ++ r) (utf8 (Char.ofNat n) ++ bs)
  | byte (c : Char) (d r : List Char) (n : Nat) (bs : Bytes) : c ≠ '\\' → c ≠ '"' → c ≠ 'U' → d.length = 1 ∨ (d = [] ∧ r = []) →
      int16 (c :: d) = some (n : Int) → n < 256 → Means int16 r bs → Means int16 ('\\' :: c :: d ++ r) (UInt8.ofNat n :: bs)

theorem chrUtf8_iff (n : Int) (b : Bytes) : chrUtf8 n = some b ↔
    ∃ k : Nat, n = k ∧ k < 0x110000 ∧ ¬ (0xD800 ≤ k ∧ k ≤ 0xDFFF) ∧ b = utf8 (Char.ofNat k) := by
  unfold chrUtf8
  constructor
  · intro h
    split at h
    · next hc =>
      simp only [Option.some.injEq] at h
      obtain ⟨h0, hv⟩ := hc
      refine ⟨n.toNat, by omega, ?_, ?_, h.symm⟩ <;> unfold Nat.isValidChar at hv <;> omega
    · cases h
  · rintro ⟨k, rfl, h1, h2, rfl⟩
    rw [if_pos]
    · simp
    · refine ⟨by omega, ?_⟩
      simp only [Int.toNat_natCast]
      unfold Nat.isValidChar; omega

theorem escapes_sound (int16 : List Char → Option Int) : ∀ (n : Nat) (v : List Char) (bs : Bytes),
    escapes int16 n v = some bs → Means int16 v bs := by
  intro n
  induction n with
  | zero =>
    intro v bs h
    cases v with
    | nil => simp only [escapes, Option.some.injEq] at h; subst h; exact .nil
    | cons => simp [escapes] at h
  | succ n ih =>
    intro v bs h
    cases v with
    | nil => simp only [escapes, Option.some.injEq] at h; subst h; exact .nil
    | cons c r =>
      simp only [escapes] at h
      by_cases hc : c = '\\'
      · subst hc
        rw [if_pos rfl] at h
        cases r with
        | nil => simp at h
        | cons d r' =>
          simp only at h
          by_cases h1 : d = '\\' ∨ d = '"'
          · rw [if_pos h1, Option.map_eq_some_iff] at h
            obtain ⟨b, hb, rfl⟩ := h
            rcases h1 with rfl | rfl
            · exact .backslash _ _ (ih _ _ hb)
            · exact .quote _ _ (ih _ _ hb)
          · rw [if_neg h1] at h
            simp only [not_or] at h1
            by_cases h2 : d = 'U'
            · subst h2
              rw [if_pos rfl, Option.bind_eq_some_iff] at h
              obtain ⟨b, hb, h⟩ := h
              rw [Option.bind_eq_some_iff] at hb
              obtain ⟨m, hm, hb⟩ := hb
              rw [Option.map_eq_some_iff] at h
              obtain ⟨bs', hbs, rfl⟩ := h
              obtain ⟨k, rfl, k1, k2, rfl⟩ := (chrUtf8_iff m b).1 hb
              have := Means.unicode (int16 := int16) (r'.take 4) (r'.drop 4) k bs' ?_ hm k1 k2 (ih _ _ hbs)
              · simpa using this
              · by_cases hl : 4 ≤ r'.length
                · left; simp [hl]
                · right; rw [List.length_take, List.drop_eq_nil_iff]; omega
            · rw [if_neg h2, Option.bind_eq_some_iff] at h
              obtain ⟨b, hb, h⟩ := h
              rw [Option.bind_eq_some_iff] at hb
              obtain ⟨m, hm, hb⟩ := hb
              rw [Option.map_eq_some_iff] at h
              obtain ⟨bs', hbs, rfl⟩ := h
              simp only [List.take_succ_cons, List.drop_succ_cons] at hm hbs
              obtain ⟨m0, m1, rfl⟩ := (Packets.byteOf_iff _ _).1 hb
              have := Means.byte (int16 := int16) d (r'.take 1) (r'.drop 1) m.toNat bs' h1.1 h1.2 h2 ?_ (by rw [hm]; congr 1; omega) (by omega) (ih _ _ hbs)
              · rw [List.cons_append, List.cons_append, List.take_append_drop] at this; exact this
              · cases r' with
                | nil => right; simp
                | cons => left; simp
      · rw [if_neg hc, Option.map_eq_some_iff] at h
        obtain ⟨b, hb, rfl⟩ := h
        exact .plain _ _ _ hc (ih _ _ hb)

theorem escapes_complete (int16 : List Char → Option Int) (v : List Char) (bs : Bytes) (h : Means int16 v bs) :
    ∀ n, v.length ≤ n → escapes int16 n v = some bs := by
  induction h with
  | nil => intro n _; cases n <;> rfl
  | plain c r bs hc _ ih =>
    intro n hn
    cases n with
    | zero => simp at hn
    | succ n => simp only [escapes, if_neg hc, ih n (by simpa using hn), Option.map_some]
  | backslash r bs _ ih =>
    intro n hn
    cases n with
    | zero => simp at hn
    | succ n =>
      simp only [List.length_cons] at hn
      simp only [escapes, if_true, true_or, ih n (by omega), Option.map_some]; rfl
  | quote r bs _ ih =>
    intro n hn
    cases n with
    | zero => simp at hn
    | succ n =>
      simp only [List.length_cons] at hn
      simp only [escapes, if_true, or_true, ih n (by omega), Option.map_some]; rfl
  | unicode d r k bs hd hm k1 k2 _ ih =>
    intro n hn
    cases n with
    | zero => simp at hn
    | succ n =>
      simp only [List.cons_append, List.length_cons, List.length_append] at hn
      have e1 : (d ++ r).take 4 = d := by
        rcases hd with h | ⟨h, rfl⟩
        · rw [List.take_append_of_le_length (by omega), List.take_of_length_le (by omega)]
        · rw [List.append_nil, List.take_of_length_le (by omega)]
      have e2 : (d ++ r).drop 4 = r := by
        rcases hd with h | ⟨h, rfl⟩
        · rw [List.drop_append, List.drop_of_length_le (by omega), h]; simp
        · rw [List.append_nil, List.drop_of_length_le (by omega)]
      have e3 := (chrUtf8_iff (k : Int) _).2 ⟨k, rfl, k1, k2, rfl⟩
      simp only [List.cons_append, escapes, if_true]
      rw [if_neg (by decide), e1, e2, hm, ih n (by omega)]
      simp [e3]
  | byte c d r k bs h1 h2 h3 hd hm hk _ ih =>
    intro n hn
    cases n with
    | zero => simp at hn
    | succ n =>
      simp only [List.cons_append, List.length_cons, List.length_append] at hn
      have e1 : (d ++ r).take 1 = d := by
        rcases hd with h | ⟨rfl, rfl⟩
        · rw [List.take_append_of_le_length (by omega), List.take_of_length_le (by omega)]
        · rfl
      have e2 : (d ++ r).drop 1 = r := by
        rcases hd with h | ⟨rfl, rfl⟩
        · rw [List.drop_append, List.drop_of_length_le (by omega), h]; simp
        · rfl
      have e3 := (Packets.byteOf_iff (k : Int) (UInt8.ofNat k)).2 ⟨by omega, by omega, by simp⟩
      simp only [List.cons_append, escapes, if_true]
      rw [if_neg (by simp [h1, h2]), if_neg h3]
      simp only [List.take_succ_cons, List.drop_succ_cons]
      rw [e1, e2, hm, ih n (by omega)]
      simp [e3]

/-- **C50** A text is accepted exactly when it is a sequence of plain characters and escapes whose numbers are readable and in range, and it then
compiles to the bytes of its pieces, after the marker if the text is not ASCII. -/
theorem compile_iff (int16 : List Char → Option Int) (isAscii : List Char → Bool) (v : List Char) (bs : Bytes) :
    compile int16 isAscii v = some bs ↔ ∃ b, Means int16 v b ∧ bs = (if isAscii v then [] else [0xC3, 0x9E]) ++ b := by
  unfold compile
  rw [Option.map_eq_some_iff]
  constructor
  · rintro ⟨b, hb, rfl⟩
    exact ⟨b, escapes_sound int16 _ _ _ hb, rfl⟩
  · rintro ⟨b, hb, rfl⟩
    exact ⟨b, escapes_complete int16 _ _ hb _ (Nat.le_refl _), rfl⟩

/-- A text means at most one sequence of bytes. -/
theorem means_unique {int16 : List Char → Option Int} {v : List Char} {a b : Bytes} (ha : Means int16 v a) (hb : Means int16 v b) : a = b := by
  have h1 := escapes_complete int16 v a ha _ (Nat.le_refl _)
  have h2 := escapes_complete int16 v b hb _ (Nat.le_refl _)
  rw [h1] at h2; exact Option.some.inj h2

/-! ### Python's reading of numbers of one and two characters -/

theorem hexVal_facts {c : Char} {n : Nat} (h : hexVal c = some n) : n < 16 ∧ ResNames.isSpace c = false ∧ c ≠ '-' ∧ c ≠ '+' ∧ c ≠ '_' ∧ c ≠ 'x' ∧ c ≠ 'X' := by
  have hx : IsHex c := by unfold IsHex; rw [h]; rfl
  obtain ⟨a, b, c', d, e⟩ := hex_not hx
  refine ⟨?_, a, b, c', ?_, d, e⟩
  · have := hexNumber_lt [c]
    simpa [hexNumber, h] using this
  · rintro rfl; revert h; decide +revert

theorem hexVal_space {c : Char} (h : ResNames.isSpace c = true) : hexVal c = none := by
  cases e : hexVal c with
  | none => rfl
  | some n => rw [(hexVal_facts e).2.1] at h; cases h

theorem space_facts {c : Char} (h : ResNames.isSpace c = true) : c ≠ '-' ∧ c ≠ '+' ∧ c ≠ '_' ∧ c ≠ '0' := by
  refine ⟨?_, ?_, ?_, ?_⟩ <;> rintro rfl <;> revert h <;> decide

/-- **C50** The escapes of a single byte that the code accepts: two hexadecimal digits, or one with a space or a plus sign (or with a minus sign:
then the value is negative, which is accepted for zero only). -/
theorem byte_field_iff (a b : Char) (n : Int) : pyInt16 [a, b] = some n ↔
    (∃ x y, hexVal a = some x ∧ hexVal b = some y ∧ n = ((16 * x + y : Nat) : Int)) ∨
    (∃ y, (ResNames.isSpace a = true ∨ a = '+') ∧ hexVal b = some y ∧ n = (y : Int)) ∨
    (∃ x, hexVal a = some x ∧ ResNames.isSpace b = true ∧ n = (x : Int)) ∨
    (∃ y, a = '-' ∧ hexVal b = some y ∧ n = -(y : Int)) := by
  unfold pyInt16
  cases ha : ResNames.isSpace a with
  | true =>
    have hva := hexVal_space ha
    obtain ⟨f1, f2, f3, f4⟩ := space_facts ha
    cases hb : ResNames.isSpace b with
    | true =>
      have hvb := hexVal_space hb
      simp [List.dropWhile, ha, hb, hva, hvb, splitSign, hexBody, hexDigits]
    | false =>
      by_cases b1 : b = '-'
      · subst b1
        have : hexVal '-' = none := by decide
        simp [List.dropWhile, ha, hb, hva, splitSign, hexBody, hexDigits, this]
      · by_cases b2 : b = '+'
        · subst b2
          have : hexVal '+' = none := by decide
          simp [List.dropWhile, ha, hb, hva, splitSign, hexBody, hexDigits, this]
        · have e : (hexBody [b]) = hexVal b := by
            by_cases b3 : b = '_'
            · subst b3; decide
            · simp [hexBody, hexDigits, b3]
          simp [List.dropWhile, ha, hb, hva, splitSign, b1, b2, e, f1]
          cases hexVal b <;> simp [eq_comm]
  | false =>
    cases hb : ResNames.isSpace b with
    | true =>
      have hvb := hexVal_space hb
      by_cases a1 : a = '-'
      · subst a1
        have : hexVal '-' = none := by decide
        simp [List.dropWhile, ha, hb, hvb, splitSign, hexBody, hexDigits, this]
      · by_cases a2 : a = '+'
        · subst a2
          have : hexVal '+' = none := by decide
          simp [List.dropWhile, ha, hb, hvb, splitSign, hexBody, hexDigits, this]
        · have e : (hexBody [a]) = hexVal a := by
            by_cases b3 : a = '_'
            · subst b3; decide
            · simp [hexBody, hexDigits, b3]
          simp [List.dropWhile, ha, hb, hvb, splitSign, a1, a2, e]
          cases hexVal a <;> simp [eq_comm]
    | false =>
      by_cases a1 : a = '-'
      · subst a1
        have h1 : hexVal '-' = none := by decide
        have e : (hexBody [b]) = hexVal b := by
          by_cases b3 : b = '_'
          · subst b3; decide
          · simp [hexBody, hexDigits, b3]
        simp [List.dropWhile, ha, hb, splitSign, e, h1]
        cases hexVal b <;> simp [eq_comm]
      · by_cases a2 : a = '+'
        · subst a2
          have h1 : hexVal '+' = none := by decide
          have e : (hexBody [b]) = hexVal b := by
            by_cases b3 : b = '_'
            · subst b3; decide
            · simp [hexBody, hexDigits, b3]
          simp [List.dropWhile, ha, hb, splitSign, e, h1]
          cases hexVal b <;> simp [eq_comm]
        · have e : hexBody [a, b] = (hexVal a).bind fun x => (hexVal b).map fun y => 16 * x + y := by
            unfold hexBody
            by_cases hx : [a, b].take 2 = ['0', 'x'] ∨ [a, b].take 2 = ['0', 'X']
            · rw [if_pos hx]
              have : hexVal b = none := by
                rcases hx with h | h <;> simp at h <;> rw [h.2] <;> decide
              rw [this]
              rcases hx with h | h <;> simp at h <;> simp [h.1, hexDigits]
            · rw [if_neg hx]
              by_cases b3 : a = '_'
              · subst b3; have : hexVal '_' = none := by decide
                simp [hexDigits, this]
              · by_cases b4 : b = '_'
                · subst b4; have : hexVal '_' = none := by decide
                  simp [hexDigits, this, b3]
                · simp only [hexDigits, b3, b4, if_false]
                  cases hexVal a with
                  | none => rfl
                  | some x => cases hexVal b with
                    | none => rfl
                    | some y => simp [Nat.mul_comm]
          simp [List.dropWhile, ha, hb, splitSign, a1, a2, e]
          cases hexVal a with
          | none => simp
          | some x => cases hexVal b with
            | none => simp
            | some y => simp [eq_comm]

/-- One hexadecimal digit at the end of the text is accepted; nothing else that is one character long. -/
theorem last_byte_field_iff (a : Char) (n : Int) : pyInt16 [a] = some n ↔ ∃ x, hexVal a = some x ∧ n = (x : Int) := by
  unfold pyInt16
  cases ha : ResNames.isSpace a with
  | true =>
    have hva := hexVal_space ha
    simp [List.dropWhile, ha, hva, splitSign, hexBody, hexDigits]
  | false =>
    by_cases a1 : a = '-'
    · subst a1; have h1 : hexVal '-' = none := by decide
      simp [List.dropWhile, ha, splitSign, hexBody, hexDigits, h1]
    · by_cases a2 : a = '+'
      · subst a2; have h1 : hexVal '+' = none := by decide
        simp [List.dropWhile, ha, splitSign, hexBody, hexDigits, h1]
      · have e : (hexBody [a]) = hexVal a := by
          by_cases b3 : a = '_'
          · subst b3; decide
          · simp [hexBody, hexDigits, b3]
        simp [List.dropWhile, ha, splitSign, a1, a2, e]
        cases hexVal a <;> simp [eq_comm]

/-! ### Concrete cases -/

example : Means pyInt16 "a\\\\b\\41\\ 7\\U20aC\\9".toList ([0x61, 0x5C, 0x62, 0x41, 7, 0xE2, 0x82, 0xAC, 9]) :=
  escapes_sound pyInt16 30 _ _ (by decide +kernel)

example : ¬ ∃ b, Means pyInt16 "\\zz".toList b := by
  rintro ⟨b, h⟩
  have h1 := escapes_complete _ _ _ h 3 (by decide)
  have h2 : escapes pyInt16 3 "\\zz".toList = none := by decide +kernel
  rw [h2] at h1; cases h1

end Grf.TextEsc
