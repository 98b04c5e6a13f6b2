import Verif.Model.TextEsc
/-!
# C50: text escapes compile to the intended bytes
-/
namespace Grf.TextEsc

/-! ### The intended meaning -/

/-- A piece of a text: a plain character, `\\`, `\"`, `\U` with four hexadecimal digits, a backslash with two hexadecimal digits. -/
inductive Tok where
  | plain (c : Char)
  | backslash
  | quote
  | unicode (d : List Char)
  | byte (d : List Char)
deriving DecidableEq, Repr

/-- How the piece is written. -/
def Tok.text : Tok → List Char
  | .plain c => [c]
  | .backslash => ['\\', '\\']
  | .quote => ['\\', '"']
  | .unicode d => '\\' :: 'U' :: d
  | .byte d => '\\' :: d

/-- The number written with hexadecimal digits. -/
def hexNumber (d : List Char) : Nat := d.foldl (fun a c => a * 16 + (hexVal c).getD 0) 0

/-- A hexadecimal digit. -/
def IsHex (c : Char) : Prop := (hexVal c).isSome

instance (c : Char) : Decidable (IsHex c) := inferInstanceAs (Decidable (_ = true))

/-- A piece that is written correctly: a plain character is no backslash, escapes have the right number of hexadecimal digits, and a
Unicode escape is not half of a surrogate pair. -/
def Tok.ok : Tok → Prop
  | .plain c => c ≠ '\\'
  | .backslash => True
  | .quote => True
  | .unicode d => d.length = 4 ∧ (∀ c ∈ d, IsHex c) ∧ ¬ (0xD800 ≤ hexNumber d ∧ hexNumber d ≤ 0xDFFF)
  | .byte d => d.length = 2 ∧ ∀ c ∈ d, IsHex c

/-- The bytes the piece means. -/
def Tok.bytes : Tok → Bytes
  | .plain c => utf8 c
  | .backslash => [0x5C]
  | .quote => [0x22]
  | .unicode d => utf8 (Char.ofNat (hexNumber d))
  | .byte d => [UInt8.ofNat (hexNumber d)]

/-- A reader of hexadecimal numbers that is right where it has to be. -/
def ReadsHex (int16 : List Char → Option Int) : Prop := ∀ d, d ≠ [] → (∀ c ∈ d, IsHex c) → int16 d = some ((hexNumber d : Nat) : Int)

/-! ### Lemmas -/

theorem foldl_hex_lt (d : List Char) : ∀ a b, a < 16 ^ b → d.foldl (fun a c => a * 16 + (hexVal c).getD 0) a < 16 ^ (b + d.length) := by
  have hv : ∀ c, (hexVal c).getD 0 < 16 := by
    intro c
    have g0 : ('0' ≤ c) = (48 ≤ c.toNat) := rfl
    have g1 : (c ≤ '9') = (c.toNat ≤ 57) := rfl
    have g2 : ('a' ≤ c) = (97 ≤ c.toNat) := rfl
    have g3 : (c ≤ 'f') = (c.toNat ≤ 102) := rfl
    have g4 : ('A' ≤ c) = (65 ≤ c.toNat) := rfl
    have g5 : (c ≤ 'F') = (c.toNat ≤ 70) := rfl
    unfold hexVal
    simp only [g0, g1, g2, g3, g4, g5]
    split
    · simp only [Option.getD_some]; omega
    · split
      · simp only [Option.getD_some]; omega
      · split
        · simp only [Option.getD_some]; omega
        · decide
  induction d with
  | nil => intro a b h; simpa using h
  | cons c d ih =>
    intro a b h
    simp only [List.foldl_cons, List.length_cons]
    have e : b + (d.length + 1) = b + 1 + d.length := by omega
    rw [e]
    apply ih
    have := hv c
    rw [Nat.pow_succ]
    omega

theorem hexNumber_lt (d : List Char) : hexNumber d < 16 ^ d.length := by
  have := foldl_hex_lt d 0 0 (by decide)
  simpa [hexNumber] using this

/-- One correct piece at the start of a text. -/
theorem step (int16 : List Char → Option Int) (hi : ReadsHex int16) (t : Tok) (ht : t.ok) (rest : List Char) (n : Nat) :
    escapes int16 (n + 1) (t.text ++ rest) = (escapes int16 n rest).map (t.bytes ++ ·) := by
  cases t with
  | plain c =>
    simp only [Tok.text, List.cons_append, List.nil_append, escapes]
    rw [if_neg ht]
    rfl
  | backslash => simp only [Tok.text, List.cons_append, List.nil_append, escapes]; rfl
  | quote => simp only [Tok.text, List.cons_append, List.nil_append, escapes]; rfl
  | unicode d =>
    obtain ⟨h1, h2, h3⟩ := ht
    simp only [Tok.text, List.cons_append, escapes, if_true]
    rw [if_neg (by decide)]
    have e1 : (d ++ rest).take 4 = d := by rw [← h1]; simp
    have e2 : (d ++ rest).drop 4 = rest := by rw [← h1]; simp
    rw [e1, e2, hi d (by intro h; subst h; simp at h1) h2]
    have hlt := hexNumber_lt d
    rw [h1] at hlt
    have hc : chrUtf8 (hexNumber d : Nat) = some (utf8 (Char.ofNat (hexNumber d))) := by
      unfold chrUtf8
      rw [if_pos]
      · rfl
      · refine ⟨by omega, ?_⟩
        simp only [Int.toNat_natCast, Nat.isValidChar]
        omega
    rw [Option.bind_some, hc]
    rfl
  | byte d =>
    obtain ⟨h1, h2⟩ := ht
    match d, h1 with
    | [a, b], _ =>
      have ha := h2 a List.mem_cons_self
      have n1 : ¬ (a = '\\' ∨ a = '"') := by
        rintro (rfl | rfl) <;> revert ha <;> decide
      have n2 : ¬ a = 'U' := by
        rintro rfl; revert ha; decide
      simp only [Tok.text, List.cons_append, List.nil_append, escapes, if_true]
      rw [if_neg n1, if_neg n2]
      simp only [List.take_succ_cons, List.take_zero, List.drop_succ_cons, List.drop_zero]
      rw [hi [a, b] (by simp) h2]
      have hlt := hexNumber_lt [a, b]
      simp only [List.length_cons, List.length_nil] at hlt
      have hb : byteOf (hexNumber [a, b] : Nat) = some (UInt8.ofNat (hexNumber [a, b])) := by
        unfold byteOf
        rw [if_pos (by omega)]
        rfl
      rw [Option.bind_some, hb]
      rfl

theorem text_pos (t : Tok) : 0 < t.text.length := by cases t <;> simp [Tok.text]

/-- More fuel than characters changes nothing. -/
theorem escapes_fuel (int16 : List Char → Option Int) : ∀ (n : Nat) (v : List Char), v.length ≤ n → escapes int16 n v = escapes int16 v.length v := by
  intro n
  induction n using Nat.strongRecOn with
  | _ n ih =>
    intro v hv
    by_cases he : v.length = n
    · rw [he]
    · cases n with
      | zero => omega
      | succ n =>
        cases v with
        | nil => rfl
        | cons c r =>
          have any : ∀ (a b : Nat) (w : List Char), w.length ≤ a → w.length ≤ b → a ≤ n → b ≤ n → escapes int16 a w = escapes int16 b w := by
            intro a b w h1 h2 h3 h4
            rw [ih a (by omega) w h1, ih b (by omega) w h2]
          simp only [List.length_cons] at hv he ⊢
          simp only [escapes]
          split
          · cases r with
            | nil => rfl
            | cons d r' =>
              simp only [List.length_cons] at hv he
              simp only [List.length_cons]
              rw [any n (r'.length + 1) r' (by omega) (by omega) (by omega) (by omega),
                any n (r'.length + 1) (r'.drop 4) (by rw [List.length_drop]; omega) (by rw [List.length_drop]; omega) (by omega) (by omega),
                any n (r'.length + 1) ((d :: r').drop 2) (by simp only [List.length_drop, List.length_cons]; omega)
                  (by simp only [List.length_drop, List.length_cons]; omega) (by omega) (by omega)]
          · rw [any n r.length r (by omega) (Nat.le_refl _) (by omega) (by omega)]

theorem escapes_toks (int16 : List Char → Option Int) (hi : ReadsHex int16) (toks : List Tok) (h : ∀ t ∈ toks, t.ok) (rest : List Char) :
    ∀ n, ((toks.map Tok.text).flatten ++ rest).length ≤ n →
      escapes int16 n ((toks.map Tok.text).flatten ++ rest) = (escapes int16 rest.length rest).map ((toks.map Tok.bytes).flatten ++ ·) := by
  induction toks with
  | nil =>
    intro n hn
    simp only [List.map_nil, List.flatten_nil, List.nil_append] at hn ⊢
    rw [escapes_fuel int16 n rest hn]
    cases escapes int16 rest.length rest <;> rfl
  | cons t toks ih =>
    intro n hn
    simp only [List.map_cons, List.flatten_cons, List.append_assoc] at hn ⊢
    have := text_pos t
    cases n with
    | zero => simp only [List.length_append] at hn; omega
    | succ n =>
      rw [step int16 hi t (h t List.mem_cons_self), ih (fun t ht => h t (List.mem_cons_of_mem _ ht)) n (by
        rw [List.length_append] at hn; omega)]
      cases escapes int16 rest.length rest <;> simp

/-! ### The claims -/

/-- A correctly written text of any length compiles to the bytes its pieces mean, after the Unicode marker exactly if the text is not
ASCII. -/
theorem text_exact (int16 : List Char → Option Int) (hi : ReadsHex int16) (isAscii : List Char → Bool) (toks : List Tok) (h : ∀ t ∈ toks, t.ok) :
    compile int16 isAscii (toks.map Tok.text).flatten =
      some ((if isAscii (toks.map Tok.text).flatten then [] else [0xC3, 0x9E]) ++ (toks.map Tok.bytes).flatten) := by
  have := escapes_toks int16 hi toks h [] _ (Nat.le_refl _)
  simp only [List.append_nil] at this
  unfold compile
  rw [this]
  simp [escapes]

/-- A text without backslash is its UTF-8 form. -/
theorem plain_text (int16 : List Char → Option Int) (isAscii : List Char → Bool) (v : List Char) (h : '\\' ∉ v) :
    compile int16 isAscii v = some ((if isAscii v then [] else [0xC3, 0x9E]) ++ (v.map utf8).flatten) := by
  have key : ∀ (v : List Char) (n : Nat), '\\' ∉ v → v.length ≤ n → escapes int16 n v = some (v.map utf8).flatten := by
    intro v
    induction v with
    | nil => intro n _ _; cases n <;> rfl
    | cons c v ih =>
      intro n h hn
      cases n with
      | zero => simp at hn
      | succ n =>
        simp only [List.mem_cons, not_or] at h
        simp only [escapes]
        rw [if_neg (fun e => h.1 e.symm), ih n h.2 (by simpa using hn)]
        rfl
  unfold compile
  rw [key v v.length h (Nat.le_refl _)]
  rfl

/-- After correct pieces, a backslash is refused if nothing follows it, if no number can be read from what follows, if the number is not a
byte, or after `\U` if it is half of a surrogate pair. -/
theorem malformed_refused (int16 : List Char → Option Int) (hi : ReadsHex int16) (isAscii : List Char → Bool) (toks : List Tok) (h : ∀ t ∈ toks, t.ok)
    (bad : List Char)
    (hb : bad = ['\\'] ∨ (∃ r, bad = '\\' :: 'U' :: r ∧ ∀ n, int16 (r.take 4) = some n → n < 0 ∨ (0xD800 ≤ n ∧ n ≤ 0xDFFF)) ∨
      (∃ d r, bad = '\\' :: d :: r ∧ d ≠ '\\' ∧ d ≠ '"' ∧ d ≠ 'U' ∧ ∀ n, int16 (d :: r.take 1) = some n → n < 0 ∨ 256 ≤ n)) :
    compile int16 isAscii ((toks.map Tok.text).flatten ++ bad) = none := by
  have key : escapes int16 bad.length bad = none := by
    rcases hb with rfl | ⟨r, rfl, hr⟩ | ⟨d, r, rfl, h1, h2, h3, hr⟩
    · rfl
    · simp only [List.length_cons, escapes, if_true]
      rw [if_neg (by decide)]
      cases hn : int16 (r.take 4) with
      | none => rfl
      | some n =>
        have : chrUtf8 n = none := by
          unfold chrUtf8
          rw [if_neg]
          rintro ⟨h0, hv⟩
          rcases hr n hn with h | h
          · omega
          · simp only [Nat.isValidChar] at hv; omega
        simp [this]
    · simp only [List.length_cons, escapes, if_true]
      rw [if_neg (by rintro (h | h); exact h1 h; exact h2 h), if_neg h3]
      simp only [List.take_succ_cons]
      cases hn : int16 (d :: r.take 1) with
      | none => rfl
      | some n =>
        have : byteOf n = none := by
          unfold byteOf
          rw [if_neg]
          rintro ⟨h0, hv⟩
          rcases hr n hn with h | h <;> omega
        simp [this]
  unfold compile
  rw [escapes_toks int16 hi toks h bad _ (Nat.le_refl _), key]
  rfl

/-- If only hexadecimal digits were read as numbers, and only as many as needed, the accepted texts would be exactly the correct ones. -/
theorem accepted_iff_correct_partial (int16 : List Char → Option Int) (hi : ReadsHex int16) (isAscii : List Char → Bool) (v : List Char)
    (strict : ∀ d n, int16 d = some n → d ≠ [] ∧ ∀ c ∈ d, IsHex c) (full : ∀ u d, v = u ++ '\\' :: d → d.length < 5 → d.head? = some 'U' → False)
    (full2 : ∀ u c, v = u ++ ['\\', c] → ¬ IsHex c) :
    (compile int16 isAscii v).isSome ↔ ∃ toks : List Tok, (∀ t ∈ toks, t.ok) ∧ v = (toks.map Tok.text).flatten := by
  constructor
  · intro hc
    have key : ∀ (k : Nat) (v : List Char), v.length ≤ k → (∀ u d, v = u ++ '\\' :: d → d.length < 5 → d.head? = some 'U' → False) →
        (∀ u c, v = u ++ ['\\', c] → ¬ IsHex c) → ∀ n, v.length ≤ n → (escapes int16 n v).isSome →
        ∃ toks : List Tok, (∀ t ∈ toks, t.ok) ∧ v = (toks.map Tok.text).flatten := by
      intro k
      induction k with
      | zero =>
        intro v hv _ _ n _ _
        have : v = [] := List.eq_nil_of_length_eq_zero (by omega)
        subst this
        exact ⟨[], by simp, rfl⟩
      | succ k ih =>
        intro v hv hf hf2 n hn hs
        cases v with
        | nil => exact ⟨[], by simp, rfl⟩
        | cons c r =>
          cases n with
          | zero => simp at hn
          | succ n =>
            simp only [List.length_cons] at hv hn
            have ext : ∀ (t : Tok) (w : List Char), c :: r = t.text ++ w → t.ok → (escapes int16 n w).isSome →
                ∃ toks : List Tok, (∀ t ∈ toks, t.ok) ∧ c :: r = (toks.map Tok.text).flatten := by
              intro t w he ht hw
              have hl := congrArg List.length he
              have hp := text_pos t
              simp only [List.length_cons, List.length_append] at hl
              obtain ⟨toks, h1, h2⟩ := ih w (by omega)
                (fun u d e => hf (t.text ++ u) d (by rw [he, e, List.append_assoc]))
                (fun u d e => hf2 (t.text ++ u) d (by rw [he, e, List.append_assoc])) n (by omega) hw
              refine ⟨t :: toks, ?_, by rw [he, h2]; rfl⟩
              intro t' ht'
              rcases List.mem_cons.mp ht' with rfl | ht'
              · exact ht
              · exact h1 t' ht'
            simp only [escapes] at hs
            split at hs
            · next hbs =>
              subst hbs
              cases r with
              | nil => cases hs
              | cons d r' =>
                simp only at hs
                split at hs
                · next hd =>
                  simp only [Option.isSome_map] at hs
                  rcases hd with rfl | rfl
                  · exact ext .backslash r' rfl trivial hs
                  · exact ext .quote r' rfl trivial hs
                · next hd =>
                  split at hs
                  · next hu =>
                    subst hu
                    cases hn' : int16 (r'.take 4) with
                    | none => rw [hn'] at hs; cases hs
                    | some m =>
                      rw [hn'] at hs
                      simp only [Option.bind_some] at hs
                      obtain ⟨hne, hx⟩ := strict _ _ hn'
                      have hm := hi _ hne hx
                      rw [hn', Option.some.injEq] at hm
                      cases hc' : chrUtf8 m with
                      | none => rw [hc'] at hs; cases hs
                      | some b =>
                        rw [hc'] at hs
                        simp only [Option.bind_some, Option.isSome_map] at hs
                        have h4 : (r'.take 4).length = 4 := by
                          rw [List.length_take]
                          apply Nat.min_eq_left
                          apply Nat.le_of_not_lt
                          intro hlt
                          exact hf [] ('U' :: r') rfl (by simp only [List.length_cons]; omega) rfl
                        refine ext (.unicode (r'.take 4)) (r'.drop 4) (by simp [Tok.text]) ⟨h4, hx, ?_⟩ hs
                        unfold chrUtf8 at hc'
                        split at hc'
                        · next hv =>
                          have := hv.2
                          simp only [hm, Int.toNat_natCast, Nat.isValidChar] at this
                          omega
                        · cases hc'
                  · next hu =>
                    cases hn' : int16 ((d :: r').take 2) with
                    | none => rw [hn'] at hs; cases hs
                    | some m =>
                      rw [hn'] at hs
                      simp only [Option.bind_some] at hs
                      obtain ⟨hne, hx⟩ := strict _ _ hn'
                      cases hc' : byteOf m with
                      | none => rw [hc'] at hs; cases hs
                      | some b =>
                        rw [hc'] at hs
                        simp only [Option.bind_some, Option.isSome_map] at hs
                        have h2 : ((d :: r').take 2).length = 2 := by
                          cases r' with
                          | nil => exact absurd (hx d (by simp)) (hf2 [] d rfl)
                          | cons e r'' => rfl
                        exact ext (.byte ((d :: r').take 2)) ((d :: r').drop 2) (by rw [Tok.text, List.cons_append, List.take_append_drop]) ⟨h2, hx⟩ hs
            · next hbs =>
              simp only [Option.isSome_map] at hs
              exact ext (.plain c) r rfl hbs hs
    unfold compile at hc
    rw [Option.isSome_map] at hc
    exact key v.length v (Nat.le_refl _) full full2 v.length (Nat.le_refl _) hc
  · rintro ⟨toks, h, rfl⟩
    rw [text_exact int16 hi isAscii toks h]
    rfl

/-! ### Python's reader of numbers -/

theorem hexVal_of_isHex {c : Char} (h : IsHex c) : ∃ v, hexVal c = some v := Option.isSome_iff_exists.mp h

theorem hexDigits_hex (d : List Char) : ∀ (b : Bool) (acc : Nat), (d ≠ [] ∨ b = false) → (∀ c ∈ d, IsHex c) →
    hexDigits b acc d = some (d.foldl (fun a c => a * 16 + (hexVal c).getD 0) acc) := by
  induction d with
  | nil => intro b acc h _; rcases h with h | rfl <;> simp_all [hexDigits]
  | cons c d ih =>
    intro b acc _ h
    obtain ⟨v, hv⟩ := hexVal_of_isHex (h c List.mem_cons_self)
    have hc : c ≠ '_' := by
      rintro rfl; revert hv; decide +revert
    simp only [hexDigits]
    rw [if_neg hc, hv]
    simp only [Option.bind_some, List.foldl_cons, hv, Option.getD_some]
    exact ih false _ (Or.inr rfl) (fun x hx => h x (List.mem_cons_of_mem _ hx))

theorem hex_not {c : Char} (h : IsHex c) : ResNames.isSpace c = false ∧ c ≠ '-' ∧ c ≠ '+' ∧ c ≠ 'x' ∧ c ≠ 'X' := by
  refine ⟨?_, ?_, ?_, ?_, ?_⟩
  · cases hs : ResNames.isSpace c with
    | false => rfl
    | true =>
      exfalso
      have g0 : ('0' ≤ c) = (48 ≤ c.toNat) := rfl
      have g2 : ('a' ≤ c) = (97 ≤ c.toNat) := rfl
      have g4 : ('A' ≤ c) = (65 ≤ c.toNat) := rfl
      have hlt : c.toNat ≤ 32 := by
        simp only [ResNames.isSpace, Bool.or_eq_true, Bool.and_eq_true, decide_eq_true_eq] at hs
        omega
      unfold IsHex hexVal at h
      rw [if_neg (by rw [g0]; omega), if_neg (by rw [g2]; omega), if_neg (by rw [g4]; omega)] at h
      cases h
  all_goals rintro rfl; revert h; decide

theorem dropWhile_none {α : Type} (p : α → Bool) (l : List α) (h : ∀ x ∈ l, p x = false) : l.dropWhile p = l := by
  cases l with
  | nil => rfl
  | cons a l => rw [List.dropWhile_cons, if_neg (by rw [h a List.mem_cons_self]; decide)]

/-- Python's reader is right where it has to be. -/
theorem python_reads_hex : ReadsHex pyInt16 := by
  intro d hne h
  unfold pyInt16
  have e1 : ((d.dropWhile ResNames.isSpace).reverse.dropWhile ResNames.isSpace).reverse = d := by
    rw [dropWhile_none _ d (fun c hc => (hex_not (h c hc)).1),
      dropWhile_none _ d.reverse (fun c hc => (hex_not (h c (List.mem_reverse.mp hc))).1), List.reverse_reverse]
  simp only [e1]
  have key := hexDigits_hex d true 0 (Or.inl hne) h
  match d, hne, h, key with
  | c :: r, _, h, key =>
    obtain ⟨_, n1, n2, _, _⟩ := hex_not (h c List.mem_cons_self)
    have e2 : splitSign (c :: r) = (false, c :: r) := by
      simp only [splitSign]
      rw [if_neg n1, if_neg n2]
    have e3 : hexBody (c :: r) = hexDigits true 0 (c :: r) := by
      unfold hexBody
      rw [if_neg]
      rintro (e | e)
      · have : 'x' ∈ (c :: r).take 2 := by rw [e]; simp
        exact (hex_not (h 'x' (List.mem_of_mem_take this))).2.2.2.1 rfl
      · have : 'X' ∈ (c :: r).take 2 := by rw [e]; simp
        exact (hex_not (h 'X' (List.mem_of_mem_take this))).2.2.2.2 rfl
    rw [e2]
    simp only [e3]
    rw [key]
    simp [hexNumber]

/-- Some malformed escapes are accepted: too few digits at the end, spaces, signs, underscores. -/
theorem malformed_accepted : compile pyInt16 (fun _ => true) "\\U41".toList = some [0x41] ∧ compile pyInt16 (fun _ => true) "\\7".toList = some [7] ∧
    compile pyInt16 (fun _ => true) "\\ 7z".toList = some [7, 0x7A] ∧ compile pyInt16 (fun _ => true) "\\+7z".toList = some [7, 0x7A] ∧
    compile pyInt16 (fun _ => true) "\\U1__2".toList = none ∧ compile pyInt16 (fun _ => true) "\\U0_41".toList = some [0x41] := by decide +kernel

/-- A text with all the kinds of pieces. -/
example : (∀ t ∈ [Tok.plain 'é', .backslash, .quote, .unicode ['2', '0', 'a', 'C'], .byte ['9', 'e'], .plain 'U'], t.ok) ∧
    compile pyInt16 (fun _ => false) "é\\\\\\\"\\U20aC\\9eU".toList = some [0xC3, 0x9E, 0xC3, 0xA9, 0x5C, 0x22, 0xE2, 0x82, 0xAC, 0x9E, 0x55] := by
  refine ⟨?_, by decide +kernel⟩
  intro t ht
  simp only [List.mem_cons, List.not_mem_nil, or_false] at ht
  rcases ht with rfl | rfl | rfl | rfl | rfl | rfl <;> simp only [Tok.ok] <;> decide

end Grf.TextEsc
