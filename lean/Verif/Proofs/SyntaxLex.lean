import Verif.Spec.SyntaxSpec
import Verif.Props.Strings
/-!
# The lexer reads what `format` writes
-/
namespace Grf.Syntax
open Strings (dec)

/-! ### Fuel -/

theorem length_dropWhile_le {α : Type} (p : α → Bool) (l : List α) : (l.dropWhile p).length ≤ l.length := by
  induction l with
  | nil => simp
  | cons a l ih => simp only [List.dropWhile_cons]; split <;> simp <;> omega

theorem lexNumber_length (c : Char) (cs : List Char) (h : isDigit c = true) : (lexNumber (c :: cs)).2.length ≤ cs.length := by
  unfold lexNumber
  split
  · refine Nat.le_trans (length_dropWhile_le _ _) ?_; simp
  · split
    · refine Nat.le_trans (length_dropWhile_le _ _) ?_; simp
    · simp only [List.dropWhile_cons, h, if_true]; exact length_dropWhile_le _ _

theorem lexSymbol_length {c : Char} {cs : List Char} {t : Tok} {r : List Char} (h : lexSymbol (c :: cs) = some (t, r)) :
    r.length ≤ cs.length := by
  unfold lexSymbol at h
  split at h <;> simp_all <;> omega

theorem lexOne_length (c : Char) (cs : List Char) : (lexOne (c :: cs)).2.length ≤ cs.length := by
  simp only [lexOne]
  split
  · simp
  · split
    · next h => simpa using lexNumber_length c cs h
    · split
      · exact length_dropWhile_le _ _
      · split
        · exact length_dropWhile_le _ _
        · split
          · next h => exact lexSymbol_length h
          · simp

theorem lexN_enough (n : Nat) : ∀ (m : Nat) (cs : List Char), cs.length ≤ n → cs.length ≤ m → lexN n cs = lexN m cs := by
  induction n with
  | zero =>
    intro m cs h _
    have : cs = [] := by simpa using h
    subst this
    cases m <;> rfl
  | succ n ih =>
    intro m cs h1 h2
    cases cs with
    | nil => cases m <;> rfl
    | cons c cs =>
      cases m with
      | zero => simp at h2
      | succ m =>
        have hl := lexOne_length c cs
        simp only [List.length_cons] at h1 h2
        simp only [lexN]
        rcases hx : lexOne (c :: cs) with ⟨_ | t, r⟩
        · rw [hx] at hl; exact ih m r (by simp only at hl; omega) (by simp only at hl; omega)
        · rw [hx] at hl; simp only; rw [ih m r (by simp only at hl; omega) (by simp only at hl; omega)]

theorem lex_cons (c : Char) (cs : List Char) :
    lex (c :: cs) = match lexOne (c :: cs) with | (some t, r) => t :: lex r | (none, r) => lex r := by
  have hl := lexOne_length c cs
  conv => lhs; unfold lex
  simp only [List.length_cons, lexN]
  rcases hx : lexOne (c :: cs) with ⟨_ | t, r⟩
  · rw [hx] at hl; simp only at hl ⊢; exact lexN_enough _ _ r hl (Nat.le_refl _)
  · rw [hx] at hl; simp only at hl ⊢; rw [lexN_enough _ _ r hl (Nat.le_refl _)]; rfl

theorem lex_nil : lex [] = [] := rfl

/-! ### Single tokens -/

/-- What may follow a name or a number: the end, or a character which cannot be part of it. -/
def Safe : List Char → Prop
  | [] => True
  | c :: _ => isNameChar c = false

theorem lex_space (r : List Char) : lex (' ' :: r) = lex r := by
  rw [lex_cons]; simp [lexOne]

theorem lex_newline (r : List Char) (h : r.head? ≠ some '\n') : lex ('\n' :: r) = .newline :: lex r := by
  have : r.dropWhile (· == '\n') = r := by
    cases r with
    | nil => rfl
    | cons c r => rw [List.dropWhile_cons_of_neg]; simpa using h
  rw [lex_cons]
  simp [lexOne, isDigit, this]

theorem takeWhile_safe {p : Char → Bool} (l r : List Char) (hl : ∀ c ∈ l, p c = true) (hr : ∀ c ∈ r.head?, p c = false) :
    (l ++ r).takeWhile p = l ∧ (l ++ r).dropWhile p = r := by
  induction l with
  | nil =>
    cases r with
    | nil => simp
    | cons c r => have := hr c (by simp); simp [this]
  | cons c l ih =>
    have h1 := hl c (by simp)
    have h2 := ih (fun c hc => hl c (by simp [hc]))
    simp [h1, h2]

theorem safe_head {r : List Char} (h : Safe r) : ∀ c ∈ r.head?, isNameChar c = false := by
  cases r with
  | nil => simp
  | cons c r => intro d hd; simp only [List.head?_cons, Option.mem_some_iff] at hd; subst hd; exact h

theorem nameStart_facts {c : Char} (h : isNameStart c = true) : c ≠ ' ' ∧ c ≠ '\t' ∧ isDigit c = false ∧ c ≠ '\n' := by
  simp only [isNameStart, Bool.or_eq_true, Bool.and_eq_true, decide_eq_true_eq, beq_iff_eq] at h
  refine ⟨?_, ?_, ?_, ?_⟩
  · rintro rfl; simp at h
  · rintro rfl; simp at h
  · simp only [isDigit, Bool.and_eq_false_iff, decide_eq_false_iff_not]; omega
  · rintro rfl; simp at h

theorem lex_name {cs : List Char} (h : IsName cs) {r : List Char} (hr : Safe r) : lex (cs ++ r) = .name (String.ofList cs) :: lex r := by
  obtain ⟨c, l, rfl, hc, hl⟩ := h
  obtain ⟨h1, h2, h3, h4⟩ := nameStart_facts hc
  obtain ⟨t1, t2⟩ := takeWhile_safe l r hl (safe_head hr)
  rw [List.cons_append, lex_cons]
  simp [lexOne, h1, h2, h3, h4, hc, t1, t2]

theorem isDigit_name {c : Char} (h : isDigit c = true) : isNameChar c = true := by simp [isNameChar, h]

theorem hexDig_name {c : Char} (h : (hexDig c).isSome = true) : isNameChar c = true := by
  unfold hexDig at h
  simp only [isNameChar, isNameStart, isDigit, Bool.or_eq_true, Bool.and_eq_true, decide_eq_true_eq, beq_iff_eq]
  split at h
  · omega
  · split at h
    · omega
    · split at h
      · omega
      · simp at h

theorem dec_digits (n : Nat) : ∀ c ∈ dec n, isDigit c = true := by
  fun_induction dec n with
  | case1 n h =>
    intro c hc
    simp only [List.mem_singleton] at hc
    subst hc
    have : n < 10 := h
    have : ∀ k < 10, isDigit (Char.ofNat (48 + k)) = true := by decide
    exact this n h
  | case2 n h ih =>
    intro c hc
    rcases List.mem_append.mp hc with hc | hc
    · exact ih c hc
    · simp only [List.mem_singleton] at hc
      subst hc
      have : ∀ k < 10, isDigit (Char.ofNat (48 + k)) = true := by decide
      exact this _ (Nat.mod_lt _ (by decide))

theorem dec_ne_nil (n : Nat) : dec n ≠ [] := by
  unfold dec; split <;> simp

/-- A decimal number longer than one digit does not begin with 0, so it is never taken for `0x..` or `0b..`; a single digit is not
followed by a letter. -/
theorem lexNumber_dec (n : Nat) {r : List Char} (hr : Safe r) : lexNumber (dec n ++ r) = (n, r) := by
  have hd := dec_digits n
  have hx : ∀ c : Char, isDigit c = true → c ≠ 'x' ∧ c ≠ 'b' := by
    intro c hc; constructor <;> rintro rfl <;> exact absurd hc (by decide)
  have h2 : ∀ a b : Char, (dec n ++ r).take 2 = [a, b] → b ≠ 'x' ∧ b ≠ 'b' := by
    intro a b hab
    rcases hdn : dec n with _ | ⟨c, _ | ⟨c2, l⟩⟩
    · exact absurd hdn (dec_ne_nil n)
    · rw [hdn] at hab
      cases r with
      | nil => simp at hab
      | cons e r =>
        simp only [List.cons_append, List.nil_append, List.take_succ_cons, List.take_zero, List.cons.injEq, and_true] at hab
        obtain ⟨rfl, rfl⟩ := hab
        have : isNameChar e = false := hr
        constructor <;> rintro rfl <;> exact absurd this (by decide)
    · rw [hdn] at hab hd
      simp only [List.cons_append, List.take_succ_cons, List.take_zero, List.cons.injEq, and_true] at hab
      obtain ⟨rfl, rfl⟩ := hab
      exact hx c2 (hd c2 (by simp))
  obtain ⟨t1, t2⟩ := takeWhile_safe (p := isDigit) (dec n) r hd (fun c hc => by
    have := safe_head hr c hc
    rcases hdg : isDigit c with _ | _
    · rfl
    · rw [isDigit_name hdg] at this; exact absurd this (by decide))
  unfold lexNumber
  rw [if_neg (fun h => (h2 _ _ h.1).1 rfl), if_neg (fun h => (h2 _ _ h.1).2 rfl), t1, t2]
  have := Strings.decVal_dec n
  unfold Strings.decVal at this
  unfold number
  rw [this]

theorem lex_dec (n : Nat) {r : List Char} (hr : Safe r) : lex (dec n ++ r) = .num n :: lex r := by
  rcases hdn : dec n with _ | ⟨c, l⟩
  · exact absurd hdn (dec_ne_nil n)
  · have hc : isDigit c = true := dec_digits n c (by rw [hdn]; simp)
    have hnum := lexNumber_dec n hr
    rw [hdn, List.cons_append] at hnum
    rw [List.cons_append, lex_cons]
    have h1 : c ≠ ' ' := by rintro rfl; exact absurd hc (by decide)
    have h2 : c ≠ '\t' := by rintro rfl; exact absurd hc (by decide)
    simp [lexOne, h1, h2, hc, hnum]

theorem lex_sub_dec (n : Nat) {r : List Char} (hr : Safe r) : lex ('-' :: dec n ++ r) = .op .sub :: .num n :: lex r := by
  rw [List.cons_append, lex_cons]
  have : lexOne ('-' :: (dec n ++ r)) = (some (.op .sub), dec n ++ r) := by
    simp [lexOne, isDigit, isNameStart, lexSymbol]
  rw [this]
  simp only
  rw [lex_dec n hr]

theorem hexDig_hexDigit (k : Nat) (h : k < 16) : hexDig (hexDigit k) = some k := by
  have : ∀ k < 16, hexDig (hexDigit k) = some k := by decide
  exact this k h

theorem hex_digits (n : Nat) : ∀ c ∈ hex n, (hexDig c).isSome = true := by
  fun_induction hex n with
  | case1 n h =>
    intro c hc
    simp only [List.mem_singleton] at hc
    subst hc
    rw [hexDig_hexDigit n h]; rfl
  | case2 n h ih =>
    intro c hc
    rcases List.mem_append.mp hc with hc | hc
    · exact ih c hc
    · simp only [List.mem_singleton] at hc
      subst hc
      rw [hexDig_hexDigit _ (Nat.mod_lt _ (by decide))]; rfl

theorem hex_ne_nil (n : Nat) : hex n ≠ [] := by
  unfold hex; split <;> simp

theorem number_hex (n : Nat) : number 16 (fun c => (hexDig c).getD 0) (hex n) = n := by
  fun_induction hex n with
  | case1 n h => simp [number, hexDig_hexDigit n h]
  | case2 n h ih =>
    unfold number at ih ⊢
    rw [List.foldl_append, ih]
    simp only [List.foldl_cons, List.foldl_nil, hexDig_hexDigit _ (Nat.mod_lt n (show 16 > 0 by decide)), Option.getD_some]
    omega

theorem number_hex2 (n : Nat) : number 16 (fun c => (hexDig c).getD 0) (hex2 n) = n := by
  unfold hex2
  split
  · next h =>
    have h0 : hexDig '0' = some 0 := by decide
    simp [number, h0, hexDig_hexDigit n h]
  · exact number_hex n

theorem hex2_digits (n : Nat) : ∀ c ∈ hex2 n, (hexDig c).isSome = true := by
  unfold hex2
  split
  · next h =>
    intro c hc
    simp only [List.mem_cons, List.not_mem_nil, or_false] at hc
    rcases hc with rfl | rfl
    · decide
    · rw [hexDig_hexDigit n h]; rfl
  · exact hex_digits n

theorem hex2_ne_nil (n : Nat) : hex2 n ≠ [] := by
  unfold hex2; split
  · simp
  · exact hex_ne_nil n

/-- `0x` followed by hexadecimal digits is one number. -/
theorem lex_0x {h : List Char} (hh : ∀ c ∈ h, (hexDig c).isSome = true) (hne : h ≠ []) {r : List Char} (hr : Safe r) :
    lex ('0' :: 'x' :: (h ++ r)) = .num (number 16 (fun c => (hexDig c).getD 0) h) :: lex r := by
  obtain ⟨t1, t2⟩ := takeWhile_safe (p := fun c => (hexDig c).isSome) h r hh (fun c hc => by
    have := safe_head hr c hc
    rcases hdg : (hexDig c).isSome with _ | _
    · rfl
    · rw [hexDig_name hdg] at this; exact absurd this (by decide))
  have hn : lexNumber ('0' :: 'x' :: (h ++ r)) = (number 16 (fun c => (hexDig c).getD 0) h, r) := by
    unfold lexNumber
    rw [if_pos]
    · simp only [List.drop_succ_cons, List.drop_zero, t1, t2]
    · refine ⟨rfl, ?_⟩
      cases h with
      | nil => exact absurd rfl hne
      | cons c h => simpa using hh c (by simp)
  rw [lex_cons]
  simp [lexOne, isDigit, hn]

theorem lex_hex (n : Nat) {r : List Char} (hr : Safe r) : lex ('0' :: 'x' :: (hex n ++ r)) = .num n :: lex r := by
  rw [lex_0x (hex_digits n) (hex_ne_nil n) hr, number_hex]

theorem lex_hex2 (n : Nat) {r : List Char} (hr : Safe r) : lex ('0' :: 'x' :: (hex2 n ++ r)) = .num n :: lex r := by
  rw [lex_0x (hex2_digits n) (hex2_ne_nil n) hr, number_hex2]

/-! ### Punctuation -/

theorem lex_lparen (r : List Char) : lex ('(' :: r) = .lparen :: lex r := by
  rw [lex_cons]; simp [lexOne, isDigit, isNameStart, lexSymbol]
theorem lex_rparen (r : List Char) : lex (')' :: r) = .rparen :: lex r := by
  rw [lex_cons]; simp [lexOne, isDigit, isNameStart, lexSymbol]
theorem lex_lbracket (r : List Char) : lex ('[' :: r) = .lbracket :: lex r := by
  rw [lex_cons]; simp [lexOne, isDigit, isNameStart, lexSymbol]
theorem lex_rbracket (r : List Char) : lex (']' :: r) = .rbracket :: lex r := by
  rw [lex_cons]; simp [lexOne, isDigit, isNameStart, lexSymbol]
theorem lex_comma (r : List Char) : lex (',' :: r) = .comma :: lex r := by
  rw [lex_cons]; simp [lexOne, isDigit, isNameStart, lexSymbol]

theorem lex_assign (r : List Char) (h : r.head? ≠ some '=') : lex ('=' :: r) = .assign :: lex r := by
  have : lexOne ('=' :: r) = (some .assign, r) := by
    cases r with
    | nil => decide
    | cons c r =>
      have hc : c ≠ '=' := by simpa using h
      simp [lexOne, isDigit, isNameStart, lexSymbol, hc]
  rw [lex_cons, this]

/-- The operators the grammar knows, as they are printed. -/
def Bin.text : Bin → List Char
  | .add => ['+'] | .sub => ['-'] | .mul => ['*'] | .div => ['/'] | .mod => ['%'] | .and => ['&'] | .or => ['|'] | .xor => ['^']
  | .shru => ['+', '>', '>'] | .shr => ['>', '>'] | .shl => ['<', '<'] | .lt => ['<'] | .gt => ['>'] | .le => ['<', '='] | .ge => ['>', '=']
  | .eq => ['=', '='] | .neq => ['!', '=']

/-- An operator between blanks. -/
theorem lex_bin (o : Bin) (r : List Char) : lex (' ' :: o.text ++ ' ' :: r) = .op o :: lex r := by
  rw [List.cons_append, lex_space]
  cases o <;> (simp only [Bin.text, List.cons_append, List.nil_append]; rw [lex_cons]; simp [lexOne, isDigit, isNameStart, lexSymbol, lex_space])

end Grf.Syntax
