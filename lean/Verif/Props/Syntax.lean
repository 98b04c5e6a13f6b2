import Verif.Proofs.SyntaxParse
/-!
# C56: the text of a decompiled expression is read back as that expression
-/
namespace Grf.Syntax

theorem begins_ne {l : List Tok} (h : Begins l) : ∃ t r, l = t :: r ∧ t ≠ .newline := by
  cases h <;> exact ⟨_, _, rfl, by simp⟩

/-- One line from the start of a line: it is read completely and the tree is that of the expression. -/
theorem run_line {d : DNode} (h : Faithful d) (acc : List Node) (X : List Tok) (hX : X = [] ∨ ∃ r, X = .newline :: r) :
    Run acc .start (toks d 0 ++ X) = match X with | .newline :: r => Run (acc ++ [source d]) .start r | _ => some (acc ++ [source d]) := by
  obtain ⟨t, r, ht, hn⟩ := begins_ne (toks_begins h 0)
  have hs : Stops X := by rcases hX with rfl | ⟨r, rfl⟩ <;> trivial
  obtain ⟨x, S', e, -, ea⟩ := parses h 0 acc [] X (.inl rfl) hs
  have e1 : Run acc .start (toks d 0 ++ X) = Run acc (.need []) (toks d 0 ++ X) := by
    rw [ht]; exact Run_start acc t _ hn
  have ea' : reduceAll x S' = (source d, []) := by rw [ea]; rfl
  rw [e1, e]
  rcases hX with rfl | ⟨r, rfl⟩
  · rw [Run_got_nil, ea']
  · rw [Run_got_newline _ _ _ _ _ ea']

/-- **C56** The text printed for a faithful expression is read back as the same expression, whatever its size and shape. -/
theorem format_parse (d : DNode) (h : Faithful d) : ∃ s, format d 0 = some s ∧ parse s = some [source d] := by
  obtain ⟨s, hs, hr, -, -⟩ := format_reads h 0
  refine ⟨s, hs, ?_⟩
  have : lex s = toks d 0 ++ [] := by
    have := hr [] trivial
    rw [List.append_nil] at this
    rw [this]; rfl
  rw [parse_eq, this, run_line h [] [] (.inl rfl)]
  rfl

/-- The text of lines begins with no line break. -/
theorem lines_head {ds : List DNode} (h : ∀ d ∈ ds, Faithful d) {s : List Char} (hs : formatLines ds = some s) : s.head? ≠ some '\n' := by
  cases ds with
  | nil => simp [formatLines] at hs; subst hs; simp
  | cons d ds =>
    obtain ⟨x, hx, -, h0, h1⟩ := format_reads (h d (by simp)) 0
    cases ds with
    | nil =>
      simp only [formatLines, hx, Option.some.injEq] at hs
      subst hs; exact h1
    | cons d' ds =>
      simp only [formatLines, hx, Option.bind_eq_bind, Option.bind_some, Option.bind_eq_some_iff, Option.some.injEq] at hs
      obtain ⟨y, -, rfl⟩ := hs
      cases x with
      | nil => exact absurd rfl h0
      | cons c x => simpa using h1

theorem lines_run (ds : List DNode) : (∀ d ∈ ds, Faithful d) → ∃ s, formatLines ds = some s ∧
    ∀ acc, Run acc .start (lex s) = some (acc ++ ds.map source) := by
  induction ds with
  | nil => intro _; exact ⟨[], rfl, fun acc => by simp [lex, lexN, Run, run, bound]⟩
  | cons d ds ih =>
    intro h
    obtain ⟨x, hx, hr, -, -⟩ := format_reads (h d (by simp)) 0
    obtain ⟨y, hy, hrun⟩ := ih (fun e he => h e (by simp [he]))
    cases ds with
    | nil =>
      refine ⟨x, hx, fun acc => ?_⟩
      have : lex x = toks d 0 ++ [] := by
        have := hr [] trivial
        rw [List.append_nil] at this
        rw [this]; rfl
      rw [this, run_line (h d (by simp)) acc [] (.inl rfl)]
      simp
    | cons d' ds =>
      refine ⟨x ++ '\n' :: y, by simp only [formatLines, hx, hy, Option.bind_eq_bind, Option.bind_some] at *, fun acc => ?_⟩
      rw [hr _ (safe_nl _), lex_newline _ (lines_head (fun e he => h e (by simp at he ⊢; exact .inr he)) hy),
        run_line (h d (by simp)) acc _ (.inr ⟨_, rfl⟩)]
      simp only [hrun, List.map_cons, List.append_assoc, List.cons_append, List.nil_append]

/-- **C56** The decompiled lines of a switch, written one per line, are read back as the same lines. -/
theorem format_parse_lines (ds : List DNode) (h : ∀ d ∈ ds, Faithful d) :
    ∃ s, formatLines ds = some s ∧ parse s = some (ds.map source) := by
  obtain ⟨s, hs, hr⟩ := lines_run ds h
  exact ⟨s, hs, by rw [parse_eq, hr []]; simp⟩

/-- Two faithful expressions with the same text are the same tree. -/
theorem format_injective (d d' : DNode) (h : Faithful d) (h' : Faithful d') (s : List Char) (e : format d 0 = some s)
    (e' : format d' 0 = some s) : source d = source d' := by
  obtain ⟨s1, hs, hp⟩ := format_parse d h
  obtain ⟨s2, hs', hp'⟩ := format_parse d' h'
  rw [e] at hs
  rw [e'] at hs'
  cases hs
  cases hs'
  rw [hp] at hp'
  simpa using hp'

/-! ### Cases -/

/-- A text as a string. -/
def text (d : DNode) : Option String := (format d 0).map String.ofList

/-- `TEMP[0x05] = (a & 255) * 2 - var(0x61, param=(TEMP[3]), shift=4, and=0xf) == min(b, -1)`. -/
def sample : DNode :=
  .expr 0x0e
    (.expr (-5)
      (.expr 0x01 (.expr 0x0a (.expr 0x0b (.var "a") (.value 255)) (.value 2)) (.gvarP 0x61 4 15 0 none none (.temp (.value 3))))
      (.expr 0x02 (.var "b") (.value 0xffffffff)))
    (.value 5)

theorem name_a : IsName "a".toList := ⟨'a', [], rfl, rfl, by simp⟩
theorem name_b : IsName "b".toList := ⟨'b', [], rfl, rfl, by simp⟩

theorem sample_faithful : Faithful sample :=
  .store false _ 5
    (.bin .eq _ _
      (.bin .sub _ _
        (.bin .mul _ _ (.bin .and _ _ (.var _ name_a) (.value _) (by decide) (by decide)) (.value _) (by decide) (by decide))
        (.gvarP _ _ _ _ _ _ _ (.inl ⟨rfl, rfl, rfl⟩) (.temp _ (.value _))) (by decide) (by decide))
      (.fn .min _ _ (.var _ name_b) (.value _)) (by decide) (by decide))

example : (∀ d ∈ [sample, .var "a"], Faithful d) ∧
    text sample = some "TEMP[0x05] = (a & 255) * 2 - var(0x61, param=(TEMP[3]), shift=4, and=0xf) == min(b, -1)" := by
  refine ⟨?_, by decide +kernel⟩
  intro d hd
  simp only [List.mem_cons, List.not_mem_nil, or_false] at hd
  rcases hd with rfl | rfl
  · exact sample_faithful
  · exact .var _ name_a

/-! ### Deviations -/

/-- **C56 deviation** `(a | b) & c` is printed without brackets and read as `a | (b & c)`: the printer gives all bitwise operators the
same priority, the grammar does not. -/
theorem text_loses_or_and :
    let d : DNode := .expr 0x0b (.expr 0x0c (.var "a") (.var "b")) (.var "c")
    text d = some "a | b & c" ∧ (format d 0).bind parse = some [.expr 0x0c (.var "a") (.expr 0x0b (.var "b") (.var "c"))] := by
  decide +kernel

/-- **C56 deviation** `(a << b) & c` is read as `a << (b & c)`. -/
theorem text_loses_shift_and :
    let d : DNode := .expr 0x0b (.expr 0x14 (.var "a") (.var "b")) (.var "c")
    text d = some "a << b & c" ∧ (format d 0).bind parse = some [.expr 0x14 (.var "a") (.expr 0x0b (.var "b") (.var "c"))] := by
  decide +kernel

/-- **C56 deviation** `a * (b / c)` is read as `(a * b) / c`. -/
theorem text_loses_mul_div :
    let d : DNode := .expr 0x0a (.var "a") (.expr 0x06 (.var "b") (.var "c"))
    text d = some "a * b / c" ∧ (format d 0).bind parse = some [.expr 0x06 (.expr 0x0a (.var "a") (.var "b")) (.var "c")] := by
  decide +kernel

/-- **C56 deviation** `a < (b < c)` is read as `(a < b) < c`. -/
theorem text_loses_comparison :
    let d : DNode := .expr (-1) (.var "a") (.expr (-1) (.var "b") (.var "c"))
    text d = some "a < b < c" ∧
      (format d 0).bind parse = some [lowerCmp .LT (lowerCmp .LT (.var "a") (.var "b")) (.var "c")] := by
  decide +kernel

/-- **C56 deviation** Unsigned division is printed with an operator which the grammar does not have. -/
theorem text_unsigned_division :
    let d : DNode := .expr 0x08 (.var "a") (.var "b")
    text d = some "a u/ b" ∧ (format d 0).bind parse = none := by
  decide +kernel

/-- **C56 deviation** A bit test is printed as a function which the grammar does not have. -/
theorem text_hasbit :
    let d : DNode := .expr (-7) (.var "a") (.var "b")
    text d = some "hasbit(a, b)" ∧ (format d 0).bind parse = none := by
  decide +kernel

/-- **C56 deviation** A negated bit test is read as a different function call (the illegal character `!` is skipped), which the grammar does
not have either. -/
theorem text_not_hasbit :
    let d : DNode := .expr (-8) (.var "a") (.var "b")
    text d = some "!hasbit(a, b)" ∧ (format d 0).bind parse = none := by
  decide +kernel

/-- **C56 deviation** A named variable with a parameter is printed as a call that the grammar refuses. -/
theorem text_named_parameter :
    let d : DNode := .varP "house_tile" (.value 3)
    text d = some "house_tile(3)" ∧ (format d 0).bind parse = none := by
  decide +kernel

/-- **C56 deviation** A variable with the modifier type 3 is printed without its modifiers and read as a variable without any. -/
theorem text_type_three :
    let d : DNode := .gvar 0x40 0 0xff 3 (some 1) (some 2)
    text d = some "var(0x40, shift=0, and=0xff)" ∧ (format d 0).bind parse = some [.gvar 0x40 0 0xff] := by
  decide +kernel

end Grf.Syntax
