import Verif.Props.PyKinds
import Verif.Props.ReadFormat2
/-!
# C66: switches
-/
set_option linter.unusedSimpArgs false
namespace Grf.Py
open Acts PropC

/-! ### The text of the code -/

/-- Characters that stand for themselves inside `'''` and do not end a line. -/
def clean (c : Char) : Bool := c != '\n' && c != '\\' && c != '\''

theorem clean_nameChar {c : Char} (h : Syntax.isNameChar c = true) : clean c = true := by
  simp only [clean, Bool.and_eq_true, bne_iff_ne]
  refine ⟨⟨?_, ?_⟩, ?_⟩ <;> · rintro rfl; exact absurd h (by decide)

theorem clean_digit {c : Char} (h : Syntax.isDigit c = true) : clean c = true := by
  simp only [clean, Bool.and_eq_true, bne_iff_ne]
  refine ⟨⟨?_, ?_⟩, ?_⟩ <;> · rintro rfl; exact absurd h (by decide)

theorem clean_nameStart {c : Char} (h : Syntax.isNameStart c = true) : clean c = true := by
  simp only [clean, Bool.and_eq_true, bne_iff_ne]
  refine ⟨⟨?_, ?_⟩, ?_⟩ <;> · rintro rfl; exact absurd h (by decide)

theorem clean_hex {c : Char} (h : (Syntax.hexDig c).isSome = true) : clean c = true := by
  simp only [clean, Bool.and_eq_true, bne_iff_ne]
  refine ⟨⟨?_, ?_⟩, ?_⟩ <;> · rintro rfl; exact absurd h (by decide)

theorem clean_name {cs : List Char} (h : Syntax.IsName cs) : cs.all clean = true := by
  obtain ⟨c, l, rfl, h1, h2⟩ := h
  simp only [List.all_cons, clean_nameStart h1, Bool.true_and, List.all_eq_true]
  exact fun d hd => clean_nameChar (h2 d hd)

theorem clean_dec (n : Nat) : (Strings.dec n).all clean = true :=
  List.all_eq_true.2 fun c hc => clean_digit (Syntax.dec_digits n c hc)

theorem clean_hexs (n : Nat) : (Syntax.hex n).all clean = true :=
  List.all_eq_true.2 fun c hc => clean_hex (Syntax.hex_digits n c hc)

theorem clean_hex2 (n : Nat) : (Syntax.hex2 n).all clean = true :=
  List.all_eq_true.2 fun c hc => clean_hex (Syntax.hex2_digits n c hc)

theorem clean_mod {t : Nat} {a d : Option Nat} {x : List Char} (h : Syntax.modText t a d = some x) : x.all clean = true := by
  unfold Syntax.modText at h
  split at h
  · simp only [Option.some.injEq] at h; subst h
    simp only [List.all_append, clean_dec, Bool.and_eq_true, and_true]; decide
  · simp only [Option.some.injEq] at h; subst h
    simp only [List.all_append, clean_dec, Bool.and_eq_true, and_true]; decide
  · cases h
  · cases h
  · simp only [Option.some.injEq] at h; subst h; rfl

/-- The text of an operator. -/
def opText : Syntax.Shape → List Char
  | .infix o => o
  | .fn f => f
  | .store n => n

theorem clean_op {op : Int} {sh : Syntax.Shape} {pr : Nat} {br : Bool} (h : Syntax.opInfo op = some (sh, pr, br)) :
    (opText sh).all clean = true := by
  have hm : op ∈ [(0x00 : Int), 0x01, 0x02, 0x03, 0x04, 0x05, 0x06, 0x07, 0x08, 0x09, 0x0a, 0x0b, 0x0c, 0x0d, 0x0e, 0x10, 0x11, 0x12, 0x13,
      0x14, 0x15, 0x16, -1, -2, -3, -4, -5, -6, -7, -8] := by
    have := Syntax.mem_keys_of_lookup h
    simpa using this
  have key : ∀ op ∈ [(0x00 : Int), 0x01, 0x02, 0x03, 0x04, 0x05, 0x06, 0x07, 0x08, 0x09, 0x0a, 0x0b, 0x0c, 0x0d, 0x0e, 0x10, 0x11, 0x12, 0x13,
      0x14, 0x15, 0x16, -1, -2, -3, -4, -5, -6, -7, -8], ((Syntax.opInfo op).map fun x => (opText x.1).all clean) = some true := by decide +kernel
  have := key op hm
  rw [h] at this
  simpa using this

theorem format_clean {d : DNode} (h : Syntax.Made d) : ∀ pp s, Syntax.format d pp = some s → s.all clean = true := by
  induction h with
  | value v =>
    intro pp s h
    simp only [Syntax.format, Option.some.injEq] at h; subst h
    unfold Syntax.decInt
    split
    · simp only [List.all_cons, clean_dec, Bool.and_true]; decide
    · exact clean_dec _
  | var n h => intro pp s hs; simp only [Syntax.format, Option.some.injEq] at hs; subst hs; exact clean_name h
  | varP n p h hc hp ih =>
    intro pp s hs
    simp only [Syntax.format, Option.map_eq_some_iff] at hs
    obtain ⟨q, hq, rfl⟩ := hs
    simp only [List.all_append, List.all_cons, List.all_nil, clean_name h, ih _ _ hq, Bool.true_and, Bool.and_true]; decide
  | gvar v s m t a d h =>
    intro pp x hs
    simp only [Syntax.format, Option.map_eq_some_iff] at hs
    obtain ⟨q, hq, rfl⟩ := hs
    simp only [List.all_append, List.all_cons, List.all_nil, clean_hex2, clean_hexs, clean_dec, clean_mod hq, Bool.true_and, Bool.and_true]; decide
  | gvarP v s m t a d p h hp ih =>
    intro pp x hs
    simp only [Syntax.format, Option.bind_eq_bind, Option.bind_eq_some_iff, Option.some.injEq] at hs
    obtain ⟨q, hq, r, hr, rfl⟩ := hs
    simp only [List.all_append, List.all_cons, List.all_nil, clean_hex2, clean_hexs, clean_dec, clean_mod hq, ih _ _ hr, Bool.true_and, Bool.and_true]; decide
  | temp r h ih =>
    intro pp s hs
    simp only [Syntax.format, Option.map_eq_some_iff] at hs
    obtain ⟨q, hq, rfl⟩ := hs
    simp only [List.all_append, List.all_cons, List.all_nil, ih _ _ hq, Bool.true_and, Bool.and_true]; decide
  | perm r h ih =>
    intro pp s hs
    simp only [Syntax.format, Option.map_eq_some_iff] at hs
    obtain ⟨q, hq, rfl⟩ := hs
    simp only [List.all_append, List.all_cons, List.all_nil, ih _ _ hq, Bool.true_and, Bool.and_true]; decide
  | call n =>
    intro pp s hs
    simp only [Syntax.format, Option.some.injEq] at hs; subst hs
    simp only [List.all_append, List.all_cons, List.all_nil, clean_dec, Bool.true_and, Bool.and_true]; decide
  | expr op a b ha hb iha ihb =>
    intro pp s hs
    rw [Syntax.format.eq_def] at hs
    simp only [Option.bind_eq_bind, Option.bind_eq_some_iff, Option.some.injEq] at hs
    obtain ⟨⟨sh, pr, br⟩, ho, x, hx, hs⟩ := hs
    have hc := clean_op ho
    have hx' := iha _ _ hx
    have hbr : ∀ (c : Bool) (res : List Char), res.all clean = true → (Syntax.bracketed c res).all clean = true := by
      intro c res hres
      unfold Syntax.bracketed
      split
      · simp only [List.all_append, List.all_cons, List.all_nil, hres, Bool.true_and, Bool.and_true]; decide
      · exact hres
    cases sh with
    | store n =>
      simp only at hs
      split at hs
      · simp only [Option.bind_some, Option.some.injEq] at hs; subst hs
        simp only [opText] at hc
        apply hbr
        simp only [List.all_append, hc, clean_hex2, hx', Bool.true_and, Bool.and_true]; decide
      · cases hs
    | «infix» o =>
      simp only [Option.bind_eq_some_iff, Option.map_eq_some_iff, Option.some.injEq] at hs
      obtain ⟨_, ⟨y, hy, rfl⟩, rfl⟩ := hs
      simp only [opText] at hc
      apply hbr
      simp only [List.all_append, List.all_cons, hc, hx', ihb _ _ hy, Bool.true_and, Bool.and_true]; decide
    | fn f =>
      simp only [Option.bind_eq_some_iff, Option.map_eq_some_iff, Option.some.injEq] at hs
      obtain ⟨_, ⟨y, hy, rfl⟩, rfl⟩ := hs
      simp only [opText] at hc
      apply hbr
      simp only [List.all_append, List.all_cons, List.all_nil, hc, hx', ihb _ _ hy, Bool.true_and, Bool.and_true]; decide

/-! ### Lines and white space -/

theorem split_clean {s : List Char} (h : s.all clean = true) : splitLines s = [s] ∧ ∀ t, splitLines (s ++ '\n' :: t) = s :: splitLines t := by
  induction s with
  | nil => exact ⟨rfl, fun t => by simp [splitLines]⟩
  | cons c s ih =>
    simp only [List.all_cons, Bool.and_eq_true] at h
    have hc : c ≠ '\n' := by
      have := h.1
      simp only [clean, Bool.and_eq_true, bne_iff_ne] at this
      exact this.1.1
    obtain ⟨h1, h2⟩ := ih h.2
    refine ⟨?_, fun t => ?_⟩
    · rw [splitLines, if_neg hc, h1]
    · rw [List.cons_append, splitLines, if_neg hc, h2]

theorem lex_blanks (n : Nat) (s : List Char) : Syntax.lex (List.replicate n ' ' ++ s) = Syntax.lex s := by
  induction n with
  | zero => rfl
  | succ n ih => rw [List.replicate_succ, List.cons_append, Syntax.lex_space, ih]

theorem lex_all_blank : ∀ (s : List Char), s.all (fun c => decide (c = ' ')) = true → Syntax.lex s = []
  | [], _ => Syntax.lex_nil
  | c :: s, h => by
    simp only [List.all_cons, Bool.and_eq_true, decide_eq_true_eq] at h
    rw [h.1, Syntax.lex_space, lex_all_blank s (by simpa using h.2)]

theorem line_not_blank {d : DNode} (h : Syntax.Made d) {s : List Char} (hs : Syntax.format d 0 = some s) :
    s.all (fun c => decide (c = ' ')) = false := by
  cases hb : s.all (fun c => decide (c = ' ')) with
  | false => rfl
  | true =>
    have h1 := (Syntax.format_reads_made h 0 s hs).1 [] trivial
    rw [List.append_nil, lex_all_blank s hb] at h1
    obtain ⟨t, r, e, -⟩ := Syntax.begins_ne (Syntax.toks_begins_made h 0 s hs)
    rw [e] at h1
    cases h1

theorem indent_blank (l : List (List Char)) (h : l ≠ []) (hb : l.head?.map (fun l => l.all fun c => decide (c = ' ')) = some false) :
    ∃ r, indentLines l = ' ' :: r := by
  match l, h with
  | [l], _ => exact ⟨_, rfl⟩
  | a :: b :: l, _ =>
    simp only [List.head?_cons, Option.map_some, Option.some.injEq] at hb
    simp only [indentLines, hb, Bool.false_eq_true, if_false]
    exact ⟨_, rfl⟩

theorem indent_lex (ds : List DNode) (h0 : ds ≠ []) (hm : ∀ d ∈ ds, Syntax.Made d) (t : List Char) (ht : Syntax.formatLines ds = some t) :
    splitLines t ≠ [] ∧ (splitLines t).head?.map (fun l => l.all fun c => decide (c = ' ')) = some false ∧
      Syntax.lex (indentLines (splitLines t)) = Syntax.lex t := by
  induction ds generalizing t with
  | nil => exact absurd rfl h0
  | cons d ds ih =>
    cases ds with
    | nil =>
      simp only [Syntax.formatLines] at ht
      rw [(split_clean (format_clean (hm d (by simp)) 0 t ht)).1]
      refine ⟨by simp, by simp only [List.head?_cons, Option.map_some, line_not_blank (hm d (by simp)) ht], ?_⟩
      simp only [indentLines]
      exact lex_blanks 8 t
    | cons d' ds =>
      rw [Syntax.formatLines.eq_def] at ht
      simp only [Option.bind_eq_bind, Option.bind_eq_some_iff, Option.some.injEq] at ht
      obtain ⟨x, hx, y, hy, rfl⟩ := ht
      have hmd := hm d (by simp)
      obtain ⟨h1, h2, h3⟩ := ih (by simp) (fun e he => hm e (List.mem_cons_of_mem _ he)) y hy
      rw [(split_clean (format_clean hmd 0 x hx)).2]
      refine ⟨by simp, by simp only [List.head?_cons, Option.map_some, line_not_blank hmd hx], ?_⟩
      have hr := (Syntax.format_reads_made hmd 0 x hx).1
      have hnl : y.head? ≠ some '\n' := Syntax.lines_head_made (fun e he => hm e (List.mem_cons_of_mem _ he)) hy
      obtain ⟨r, er⟩ := indent_blank _ h1 h2
      have e : indentLines (x :: splitLines y) = (if x.all (fun c => decide (c = ' ')) then [] else List.replicate 8 ' ' ++ x) ++
          '\n' :: indentLines (splitLines y) := by
        cases hs : splitLines y with
        | nil => exact absurd hs h1
        | cons a l => rfl
      rw [e, line_not_blank hmd hx]
      simp only [Bool.false_eq_true, if_false, List.append_assoc]
      rw [lex_blanks, hr _ (Syntax.safe_nl _), hr _ (Syntax.safe_nl _), Syntax.lex_newline y hnl,
        Syntax.lex_newline _ (by rw [er]; simp), h3]

theorem run_newline (acc : List Node) (ts : List Syntax.Tok) :
    Syntax.Run acc .start (.newline :: ts) = Syntax.Run acc .start ts := by
  unfold Syntax.Run
  have : Syntax.run (Syntax.bound .start (Syntax.Tok.newline :: ts)) acc .start (.newline :: ts) =
      Syntax.run (Syntax.bound .start ts + 1) acc .start ts := by
    simp only [Syntax.bound]
    rfl
  rw [this]
  exact Syntax.run_enough _ _ _ _ _ (by omega) (Nat.le_refl _)

/-- **C66** The white space the printer adds to the code of a switch does not change what it is parsed as. -/
theorem shown_parse (ds : List DNode) (h0 : ds ≠ []) (hm : ∀ d ∈ ds, Syntax.Made d) (t : List Char) (ht : Syntax.formatLines ds = some t) :
    Syntax.parse ('\n' :: indentLines (splitLines t)) = Syntax.parse t := by
  obtain ⟨h1, h2, h3⟩ := indent_lex ds h0 hm t ht
  obtain ⟨r, er⟩ := indent_blank _ h1 h2
  rw [Syntax.parse_eq, Syntax.parse_eq, Syntax.lex_newline _ (by rw [er]; simp), run_newline, h3]

/-! ### The switch -/

/-- What the decoder guarantees of a switch: its code is printed from lines, and its ranges are of at most 32 bits. -/
structure SoundSwitch (s : SwitchT) : Prop where
  feature : s.feature ≤ 0x14
  code : ∃ ds, ds ≠ [] ∧ (∀ d ∈ ds, Syntax.Made d) ∧ Syntax.formatLines ds = some s.code
  ranges : ∀ r ∈ s.ranges, (0 ≤ r.low ∧ r.low < 4294967296) ∧ (0 ≤ r.high ∧ r.high < 4294967296)

theorem lines_clean (ds : List DNode) (hm : ∀ d ∈ ds, Syntax.Made d) : ∀ t, Syntax.formatLines ds = some t →
    ∀ c ∈ t, c = '\n' ∨ clean c = true := by
  induction ds with
  | nil => intro t ht; simp only [Syntax.formatLines, Option.some.injEq] at ht; subst ht; simp
  | cons d ds ih =>
    cases ds with
    | nil =>
      intro t ht c hc
      simp only [Syntax.formatLines] at ht
      exact Or.inr (List.all_eq_true.1 (format_clean (hm d (by simp)) 0 t ht) c hc)
    | cons d' ds =>
      intro t ht c hc
      rw [Syntax.formatLines.eq_def] at ht
      simp only [Option.bind_eq_bind, Option.bind_eq_some_iff, Option.some.injEq] at ht
      obtain ⟨x, hx, y, hy, rfl⟩ := ht
      rcases List.mem_append.1 hc with hc | hc
      · exact Or.inr (List.all_eq_true.1 (format_clean (hm d (by simp)) 0 x hx) c hc)
      · rcases List.mem_cons.1 hc with hc | hc
        · exact Or.inl hc
        · exact ih (fun e he => hm e (List.mem_cons_of_mem _ he)) y hy c hc

theorem indent_mem : ∀ (t : List Char) (c : Char), c ∈ indentLines (splitLines t) → c = ' ' ∨ c = '\n' ∨ c ∈ t := by
  have hsplit : ∀ (t : List Char) (l : List Char), l ∈ splitLines t → ∀ c ∈ l, c ∈ t := by
    intro t
    induction t with
    | nil => intro l hl c hc; simp only [splitLines, List.mem_singleton] at hl; subst hl; exact hc
    | cons x t ih =>
      intro l hl c hc
      rw [splitLines] at hl
      split at hl
      · rcases List.mem_cons.1 hl with rfl | hl
        · cases hc
        · exact List.mem_cons_of_mem _ (ih l hl c hc)
      · split at hl
        · simp only [List.mem_singleton] at hl; subst hl; simp only [List.mem_singleton] at hc; simp [hc]
        · next p ps e =>
          rcases List.mem_cons.1 hl with rfl | hl
          · rcases List.mem_cons.1 hc with rfl | hc
            · simp
            · exact List.mem_cons_of_mem _ (ih p (by rw [e]; simp) c hc)
          · exact List.mem_cons_of_mem _ (ih l (by rw [e]; simp [hl]) c hc)
  have hind : ∀ (ls : List (List Char)) (c : Char), c ∈ indentLines ls → c = ' ' ∨ c = '\n' ∨ ∃ l ∈ ls, c ∈ l := by
    intro ls
    induction ls with
    | nil => intro c hc; cases hc
    | cons l ls ih =>
      intro c hc
      cases ls with
      | nil =>
        simp only [indentLines, List.mem_append, List.mem_replicate] at hc
        rcases hc with hc | hc
        · exact Or.inl hc.2
        · exact Or.inr (Or.inr ⟨l, by simp, hc⟩)
      | cons l' ls =>
        simp only [indentLines, List.mem_append, List.mem_cons] at hc
        rcases hc with hc | hc | hc
        · split at hc
          · cases hc
          · simp only [List.mem_append, List.mem_replicate] at hc
            rcases hc with hc | hc
            · exact Or.inl hc.2
            · exact Or.inr (Or.inr ⟨l, by simp, hc⟩)
        · exact Or.inr (Or.inl hc)
        · rcases ih c hc with h | h | ⟨m, h1, h2⟩
          · exact Or.inl h
          · exact Or.inr (Or.inl h)
          · exact Or.inr (Or.inr ⟨m, List.mem_cons_of_mem _ h1, h2⟩)
  intro t c hc
  rcases hind _ c hc with h | h | ⟨l, h1, h2⟩
  · exact Or.inl h
  · exact Or.inr (Or.inl h)
  · exact Or.inr (Or.inr (hsplit t l h1 c h2))

/-- Printed code is a text, and it is parsed as the code. -/
theorem code_runs (names : String → Option Target) (ds : List DNode) (h0 : ds ≠ []) (hm : ∀ d ∈ ds, Syntax.Made d) (t : List Char)
    (ht : Syntax.formatLines ds = some t) :
    ∃ t', eval names (codeEx t) = some (.str (String.ofList t')) ∧ Syntax.parse t' = Syntax.parse t ∧ ('\n' ∉ t → t' = t) := by
  by_cases hn : '\n' ∈ t
  · refine ⟨_, ?_, shown_parse ds h0 hm t ht, fun h => absurd hn h⟩
    simp only [codeEx, hn, if_true, eval]
    rw [if_neg]
    simp only [Bool.not_eq_true, List.any_eq_false]
    intro c hc
    have : c = ' ' ∨ c = '\n' ∨ clean c = true := by
      rcases List.mem_cons.1 hc with h | h
      · exact Or.inr (Or.inl h)
      · rcases indent_mem t c h with h | h | h
        · exact Or.inl h
        · exact Or.inr (Or.inl h)
        · exact Or.inr (lines_clean ds hm t ht c h)
    rcases this with rfl | rfl | h
    · decide
    · decide
    · simp only [clean, Bool.and_eq_true, bne_iff_ne] at h
      simp [h.1.2, h.2]
  · exact ⟨t, by simp only [codeEx, hn, if_false, eval], rfl, fun _ => rfl⟩

theorem utoi32_inj {a b : Int} (ha : 0 ≤ a ∧ a < 4294967296) (hb : 0 ≤ b ∧ b < 4294967296) (h : utoi32 a = utoi32 b) : a = b := by
  have h1 := (utoi32_spec a ha.1 ha.2).2
  have h2 := (utoi32_spec b hb.1 hb.2).2
  rw [h] at h1
  omega

/-- The key of a range in the printed dictionary. -/
def keyOf (p : Int × Int) : DKey := if p.1 = p.2 then .int p.1 else .pair p.1 p.2

theorem keyOf_inj {p q : Int × Int} (h : keyOf p = keyOf q) : p = q := by
  obtain ⟨a, b⟩ := p
  obtain ⟨c, d⟩ := q
  simp only [keyOf] at h
  split at h <;> split at h <;> simp_all

theorem rangeKey_eq {low high : Int} (h1 : 0 ≤ low ∧ low < 4294967296) (h2 : 0 ≤ high ∧ high < 4294967296) :
    rangeKey low high = keyOf (utoi32 low, utoi32 high) := by
  simp only [rangeKey, keyOf]
  by_cases h : low = high
  · subst h; simp
  · rw [if_neg h, if_neg (fun e => h (utoi32_inj h1 h2 e))]

theorem dictSet_map {α β α' β' : Type} [DecidableEq α] [DecidableEq α'] (f : α → α') (g : β → β') (hf : ∀ a b, f a = f b → a = b)
    (d : List (α × β)) (k : α) (v : β) :
    dictSet (d.map fun p => (f p.1, g p.2)) (f k) (g v) = (dictSet d k v).map fun p => (f p.1, g p.2) := by
  induction d with
  | nil => rfl
  | cons p d ih =>
    obtain ⟨a, b⟩ := p
    simp only [List.map_cons, dictSet]
    by_cases h : a = k
    · subst h; simp
    · rw [if_neg h, if_neg (fun e => h (hf _ _ e))]
      simp [ih]

theorem dict_map {α β α' β' : Type} [DecidableEq α] [DecidableEq α'] (f : α → α') (g : β → β') (hf : ∀ a b, f a = f b → a = b)
    (es acc : List (α × β)) :
    (es.map fun p => (f p.1, g p.2)).foldl (fun m p => dictSet m p.1 p.2) (acc.map fun p => (f p.1, g p.2)) =
      (es.foldl (fun m p => dictSet m p.1 p.2) acc).map fun p => (f p.1, g p.2) := by
  induction es generalizing acc with
  | nil => rfl
  | cons e es ih => simp only [List.map_cons, List.foldl_cons, dictSet_map f g hf, ih]

theorem switch_runs (names : String → Option Target) (s : SwitchT) (h : SoundSwitch s) (refs : List Ex) (ts : List Target) (t : Target)
    (hl : ts.length = s.ranges.length) (hr : Values names refs (ts ++ [t])) :
    ∃ c code' ranges', py refs (.switch s) = some c ∧
      runCall names c = some (.switch ⟨s.feature, s.refId, s.related, code', ranges', t⟩) ∧ Syntax.parse code' = Syntax.parse s.code ∧
      ('\n' ∉ s.code → code' = s.code) ∧
      Spec.DictOf (ranges'.map fun r => ((r.low, r.high), r.ref)) ((s.ranges.zip ts).map fun p => ((utoi32 p.1.low, utoi32 p.1.high), p.2)) := by
  obtain ⟨f, i, rel, code, rs, d⟩ := s
  obtain ⟨hf, ⟨ds, h0, hm, ht⟩, hrs⟩ := h
  simp only at hf h0 hm ht hrs hl
  obtain ⟨rs', r, rfl, h1, h2⟩ := values_last names refs ts t hr
  obtain ⟨code', hc, hp, hsame⟩ := code_runs names ds h0 hm code ht
  let es : List ((Int × Int) × Target) := (rs.zip ts).map fun p => ((utoi32 p.1.low, utoi32 p.1.high), p.2)
  let D := es.foldl (fun m p => dictSet m p.1 p.2) []
  have hz : (rs.map fun r => rangeKey r.low r.high).zip (rs' ++ [r]) = (rs.map fun r => rangeKey r.low r.high).zip rs' := by
    have : rs'.length = (rs.map fun r => rangeKey r.low r.high).length := by
      have := eval_some_length names _ _ h1
      simpa [this] using hl
    rw [← List.append_nil (rs.map fun r => rangeKey r.low r.high), List.zip_append this.symm]
    simp
  have hz2 : ∀ (rs : List SRange) (ts : List Target), (∀ r ∈ rs, (0 ≤ r.low ∧ r.low < 4294967296) ∧ (0 ≤ r.high ∧ r.high < 4294967296)) →
      (rs.map fun r => rangeKey r.low r.high).zip (ts.map Val.target) =
      ((rs.zip ts).map fun p => ((utoi32 p.1.low, utoi32 p.1.high), p.2)).map fun p => (keyOf p.1, Val.target p.2) := by
    intro rs
    induction rs with
    | nil => intro ts _; rfl
    | cons a rs ih =>
      intro ts h
      cases ts with
      | nil => rfl
      | cons t ts =>
        have ha := h a (by simp)
        simp only [List.map_cons, List.zip_cons_cons, ih ts (fun r hr => h r (by simp [hr])), rangeKey_eq ha.1 ha.2]
  have hd := dict_refs names (rs.map fun r => rangeKey r.low r.high) rs' ts h1 (by simpa using hl)
  have hD : eval names (.dict ((rs.map fun r => rangeKey r.low r.high).zip rs')) = some (.dict (D.map fun p => (keyOf p.1, Val.target p.2))) := by
    simp only [eval, hd, Option.map_some]
    rw [hz2 rs ts hrs]
    have := dict_map keyOf Val.target (fun a b => keyOf_inj) es []
    simp only [List.map_nil] at this
    rw [this]
  refine ⟨_, code', D.map fun p => ⟨p.1.1, p.1.2, p.2⟩, rfl, ?_, hp, hsame, ?_⟩
  · refine (run_iff names _ _ [("feature", .feature f), ("ref_id", .int i), ("related_scope", .bool rel), ("code", .str (String.ofList code')),
      ("ranges", .dict (D.map fun p => (keyOf p.1, Val.target p.2))), ("default", .target t)] _ _ ?_ rfl rfl).trans ?_
    · rw [hz]
      simp only [evalArgs, eval_feature names f hf, eval_int, eval_bool, hc, hD, List.getLastD_concat, h2, Option.bind_some, Option.map_some]
    · have e : construct "Switch" (fun k => List.lookup k [("code", Val.str (String.ofList code')),
          ("ranges", .dict (D.map fun p => (keyOf p.1, Val.target p.2))), ("default", .target t), ("feature", .feature f), ("ref_id", .int i),
          ("related_scope", .bool rel), ("subroutines", .none)]) =
          ((D.map fun p => (keyOf p.1, Val.target p.2)).mapM rangeVal).bind fun rs =>
            some (.switch ⟨f, i, rel, (String.ofList code').toList, rs, t⟩) := rfl
      refine e.trans ?_
      have hb := mapM_back rangeVal (fun p : (Int × Int) × Target => (keyOf p.1, Val.target p.2)) (fun p => (⟨p.1.1, p.1.2, p.2⟩ : SRange)) D
        (fun p _ => by
          obtain ⟨⟨a, b⟩, t⟩ := p
          simp only [keyOf]
          by_cases hab : a = b
          · subst hab; simp [rangeVal, Val.target?]
          · simp [hab, rangeVal, Val.target?])
      rw [hb]
      simp
  · rw [← dictOf_iff]
    simp only [List.map_map, Function.comp_def]
    exact (List.map_id' _).symm

end Grf.Py
