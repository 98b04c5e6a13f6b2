import Verif.Proofs.SyntaxExact
import Verif.Props.Syntax
import Verif.Props.Decode
/-!
# C56 exactly: which printed expressions are read back
-/
namespace Grf.Syntax

/-- One printed line at the start of a line: it is refused, or read as some value of the same size. -/
theorem run_line_any {d : DNode} (h : Made d) {s : List Char} (hs : format d 0 = some s) :
    ((∀ acc X, Run acc .start (toks d 0 ++ X) = none) ∧ ¬ Faithful d) ∨
    ∃ v, weight v = weight (source d) ∧ (v = source d ↔ Faithful d) ∧ ∀ acc (X : List Tok), (X = [] ∨ ∃ r, X = .newline :: r) →
      Run acc .start (toks d 0 ++ X) = match X with | .newline :: r => Run (acc ++ [v]) .start r | _ => some (acc ++ [v]) := by
  obtain ⟨t, r, ht, hn⟩ := begins_ne (toks_begins_made h 0 s hs)
  have e1 : ∀ acc X, Run acc .start (toks d 0 ++ X) = Run acc (.need []) (toks d 0 ++ X) := by
    intro acc X
    rw [ht]; exact Run_start acc t _ hn
  rcases (exact h 0 s hs).1 with ⟨h1, h2⟩ | ⟨v, lev, h1, h2, h3⟩
  · exact .inl ⟨fun acc X => by rw [e1]; exact h1 acc [] X, h2⟩
  · refine .inr ⟨v, h2, h3, fun acc X hX => ?_⟩
    have hst : Stops X := by rcases hX with rfl | ⟨r, rfl⟩ <;> trivial
    obtain ⟨x, S', e, -, ea⟩ := h1 acc [] X (.inl rfl) hst
    have ea' : reduceAll x S' = (v, []) := by rw [ea]; rfl
    rw [e1, e]
    rcases hX with rfl | ⟨r, rfl⟩
    · rw [Run_got_nil, ea']
    · rw [Run_got_newline _ _ _ _ _ ea']

theorem lines_head_made {ds : List DNode} (h : ∀ d ∈ ds, Made d) {s : List Char} (hs : formatLines ds = some s) : s.head? ≠ some '\n' := by
  cases ds with
  | nil => simp [formatLines] at hs; subst hs; simp
  | cons d ds =>
    cases ds with
    | nil =>
      simp only [formatLines] at hs
      exact (format_reads_made (h d (by simp)) 0 s hs).2.2
    | cons d' ds =>
      simp only [formatLines, Option.bind_eq_bind, Option.bind_eq_some_iff, Option.some.injEq] at hs
      obtain ⟨x, hx, y, -, rfl⟩ := hs
      obtain ⟨-, h0, h1⟩ := format_reads_made (h d (by simp)) 0 x hx
      cases x with
      | nil => exact absurd rfl h0
      | cons c x => simpa using h1

/-- The printed lines: refused, or read as so many values. -/
theorem lines_run_any (ds : List DNode) : ∀ s, (∀ d ∈ ds, Made d) → formatLines ds = some s →
    ((∀ acc, Run acc .start (lex s) = none) ∧ ¬ ∀ d ∈ ds, Faithful d) ∨
    ∃ vs : List Node, vs.map weight = ds.map (fun d => weight (source d)) ∧ (vs = ds.map source ↔ ∀ d ∈ ds, Faithful d) ∧
      ∀ acc, Run acc .start (lex s) = some (acc ++ vs) := by
  induction ds with
  | nil =>
    intro s _ hs
    simp only [formatLines, Option.some.injEq] at hs
    subst hs
    exact .inr ⟨[], rfl, by simp, fun acc => by simp [lex, lexN, Run, run, bound]⟩
  | cons d ds ih =>
    intro s h hs
    have hd := h d (by simp)
    cases ds with
    | nil =>
      simp only [formatLines] at hs
      have hl : lex s = toks d 0 ++ [] := by
        have := (format_reads_made hd 0 s hs).1 [] trivial
        rw [List.append_nil] at this
        rw [this]; rfl
      rw [hl]
      rcases run_line_any hd hs with ⟨h1, h2⟩ | ⟨v, h1, h2, h3⟩
      · exact .inl ⟨fun acc => h1 acc [], by simpa using h2⟩
      · exact .inr ⟨[v], by simp [h1], by simpa using h2, fun acc => h3 acc [] (.inl rfl)⟩
    | cons d' ds =>
      simp only [formatLines, Option.bind_eq_bind, Option.bind_eq_some_iff, Option.some.injEq] at hs
      obtain ⟨x, hx, y, hy, rfl⟩ := hs
      have hl : lex (x ++ '\n' :: y) = toks d 0 ++ .newline :: lex y := by
        rw [(format_reads_made hd 0 x hx).1 _ (safe_nl _),
          lex_newline _ (lines_head_made (fun e he => h e (by simp at he ⊢; exact .inr he)) hy)]
      rw [hl]
      rcases run_line_any hd hx with ⟨h1, h2⟩ | ⟨v, h1, h2, h3⟩
      · exact .inl ⟨fun acc => h1 acc _, fun hf => h2 (hf d (by simp))⟩
      · have e : ∀ acc, Run acc .start (toks d 0 ++ .newline :: lex y) = Run (acc ++ [v]) .start (lex y) :=
          fun acc => h3 acc _ (.inr ⟨_, rfl⟩)
        rcases ih y (fun e he => h e (by simp at he ⊢; exact .inr he)) hy with ⟨k1, k2⟩ | ⟨vs, k1, k2, k3⟩
        · exact .inl ⟨fun acc => by rw [e, k1], fun hf => k2 (fun e he => hf e (by simp at he ⊢; exact .inr he))⟩
        · refine .inr ⟨v :: vs, by rw [List.map_cons, List.map_cons, k1, h1], ?_, fun acc => by rw [e, k3]; simp⟩
          rw [List.map_cons, List.cons.injEq, h2, k2]; simp only [List.forall_mem_cons]

/-- **C56** The lines of a switch, printed one per line, are read back as the same expressions exactly if every line is faithful: no operator
and no call which the grammar does not have, no modifier type but 1 and 2, and brackets (or tighter operators) wherever the grouping needs
them. -/
theorem text_read_back_iff (ds : List DNode) (h : ∀ d ∈ ds, Made d) (s : List Char) (hs : formatLines ds = some s) :
    parse s = some (ds.map source) ↔ ∀ d ∈ ds, Faithful d := by
  rw [parse_eq]
  rcases lines_run_any ds s h hs with ⟨h1, h2⟩ | ⟨vs, -, h2, h3⟩
  · rw [h1]; simp only [reduceCtorEq, false_iff]; exact h2
  · rw [h3, List.nil_append, Option.some.injEq, h2]

/-- **C56** Whatever is not read back is refused or regrouped: if a text is accepted, there are as many lines, and each has as many nodes
as the line that was printed. -/
theorem accepted_text_same_size (ds : List DNode) (h : ∀ d ∈ ds, Made d) (s : List Char) (hs : formatLines ds = some s) (vs : List Node)
    (hp : parse s = some vs) : vs.map weight = ds.map (fun d => weight (source d)) := by
  rw [parse_eq] at hp
  rcases lines_run_any ds s h hs with ⟨h1, -⟩ | ⟨vs', h1, -, h3⟩
  · rw [h1] at hp; cases hp
  · rw [h3, List.nil_append, Option.some.injEq] at hp
    rw [← hp, h1]

/-! ### What the decoder makes -/

/-- The names of the variables are names, and none is `call`. -/
def NamesOk (table : List (String × VarData)) : Prop := ∀ p ∈ table, IsName p.1.toList ∧ p.1 ≠ "call"

theorem invLookup_name {table : List (String × VarData)} (ht : NamesOk table) {v s m : Nat} {n : String} (h : invLookup table v s m = some n) :
    IsName n.toList ∧ n ≠ "call" := by
  unfold invLookup at h
  simp only [Option.map_eq_some_iff] at h
  obtain ⟨p, hp, rfl⟩ := h
  exact ht p (List.mem_reverse.1 (List.mem_of_find?_eq_some hp))

theorem base_made {table : List (String × VarData)} (ht : NamesOk table) {v s k : Nat} {param : Option DNode}
    {node : DNode} (h : getVarNodeBase table v param s k = some node) (hp : ∀ p ∈ param, Made p) : Made node := by
  unfold getVarNodeBase at h
  split at h
  · simp only [Option.some.injEq] at h; subst h; exact .value _
  · split at h
    · simp only [Option.map_eq_some_iff] at h
      obtain ⟨p, rfl, rfl⟩ := h
      exact .perm _ (hp p rfl)
    · split at h
      · simp only [Option.map_eq_some_iff] at h
        obtain ⟨p, rfl, rfl⟩ := h
        exact .temp _ (hp p rfl)
      · split at h
        · split at h
          · split at h
            · simp only [Option.some.injEq] at h; subst h; exact .call _
            · simp at h
          · simp at h
        · rw [ite_none_left_iff] at h
          obtain ⟨-, h⟩ := h
          split at h
          · next n hl =>
            simp only [Option.some.injEq] at h
            subst h
            obtain ⟨h1, h2⟩ := invLookup_name ht hl
            cases param with
            | none => exact .var n h1
            | some p => exact .varP n p h1 h2 (hp p rfl)
          · simp only [Option.some.injEq] at h
            subst h
            cases param with
            | none => exact .gvar _ _ _ _ _ _ (.inl ⟨rfl, rfl, rfl⟩)
            | some p => exact .gvarP _ _ _ _ _ _ _ (.inl ⟨rfl, rfl, rfl⟩) (hp p rfl)

theorem readAcc_mods {size : Nat} {bs r : Bytes} {a : RawAcc} (h : readAcc size bs = some (a, r)) :
    (a.type = 0 ∧ a.add = none ∧ a.div = none) ∨ (a.type ≠ 0 ∧ a.add.isSome ∧ a.div.isSome) := by
  unfold readAcc at h
  simp only [Option.bind_eq_bind, Option.bind_eq_some_iff] at h
  obtain ⟨⟨var, b1⟩, -, ⟨param, b2⟩, -, ⟨adj, b3⟩, -, ⟨mask, b4⟩, -, h⟩ := h
  simp only at h
  split at h
  · next ht =>
    simp only [Option.some.injEq, Prod.mk.injEq] at h
    obtain ⟨rfl, -⟩ := h
    exact .inl ⟨ht, rfl, rfl⟩
  · next ht =>
    simp only [Option.bind_eq_some_iff, Option.some.injEq, Prod.mk.injEq] at h
    obtain ⟨_, -, _, -, rfl, -⟩ := h
    exact .inr ⟨ht, rfl, rfl⟩

theorem acc_made {table : List (String × VarData)} (ht : NamesOk table) {size : Nat} {bs r : Bytes} {a : RawAcc} {root : Option DNode}
    {node : DNode} (hr : readAcc size bs = some (a, r)) (h : accNode table root a = some node) (hroot : ∀ p ∈ root, Made p) : Made node := by
  have hm := readAcc_mods hr
  have hpar : ∀ p ∈ a.param.map (fun (p : Nat) => DNode.value (p : Int)), Made p := by
    intro p hp
    simp only [Option.mem_def, Option.map_eq_some_iff] at hp
    obtain ⟨_, -, rfl⟩ := hp
    exact .value _
  unfold accNode getVarNode at h
  split at h
  · simp only [Option.some.injEq] at h
    subst h
    cases hp : a.param with
    | none => exact .gvar _ _ _ _ _ _ hm
    | some p => exact .gvarP _ _ _ _ _ _ _ hm (.value _)
  · split at h
    · split at h
      · split at h
        · split at h
          · split at h
            · simp at h
            · exact base_made ht h hroot
          · simp at h
        · split at h
          · simp at h
          · exact base_made ht h hroot
      · simp at h
    · exact base_made ht h hpar

theorem loop_made {table : List (String × VarData)} (ht : NamesOk table) (size fuel : Nat) :
    ∀ (code : List DNode) (acc : DNode) (bs : Bytes) (lines : List DNode) (rest : Bytes),
    decodeLoop table size fuel code acc bs = some (lines, rest) → (∀ e ∈ code, Made e) → Made acc → ∀ e ∈ lines, Made e := by
  induction fuel with
  | zero => intro code acc bs lines rest h; simp [decodeLoop] at h
  | succ fuel ih =>
    intro code acc bs lines rest h hcode hacc
    rw [decodeLoop] at h
    simp only [Option.bind_eq_bind, Option.bind_eq_some_iff] at h
    obtain ⟨⟨op, b1⟩, h1, ⟨a, b2⟩, h2, node, h3, h⟩ := h
    simp only at h1 h2 h3 h
    have hnode := acc_made ht h2 h3 (by simpa using hacc)
    have snoc : ∀ (c : List DNode) (e : DNode), (∀ x ∈ c, Made x) → Made e → ∀ x ∈ c ++ [e], Made x := by
      intro c e hc he x hx
      simp only [List.mem_append, List.mem_singleton] at hx
      rcases hx with hx | rfl
      · exact hc x hx
      · exact he
    generalize hst : (if (op : Int) = OP_INIT then ((if a.var ≠ 0x7b then code ++ [acc] else code), node)
            else (code, DNode.expr op acc node)) = st at h
    obtain ⟨code2, acc2⟩ := st
    have step : (∀ e ∈ code2, Made e) ∧ Made acc2 := by
      split at hst
      · simp only [Prod.mk.injEq] at hst
        obtain ⟨rfl, rfl⟩ := hst
        refine ⟨?_, hnode⟩
        split
        · exact snoc _ _ hcode hacc
        · exact hcode
      · simp only [Prod.mk.injEq] at hst
        obtain ⟨rfl, rfl⟩ := hst
        exact ⟨hcode, .expr _ _ _ hacc hnode⟩
    simp only at h
    split at h
    · exact ih _ _ _ _ _ h step.1 step.2
    · simp only [Option.some.injEq, Prod.mk.injEq] at h
      obtain ⟨rfl, rfl⟩ := h
      exact snoc _ _ step.1 step.2

theorem made_lower {c : Cmp} {a b : DNode} (h : Made (lowerCmpD c a b)) : Made a ∧ Made b := by
  unfold lowerCmpD at h
  generalize c.lowering = l at h
  obtain ⟨o, ⟨p, pv⟩, q⟩ := l
  cases q with
  | none =>
    cases h with | expr _ _ _ h _ => cases h with | expr _ _ _ h1 h2 => exact ⟨h1, h2⟩
  | some q =>
    cases h with | expr _ _ _ h _ => cases h with | expr _ _ _ h _ => cases h with | expr _ _ _ h1 h2 => exact ⟨h1, h2⟩

theorem made_simplify (e : DNode) : Made e → Made (simplify e) := by
  induction hn : sizeOf e using Nat.strongRecOn generalizing e with
  | _ n ih =>
    subst hn
    intro hl
    cases e with
    | expr op a b =>
      rw [simplify]
      split
      · next c a' b' h =>
        have hs := matchCmp_size _ _ _ _ _ h
        rw [matchCmp_sound _ _ _ _ h] at hl
        obtain ⟨l1, l2⟩ := made_lower hl
        exact .expr _ _ _ (ih _ hs.1 a' rfl l1) (ih _ hs.2 b' rfl l2)
      · cases hl with
        | expr _ _ _ h1 h2 =>
          exact .expr _ _ _ (ih _ (by simp only [DNode.expr.sizeOf_spec]; omega) a rfl h1)
            (ih _ (by simp only [DNode.expr.sizeOf_spec]; omega) b rfl h2)
    | varP n p =>
      cases hl with
      | varP _ _ h hc hp => simp only [simplify]; exact .varP _ _ h hc (ih _ (by simp only [DNode.varP.sizeOf_spec]; omega) p rfl hp)
    | gvarP v s k t a d p =>
      cases hl with
      | gvarP _ _ _ _ _ _ _ h hp => simp only [simplify]; exact .gvarP _ _ _ _ _ _ _ h (ih _ (by simp only [DNode.gvarP.sizeOf_spec]; omega) p rfl hp)
    | temp r =>
      cases hl with | temp _ h => simp only [simplify]; exact .temp _ (ih _ (by simp only [DNode.temp.sizeOf_spec]; omega) r rfl h)
    | perm r =>
      cases hl with | perm _ h => simp only [simplify]; exact .perm _ (ih _ (by simp only [DNode.perm.sizeOf_spec]; omega) r rfl h)
    | value v => simp only [simplify]; exact hl
    | var n => simp only [simplify]; exact hl
    | gvar => simp only [simplify]; exact hl
    | call n => simp only [simplify]; exact hl

/-- Everything the decoder makes is `Made`. -/
theorem decoded_made {table : List (String × VarData)} (ht : NamesOk table) {size : Nat} {bs rest : Bytes} {lines : List DNode}
    (h : decodeCode table size bs = some (lines, rest)) : ∀ d ∈ lines.map simplify, Made d := by
  intro d hd
  simp only [List.mem_map] at hd
  obtain ⟨e, he, rfl⟩ := hd
  refine made_simplify e ?_
  unfold decodeCode at h
  simp only [Option.bind_eq_bind, Option.bind_eq_some_iff] at h
  obtain ⟨⟨a, b1⟩, h1, node, h2, h⟩ := h
  simp only at h1 h2 h
  have hnode := acc_made ht h1 h2 (by simp)
  split at h
  · exact loop_made ht size _ _ _ _ _ _ h (by simp) hnode e he
  · simp only [Option.some.injEq, Prod.mk.injEq] at h
    obtain ⟨rfl, rfl⟩ := h
    simp only [List.mem_singleton] at he
    subst he
    exact hnode

/-- **C56** The text of a decompiled switch: if it can be printed, it is read back as the decompiled expressions exactly if these are
faithful. This holds for every byte string the decoder accepts, of every size of values. -/
theorem decompiled_text_read_back_iff (table : List (String × VarData)) (ht : NamesOk table) (size : Nat) (bs rest : Bytes)
    (lines : List DNode) (h : decodeCode table size bs = some (lines, rest)) (s : List Char)
    (hs : formatLines (lines.map simplify) = some s) :
    parse s = some ((lines.map simplify).map source) ↔ ∀ d ∈ lines.map simplify, Faithful d :=
  text_read_back_iff _ (decoded_made ht h) s hs

/-! ### Cases -/

/-- `a | b & c` printed for `(a | b) & c`: made, printed, not faithful. -/
example : Made (.expr 0x0b (.expr 0x0c (.var "a") (.var "b")) (.var "c")) ∧
    formatLines [.expr 0x0b (.expr 0x0c (.var "a") (.var "b")) (.var "c")] = some "a | b & c".toList ∧
    ¬ Faithful (.expr 0x0b (.expr 0x0c (.var "a") (.var "b")) (.var "c")) := by
  have hm : Made (.expr 0x0b (.expr 0x0c (.var "a") (.var "b")) (.var "c")) :=
    .expr _ _ _ (.expr _ _ _ (.var _ name_a) (.var _ name_b)) (.var _ ⟨'c', [], rfl, rfl, by simp⟩)
  have hs : formatLines [.expr 0x0b (.expr 0x0c (.var "a") (.var "b")) (.var "c")] = some "a | b & c".toList := by decide +kernel
  refine ⟨hm, hs, fun hf => ?_⟩
  have := (text_read_back_iff _ (by simpa using hm) _ hs).2 (by simpa using hf)
  revert this
  decide +kernel

end Grf.Syntax
