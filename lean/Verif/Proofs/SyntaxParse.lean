import Verif.Proofs.SyntaxToks
/-!
# The parser on the tokens of a formatted expression
-/
namespace Grf.Syntax

/-! ### Fuel -/

def bound : St → List Tok → Nat
  | .start, ts => 2 * ts.length + 2
  | _, ts => 2 * ts.length + 1

theorem closeIdx_length {n : String} {r : Node} {s : List Frame} {ts ts' : List Tok} {st : St}
    (h : closeIdx n r s ts = some (st, ts')) : ts'.length ≤ ts.length ∧ st ≠ .start := by
  unfold closeIdx at h
  split at h
  · simp only [Option.bind_eq_bind, Option.bind_eq_some_iff, Option.some.injEq, Prod.mk.injEq] at h
    obtain ⟨_, _, _, _, rfl, rfl⟩ := h
    simp
  · simp only [Option.map_eq_some_iff, Prod.mk.injEq] at h
    obtain ⟨_, _, rfl, rfl⟩ := h
    simp

theorem nextArg_length {f : String} {d : List (Option String × Node)} {s : List Frame} {ts : List Tok} :
    (nextArg f d s ts).2.length ≤ ts.length ∧ (nextArg f d s ts).1 ≠ .start := by
  unfold nextArg
  split <;> simp
  omega

theorem operand_length {s : List Frame} {ts ts' : List Tok} {st : St} (h : operand s ts = some (st, ts')) :
    ts'.length < ts.length ∧ st ≠ .start := by
  unfold operand at h
  split at h <;> first | (simp at h; done) | skip
  all_goals
    first
    | (simp only [Option.some.injEq, Prod.mk.injEq] at h; obtain ⟨rfl, rfl⟩ := h; simp; try omega)
    | (split at h
       · simp only [Option.some.injEq, Prod.mk.injEq] at h; obtain ⟨rfl, rfl⟩ := h; simp; try omega
       · simp at h)

theorem operator_length {e : Node} {s : List Frame} {ts ts' : List Tok} {st : St} (h : operator e s ts = some (st, ts')) :
    ts'.length < ts.length ∧ st ≠ .start := by
  unfold operator at h
  split at h
  · simp only [Option.some.injEq, Prod.mk.injEq] at h
    obtain ⟨rfl, rfl⟩ := h
    simp
  · split at h
    · simp only [Option.some.injEq, Prod.mk.injEq] at h
      obtain ⟨rfl, rfl⟩ := h
      simp
    · simp only [Option.map_eq_some_iff, Prod.mk.injEq] at h
      obtain ⟨_, _, rfl, rfl⟩ := h
      simp
    · simp at h
  · split at h
    · have := closeIdx_length h
      exact ⟨by simp; omega, this.2⟩
    · simp at h
  · next tl =>
    split at h
    · next e' f d k s' _ =>
      simp only [Option.some.injEq] at h
      have := @nextArg_length f (d ++ [(k, e')]) s' tl
      rw [h] at this
      exact ⟨by simp only [List.length_cons]; simp only at this; omega, this.2⟩
    · simp at h
  · simp at h

theorem bound_other {st : St} (h : st ≠ .start) (ts : List Tok) : bound st ts = 2 * ts.length + 1 := by
  cases st <;> first | rfl | exact absurd rfl h

theorem run_enough (n : Nat) : ∀ (m : Nat) (acc : List Node) (st : St) (ts : List Tok), bound st ts ≤ n → bound st ts ≤ m →
    run n acc st ts = run m acc st ts := by
  induction n with
  | zero => intro m acc st ts h _; cases st <;> simp [bound] at h
  | succ n ih =>
    intro m acc st ts h1 h2
    cases m with
    | zero => cases st <;> simp [bound] at h2
    | succ m =>
      cases st with
      | start =>
        cases ts with
        | nil => rfl
        | cons t ts =>
          have hb : ∀ ts', ts'.length ≤ (t :: ts).length → bound (.need []) ts' ≤ n ∧ bound (.need []) ts' ≤ m := by
            intro ts' hl; simp only [bound, List.length_cons] at h1 h2 hl ⊢; omega
          cases t with
          | newline =>
            simp only [run]
            refine ih m acc .start ts ?_ ?_ <;> (simp only [bound, List.length_cons] at h1 h2 ⊢; omega)
          | _ =>
            simp only [run]
            exact ih m acc _ _ (hb _ (Nat.le_refl _)).1 (hb _ (Nat.le_refl _)).2
      | need s =>
        simp only [run]
        rcases hx : operand s ts with _ | ⟨st', ts'⟩
        · rfl
        · obtain ⟨q1, q2⟩ := operand_length hx
          simp only [Option.bind_some]
          refine ih m acc st' ts' ?_ ?_ <;> (rw [bound_other q2]; simp only [bound] at h1 h2; omega)
      | got e s =>
        cases ts with
        | nil => simp only [run]
        | cons t ts =>
          cases t with
          | newline =>
            simp only [run]
            split
            · refine ih m _ .start ts ?_ ?_ <;> (simp only [bound, List.length_cons] at h1 h2 ⊢; omega)
            · rfl
          | _ =>
            simp only [run]
            rcases hx : operator e s _ with _ | ⟨st', ts'⟩
            · rfl
            · obtain ⟨q1, q2⟩ := operator_length hx
              simp only [Option.bind_some]
              refine ih m acc st' ts' ?_ ?_ <;> (rw [bound_other q2]; simp only [bound, List.length_cons] at h1 h2 q1; omega)

/-- The machine without fuel. -/
def Run (acc : List Node) (st : St) (ts : List Tok) : Option (List Node) := run (bound st ts) acc st ts

theorem parse_eq (cs : List Char) : parse cs = Run [] .start (lex cs) := rfl

theorem Run_need (acc : List Node) (s : List Frame) (ts : List Tok) :
    Run acc (.need s) ts = (operand s ts).bind fun r => Run acc r.1 r.2 := by
  unfold Run
  conv => lhs; simp only [bound, run]
  rcases hx : operand s ts with _ | ⟨st', ts'⟩
  · rfl
  · obtain ⟨q1, q2⟩ := operand_length hx
    simp only [Option.bind_some]
    refine run_enough _ _ acc st' ts' ?_ (Nat.le_refl _)
    rw [bound_other q2]; omega

theorem Run_got (acc : List Node) (e : Node) (s : List Frame) (t : Tok) (ts : List Tok) (ht : t ≠ .newline) :
    Run acc (.got e s) (t :: ts) = (operator e s (t :: ts)).bind fun r => Run acc r.1 r.2 := by
  unfold Run
  have : run (bound (.got e s) (t :: ts)) acc (.got e s) (t :: ts) =
      (operator e s (t :: ts)).bind fun r => run (2 * (t :: ts).length) acc r.1 r.2 := by
    simp only [bound]
    cases t <;> first | rfl | exact absurd rfl ht
  rw [this]
  rcases hx : operator e s (t :: ts) with _ | ⟨st', ts'⟩
  · rfl
  · obtain ⟨q1, q2⟩ := operator_length hx
    simp only [Option.bind_some]
    refine run_enough _ _ acc st' ts' ?_ (Nat.le_refl _)
    rw [bound_other q2]; omega

theorem Run_got_nil (acc : List Node) (e : Node) (s : List Frame) :
    Run acc (.got e s) [] = match reduceAll e s with | (e, []) => some (acc ++ [e]) | _ => none := rfl

theorem Run_got_newline (acc : List Node) (e e' : Node) (s : List Frame) (ts : List Tok) (h : reduceAll e s = (e', [])) :
    Run acc (.got e s) (.newline :: ts) = Run (acc ++ [e']) .start ts := by
  unfold Run
  simp only [bound, run, h]
  exact run_enough _ _ _ .start ts (by simp only [bound, List.length_cons]; omega) (Nat.le_refl _)

theorem Run_start (acc : List Node) (t : Tok) (ts : List Tok) (ht : t ≠ .newline) :
    Run acc .start (t :: ts) = Run acc (.need []) (t :: ts) := by
  unfold Run
  have : run (bound .start (t :: ts)) acc .start (t :: ts) = run (2 * (t :: ts).length + 1) acc (.need []) (t :: ts) := by
    simp only [bound]
    cases t <;> first | rfl | exact absurd rfl ht
  rw [this]; rfl

/-! ### The meaning of the text -/

theorem source_bin (o : Bin) (a b : DNode) : source (.expr o.code a b) = o.node (source a) (source b) := by
  rw [source]
  cases o <;> rfl
theorem source_fn (f : Fn) (a b : DNode) : source (.expr f.code a b) = .expr f.code (source a) (source b) := by
  rw [source]
  cases f <;> rfl
theorem source_store (p : Bool) (a : DNode) (r : Nat) :
    source (.expr (storeCode p) a (.value (.ofNat r))) = .expr (storeCode p) (source a) (.value r) := by
  rw [source]
  cases p <;> rfl

/-! ### First tokens -/

/-- What may follow an operand. -/
def Stops : List Tok → Prop
  | [] => True
  | .op _ :: _ => True
  | .comma :: _ => True
  | .rparen :: _ => True
  | .rbracket :: _ => True
  | .newline :: _ => True
  | .name _ :: _ => True
  | _ => False

/-- How the tokens of an expression can begin. -/
inductive Begins : List Tok → Prop
  | num (n : Nat) (ts : List Tok) (h : ∀ r, ts ≠ .rparen :: r) : Begins (.num n :: ts)
  | neg (n : Nat) (ts : List Tok) : Begins (.op .sub :: .num n :: ts)
  | paren (ts : List Tok) : Begins (.lparen :: ts)
  | name (s : String) (ts : List Tok) (h : ∀ r, ts ≠ .assign :: r) : Begins (.name s :: ts)

theorem Begins.append {l : List Tok} (h : Begins l) (t : Tok) (r : List Tok) (h1 : t ≠ .rparen) (h2 : t ≠ .assign) : Begins (l ++ t :: r) := by
  cases h with
  | num n ts h =>
    refine .num n _ ?_
    cases ts with
    | nil => intro r' hr'; simp at hr'; exact h1 hr'.1
    | cons t ts => intro r' hr'; exact h ts (by injection hr' with h1 h2; rw [h1])
  | neg n ts => exact .neg n _
  | paren ts => exact .paren _
  | name s ts h =>
    refine .name s _ ?_
    cases ts with
    | nil => intro r' hr'; simp at hr'; exact h2 hr'.1
    | cons t ts => intro r' hr'; exact h ts (by injection hr' with h1 h2; rw [h1])

theorem begins_brack {l : List Tok} (b : Bool) (h : Begins l) : Begins (brackT b l) := by
  cases b with
  | false => exact h
  | true => exact .paren _

theorem toks_begins_made {d : DNode} (h : Made d) : ∀ pp s, format d pp = some s → Begins (toks d pp) := by
  induction h with
  | value v =>
    intro pp _ _
    simp only [toks, intToks]
    split
    · exact .neg _ _
    · exact .num _ _ (by simp)
  | var n h => intro pp _ _; exact .name _ _ (by simp)
  | varP | gvar | gvarP | temp | perm | call => intro pp _ _; exact .name _ _ (by simp)
  | expr op a b ha hb iha ihb =>
    intro pp s hs
    simp only [format, Option.bind_eq_bind, Option.bind_eq_some_iff] at hs
    obtain ⟨⟨sh, prio, br⟩, ho, x, hx, hs⟩ := hs
    have hba := iha _ _ hx
    simp only [toks, ho]
    cases sh with
    | «infix» o =>
      simp only
      split
      · exact begins_brack _ (hba.append _ _ (by simp) (by simp))
      · exact begins_brack _ (hba.append _ _ (by simp) (by simp))
    | fn f => exact begins_brack _ (.name _ _ (by simp))
    | store n =>
      simp only at hs ⊢
      split at hs
      · exact begins_brack _ (.name _ _ (by simp))
      · simp at hs

theorem toks_begins {d : DNode} (h : Faithful d) (pp : Nat) : Begins (toks d pp) := by
  obtain ⟨s, hs⟩ := format_some h pp
  exact toks_begins_made h.made pp s hs

/-! ### The machine on an expression -/

/-- The precedence of the operator waiting for its right operand, 0 if there is none. -/
def topPrec : List Frame → Nat
  | .bin _ o :: _ => o.prec
  | _ => 0

/-- The machine reads `l` as the operand `v`, whose outermost operator has precedence `lev`: whatever follows, it ends up in a state that
reduces as `v` does. -/
def Parses (l : List Tok) (v : Node) (lev : Nat) : Prop :=
  ∀ (acc : List Node) (S : List Frame) (X : List Tok), (topPrec S = 0 ∨ topPrec S < lev) → Stops X →
    ∃ x S', Run acc (.need S) (l ++ X) = Run acc (.got x S') X ∧
      (∀ p, 1 ≤ p → p ≤ lev → reduceFor p x S' = reduceFor p v S) ∧ reduceAll x S' = reduceAll v S

theorem Bin.prec_pos (o : Bin) : 1 ≤ o.prec := by cases o <;> decide

theorem Bin.prec_le (o : Bin) : o.prec ≤ 7 := by cases o <;> decide

theorem topPrec_le (S : List Frame) : topPrec S ≤ 7 := by
  unfold topPrec
  split
  · exact Bin.prec_le _
  · omega

theorem reduceFor_id {p : Nat} {v : Node} {S : List Frame} (h : topPrec S = 0 ∨ topPrec S < p) : reduceFor p v S = (v, S) := by
  unfold reduceFor
  split
  · next l o s =>
    simp only [topPrec] at h
    have := o.prec_pos
    rw [if_neg (by omega)]
  · rfl

/-- Something read in one go. -/
theorem Parses.atom {l : List Tok} {v : Node} {lev : Nat}
    (h : ∀ acc S X, Stops X → Run acc (.need S) (l ++ X) = Run acc (.got v S) X) : Parses l v lev :=
  fun acc S X _ hx => ⟨v, S, h acc S X hx, fun _ _ _ => rfl, rfl⟩

theorem Parses.brack {l : List Tok} {v : Node} {lev : Nat} (h : Parses l v lev) : Parses (.lparen :: l ++ [.rparen]) v 8 := by
  refine .atom fun acc S X hx => ?_
  obtain ⟨x, S', e, -, ea⟩ := h acc (.paren :: S) (.rparen :: X) (.inl rfl) trivial
  have : (.lparen :: l ++ [.rparen] : List Tok) ++ X = .lparen :: (l ++ .rparen :: X) := by simp
  rw [this, Run_need]
  simp only [operand, Option.bind_some]
  rw [e, Run_got _ _ _ _ _ (by simp)]
  simp only [operator, ea, reduceAll, Option.bind_some]

theorem Parses.bin {la lb : List Tok} {va vb : Node} {pa pb : Nat} (o : Bin) (ha : Parses la va pa) (hb : Parses lb vb pb)
    (hl : o.prec ≤ pa) (hr : o.prec < pb) : Parses (la ++ .op o :: lb) (o.node va vb) o.prec := by
  intro acc S X hS hX
  obtain ⟨x, S', e, ef, -⟩ := ha acc S (.op o :: (lb ++ X)) (by omega) trivial
  obtain ⟨y, S'', e2, ef2, ea2⟩ := hb acc (.bin va o :: S) X (.inr hr) hX
  refine ⟨y, S'', ?_, fun p h1 h2 => ?_, ?_⟩
  · have : (la ++ .op o :: lb) ++ X = la ++ .op o :: (lb ++ X) := by simp
    rw [this, e, Run_got _ _ _ _ _ (by simp)]
    simp only [operator, Option.bind_some]
    rw [ef _ o.prec_pos hl, reduceFor_id hS]
    exact e2
  · rw [ef2 p h1 (by omega)]
    simp only [reduceFor]
    rw [if_pos h2]
  · rw [ea2]; simp only [reduceAll]

theorem stops_not {X : List Tok} (h : Stops X) : (∀ r, X ≠ .lparen :: r) ∧ (∀ r, X ≠ .lbracket :: r) ∧ ∀ r, X ≠ .assign :: r := by
  refine ⟨?_, ?_, ?_⟩ <;> (rintro r rfl; exact h)

theorem operand_name (S : List Frame) (n : String) {X : List Tok} (h : Stops X) : operand S (.name n :: X) = some (.got (.var n) S, X) := by
  cases X with
  | nil => rfl
  | cons t X => cases t <;> first | rfl | exact absurd h id

theorem closeIdx_read (n : String) (r : Node) (S : List Frame) {X : List Tok} (h : Stops X) :
    closeIdx n r S X = (storage n r).map fun e => (.got e S, X) := by
  cases X with
  | nil => rfl
  | cons t X => cases t <;> first | rfl | exact absurd h id

/-- The first argument of a call with more than one. -/
theorem operand_call (S : List Frame) (f : String) {l : List Tok} (h : Begins l) (X : List Tok) :
    operand S (.name f :: .lparen :: (l ++ .comma :: X)) = some (.need (.args f [] none :: S), l ++ .comma :: X) := by
  cases h with
  | num n ts h =>
    cases ts with
    | nil => rfl
    | cons t ts => cases t <;> first | rfl | exact absurd rfl (h ts)
  | neg | paren | name => rfl

theorem nextArg_plain (f : String) (d : List (Option String × Node)) (S : List Frame) {l : List Tok} (h : Begins l) (X : List Tok) :
    nextArg f d S (l ++ .rparen :: X) = (.need (.args f d none :: S), l ++ .rparen :: X) := by
  cases h with
  | num | neg | paren => rfl
  | name s ts h =>
    cases ts with
    | nil => rfl
    | cons t ts => cases t <;> first | rfl | exact absurd rfl (h ts)

theorem parses {d : DNode} (h : Faithful d) : ∀ pp, Parses (toks d pp) (source d) (level d pp) := by
  induction h with
  | value v =>
    intro pp
    refine .atom fun acc S X _ => ?_
    simp only [toks, intToks, source]
    rw [Run_need]
    split
    · have : (-(((utoi32 v).natAbs : Nat) : Int)) = utoi32 v := by omega
      simp only [List.cons_append, List.nil_append, operand, Option.bind_some, this]
    · have : (((utoi32 v).toNat : Nat) : Int) = utoi32 v := by omega
      simp only [List.cons_append, List.nil_append, operand, Option.bind_some, this]
  | var n h =>
    intro pp
    refine .atom fun acc S X hX => ?_
    rw [Run_need]
    simp only [toks, List.cons_append, List.nil_append, operand_name S n hX, Option.bind_some, source]
  | gvar v s m t a d h =>
    intro pp
    refine .atom fun acc S X _ => ?_
    rcases h with ⟨rfl, rfl, rfl⟩ | ⟨ht, ha, hd⟩
    · simp [toks, modToks, source, Run_need, Run_got, operand, operator, reduceAll, nextArg, finishCall, constEval]
    · obtain ⟨a, rfl⟩ := Option.isSome_iff_exists.mp ha
      obtain ⟨d, rfl⟩ := Option.isSome_iff_exists.mp hd
      rcases ht with rfl | rfl <;>
        simp [toks, modToks, source, Run_need, Run_got, operand, operator, reduceAll, nextArg, finishCall, constEval]
  | gvarP v s m t a d p h hp ih =>
    intro pp
    refine .atom fun acc S X _ => ?_
    obtain ⟨x, S', e, -, ea⟩ := ih 0 acc (.paren :: .args "var" [(none, .value v)] (some "param") :: S)
      (.rparen :: .comma :: .name "shift" :: .assign :: .num s :: .comma :: .name "and" :: .assign :: .num m ::
        (modToks t a d ++ .rparen :: X)) (.inl rfl) trivial
    rcases h with ⟨rfl, rfl, rfl⟩ | ⟨ht, ha, hd⟩
    · simp [modToks] at e
      simp [toks, modToks, source, Run_need, Run_got, operand, operator, reduceAll, nextArg, finishCall, constEval, e, ea]
    · obtain ⟨a, rfl⟩ := Option.isSome_iff_exists.mp ha
      obtain ⟨d, rfl⟩ := Option.isSome_iff_exists.mp hd
      rcases ht with rfl | rfl <;> (simp [modToks] at e) <;>
        simp [toks, modToks, source, Run_need, Run_got, operand, operator, reduceAll, nextArg, finishCall, constEval, e, ea]
  | temp r h ih =>
    intro pp
    refine .atom fun acc S X hX => ?_
    obtain ⟨x, S', e, -, ea⟩ := ih 0 acc (.idx "TEMP" :: S) (.rbracket :: X) (.inl rfl) trivial
    simp [toks, source, Run_need, Run_got, operand, operator, reduceAll, e, ea, closeIdx_read _ _ _ hX, storage]
  | perm r h ih =>
    intro pp
    refine .atom fun acc S X hX => ?_
    obtain ⟨x, S', e, -, ea⟩ := ih 0 acc (.idx "PERM" :: S) (.rbracket :: X) (.inl rfl) trivial
    simp [toks, source, Run_need, Run_got, operand, operator, reduceAll, e, ea, closeIdx_read _ _ _ hX, storage]
  | call n h =>
    intro pp
    refine .atom fun acc S X hX => ?_
    simp [toks, source, Run_need, operand, h]
  | bin o a b ha hb hl hr iha ihb =>
    intro pp
    rw [Bin.binds_eq] at hl hr
    have hp := Parses.bin o (iha _) (ihb _) hl hr
    simp only [toks, opInfo_bin, binOf_code, level, source_bin, Bin.binds_eq]
    by_cases hb : o.prio ≤ pp
    · simp only [brackT, hb, decide_true, if_true]
      exact hp.brack
    · simp only [brackT, hb, decide_false, if_false]
      exact hp
  | fn f a b ha hb iha ihb =>
    intro pp
    have hp : Parses (.name f.text :: .lparen :: toks a (7 - 1) ++ .comma :: toks b (7 - 1) ++ [.rparen]) (source (.expr f.code a b)) 8 := by
      refine .atom fun acc S X hX => ?_
      obtain ⟨x, S', e, -, ea⟩ := iha (7 - 1) acc (.args f.text [] none :: S) (.comma :: (toks b (7 - 1) ++ .rparen :: X)) (.inl rfl) trivial
      obtain ⟨y, S'', e2, -, ea2⟩ := ihb (7 - 1) acc (.args f.text [(none, source a)] none :: S) (.rparen :: X) (.inl rfl) trivial
      have : (.name f.text :: .lparen :: toks a (7 - 1) ++ .comma :: toks b (7 - 1) ++ [.rparen] : List Tok) ++ X =
          .name f.text :: .lparen :: (toks a (7 - 1) ++ .comma :: (toks b (7 - 1) ++ .rparen :: X)) := by simp
      rw [this, Run_need, operand_call _ _ (toks_begins ha _)]
      simp only [Option.bind_some]
      rw [e, Run_got _ _ _ _ _ (by simp)]
      simp only [operator, ea, reduceAll, Option.bind_some, List.nil_append]
      rw [nextArg_plain _ _ _ (toks_begins hb _)]
      simp only
      rw [e2, Run_got _ _ _ _ _ (by simp)]
      simp [operator, ea2, reduceAll, finishCall, callOp_fn, source_fn]
    simp only [toks, opInfo_fn, level, fnTok_fn, binOf_fn, fn_not_store, if_false]
    by_cases hb : 7 ≤ pp
    · simp only [brackT, hb, decide_true, if_true]
      exact hp.brack
    · simp only [brackT, hb, decide_false, if_false]
      exact hp
  | store p a r ha iha =>
    intro pp
    have hp : Parses (.name (storeText p) :: .lbracket :: .num r :: .rbracket :: .assign :: toks a (2 - 1))
        (source (.expr (storeCode p) a (.value (.ofNat r)))) 0 := by
      intro acc S X hS hX
      obtain ⟨x, S', e, -, ea⟩ := iha (2 - 1) acc (.store (storeCode p) r :: S) X (.inl rfl) hX
      refine ⟨x, S', ?_, fun p h1 h2 => by omega, ?_⟩
      · have hop : storeOp (storeText p) = some (storeCode p) := by cases p <;> decide
        simp [Run_need, Run_got, operand, operator, reduceAll, closeIdx, constEval, hop, e]
      · rw [ea, source_store]; simp only [reduceAll]
    have hs : storeCode p = storeCode false ∨ storeCode p = storeCode true := by cases p <;> simp
    simp only [toks, opInfo_store, level, String.ofList_toList, binOf_store, hs, if_true]
    by_cases hb : 2 ≤ pp
    · simp only [brackT, hb, decide_true, if_true]
      exact hp.brack
    · simp only [brackT, hb, decide_false, if_false]
      exact hp

end Grf.Syntax
