import Verif.Proofs.SyntaxTree
/-!
# Every printed expression: it is refused, or read as a value which is the printed one exactly if the expression is faithful
-/
namespace Grf.Syntax

/-! ### Inversion of `Faithful` -/

theorem Bin.code_inj {o o' : Bin} (h : o.code = o'.code) : o = o' := by
  have := binOf_code o
  rw [h, binOf_code] at this
  exact (Option.some.inj this).symm

theorem faithful_bin {o : Bin} {a b : DNode} : Faithful (.expr o.code a b) ↔ Faithful a ∧ Faithful b ∧ o.binds ≤ level a (o.prio - 1) ∧
    o.binds < level b (if o.brk then o.prio else o.prio - 1) := by
  constructor
  · intro h
    generalize hd : DNode.expr o.code a b = d at h
    cases h with
    | bin o' a' b' ha hb hl hr =>
      simp only [DNode.expr.injEq] at hd
      obtain ⟨h1, rfl, rfl⟩ := hd
      obtain rfl := Bin.code_inj h1
      exact ⟨ha, hb, hl, hr⟩
    | fn f a' b' _ _ =>
      simp only [DNode.expr.injEq] at hd
      have := binOf_fn f
      rw [← hd.1, binOf_code] at this
      cases this
    | store p a' r _ =>
      simp only [DNode.expr.injEq] at hd
      have := binOf_store p
      rw [← hd.1, binOf_code] at this
      cases this
    | _ => cases hd
  · rintro ⟨h1, h2, h3, h4⟩
    exact .bin o a b h1 h2 h3 h4

theorem faithful_fn {f : Fn} {a b : DNode} : Faithful (.expr f.code a b) ↔ Faithful a ∧ Faithful b := by
  constructor
  · intro h
    generalize hd : DNode.expr f.code a b = d at h
    cases h with
    | bin o' a' b' ha hb hl hr =>
      simp only [DNode.expr.injEq] at hd
      have := binOf_fn f
      rw [hd.1, binOf_code] at this
      cases this
    | fn f' a' b' ha hb =>
      simp only [DNode.expr.injEq] at hd
      obtain ⟨-, rfl, rfl⟩ := hd
      exact ⟨ha, hb⟩
    | store p a' r _ =>
      simp only [DNode.expr.injEq] at hd
      exact absurd (by rw [hd.1]; cases p <;> simp) (fn_not_store f)
    | _ => cases hd
  · rintro ⟨h1, h2⟩
    exact .fn f a b h1 h2

theorem faithful_store {p : Bool} {a : DNode} {r : Nat} : Faithful (.expr (storeCode p) a (.value (.ofNat r))) ↔ Faithful a := by
  constructor
  · intro h
    generalize hd : DNode.expr (storeCode p) a (.value (.ofNat r)) = d at h
    cases h with
    | bin o' a' b' ha hb hl hr =>
      simp only [DNode.expr.injEq] at hd
      have := binOf_store p
      rw [hd.1, binOf_code] at this
      cases this
    | fn f' a' b' ha hb =>
      simp only [DNode.expr.injEq] at hd
      exact absurd (by rw [← hd.1]; cases p <;> simp) (fn_not_store f')
    | store p a' r ha =>
      simp only [DNode.expr.injEq] at hd
      obtain ⟨-, rfl, -⟩ := hd
      exact ha
    | _ => cases hd
  · exact .store p a r

theorem not_faithful_op {op : Int} {a b : DNode} (h : op = 8 ∨ op = 9 ∨ op = -7 ∨ op = -8) : ¬ Faithful (.expr op a b) := by
  intro hf
  generalize hd : DNode.expr op a b = d at hf
  cases hf with
  | bin o' a' b' ha hb hl hr =>
    simp only [DNode.expr.injEq] at hd
    rw [hd.1] at h
    revert h
    cases o' <;> decide
  | fn f' a' b' ha hb =>
    simp only [DNode.expr.injEq] at hd
    rw [hd.1] at h
    revert h
    cases f' <;> decide
  | store p a' r ha =>
    simp only [DNode.expr.injEq] at hd
    rw [hd.1] at h
    revert h
    cases p <;> decide
  | _ => cases hd

/-! ### Refused texts -/

/-- The machine stops in the tokens `l`, whatever surrounds them. -/
def Stuck (l : List Tok) : Prop := ∀ (acc : List Node) (S : List Frame) (X : List Tok), Run acc (.need S) (l ++ X) = none

theorem Stuck.append {l : List Tok} (h : Stuck l) (r : List Tok) : Stuck (l ++ r) := by
  intro acc S X
  rw [List.append_assoc]
  exact h acc S (r ++ X)

theorem Stuck.brack {l : List Tok} (h : Stuck l) : Stuck (.lparen :: l ++ [.rparen]) := by
  intro acc S X
  have : (.lparen :: l ++ [.rparen] : List Tok) ++ X = .lparen :: (l ++ .rparen :: X) := by simp
  rw [this, Run_need]
  simp only [operand, Option.bind_some]
  exact h acc _ _

theorem Stuck.brackT {l : List Tok} (b : Bool) (h : Stuck l) : Stuck (brackT b l) := by
  cases b with
  | false => exact h
  | true => exact h.brack

/-! ### The two readings -/

/-- The text is refused, or read as some value of the same size. -/
def Q (d : DNode) (pp : Nat) : Prop :=
  (Stuck (toks d pp) ∧ ¬ Faithful d) ∨
    ∃ v lev, Parses (toks d pp) v lev ∧ weight v = weight (source d) ∧ (v = source d ↔ Faithful d)

/-- The text is refused, or a sequence of closed parts. -/
def R (d : DNode) (pp : Nat) : Prop :=
  (Stuck (toks d pp) ∧ ¬ Faithful d) ∨
    ∃ T : Tree, T.toks = toks d pp ∧ T.src = source d ∧ (∀ x, T.leaves x → Parses x.l x.v 8 ∧ weight x.v = weight x.src) ∧ T.Clean ∧
      (3 ≤ pp → T.NoCmp) ∧ T.level = level d pp ∧ (Faithful d ↔ (∀ x, T.leaves x → x.v = x.src) ∧ T.Good)

theorem R.q {d : DNode} {pp : Nat} (h : R d pp) : Q d pp := by
  rcases h with h | ⟨T, h1, h2, h3, h4, -, -, h7⟩
  · exact .inl h
  · obtain ⟨v, lev, k1, k2, k3, -⟩ := tree_read T h3 h4
    exact .inr ⟨v, lev, h1 ▸ k1, h2 ▸ k2, by rw [← h2, k3, h7]⟩

theorem R.closed {d : DNode} {pp : Nat} {v : Node} (hp : Parses (toks d pp) v 8) (hw : weight v = weight (source d))
    (hf : v = source d ↔ Faithful d) (hl : level d pp = 8) : R d pp := by
  refine .inr ⟨.leaf ⟨toks d pp, v, source d⟩, by simp [Tree.toks, Tree.flat, itemToks], rfl, ?_, trivial, ?_, hl.symm, ?_⟩
  · intro x hx
    simp only [Tree.leaves, Tree.flat, List.mem_singleton, Sum.inr.injEq] at hx
    subst hx
    exact ⟨hp, hw⟩
  · intro _ o ho; simp [Tree.flat] at ho
  · rw [← hf]
    constructor
    · intro h
      refine ⟨fun x hx => ?_, trivial⟩
      simp only [Tree.leaves, Tree.flat, List.mem_singleton, Sum.inr.injEq] at hx
      subst hx
      exact h
    · intro h
      exact h.1 ⟨toks d pp, v, source d⟩ (by simp [Tree.leaves, Tree.flat])

/-- A faithful operand. -/
theorem R.faithful {d : DNode} {pp : Nat} (h : Faithful d) (hl : level d pp = 8) : R d pp := by
  have := parses h pp
  rw [hl] at this
  exact .closed this rfl ⟨fun _ => h, fun _ => rfl⟩ hl

theorem run_none_of_rparen (acc : List Node) (f : String) (S : List Frame) (x : Node) (S' : List Frame) (v : Node) (X : List Tok)
    (done : List (Option String × Node)) (key : Option String)
    (ea : reduceAll x S' = reduceAll v (.args f done key :: S)) (hn : finishCall f (done ++ [(key, v)]) = none) :
    Run acc (.got x S') (.rparen :: X) = none := by
  rw [Run_got _ _ _ _ _ (by simp)]
  simp only [operator, ea, reduceAll, hn, Option.map_none, Option.bind_none]

/-- A call with two arguments. -/
theorem call_read {a b : DNode} {la lb : List Tok} (f : String) (ba : Begins la) (bb : Begins lb)
    (hea : la = toks a 6) (heb : lb = toks b 6) (qa : Q a 6) (qb : Q b 6) :
    (Stuck (.name f :: .lparen :: la ++ .comma :: lb ++ [.rparen]) ∧ (callOp f = none ∨ ¬ Faithful a ∨ ¬ Faithful b)) ∨
    ∃ va vb op, callOp f = some op ∧ Parses (.name f :: .lparen :: la ++ .comma :: lb ++ [.rparen]) (.expr op va vb) 8 ∧
      weight va = weight (source a) ∧ weight vb = weight (source b) ∧ (va = source a ↔ Faithful a) ∧ (vb = source b ↔ Faithful b) := by
  have split : ∀ X : List Tok, (.name f :: .lparen :: la ++ .comma :: lb ++ [.rparen] : List Tok) ++ X =
      .name f :: .lparen :: (la ++ .comma :: (lb ++ .rparen :: X)) := by intro X; simp
  rcases qa with ⟨hs, hnf⟩ | ⟨va, pa, hpa, hwa, hfa⟩
  · refine .inl ⟨?_, .inr (.inl hnf)⟩
    intro acc S X
    rw [split, Run_need, operand_call _ _ ba]
    simp only [Option.bind_some]
    rw [hea]
    exact hs acc _ _
  · rw [← hea] at hpa
    have first : ∀ acc S X, Run acc (.need S) ((.name f :: .lparen :: la ++ .comma :: lb ++ [.rparen] : List Tok) ++ X) =
        Run acc (.need (.args f [(none, va)] none :: S)) (lb ++ .rparen :: X) := by
      intro acc S X
      obtain ⟨x, S', e, -, ea⟩ := hpa acc (.args f [] none :: S) (.comma :: (lb ++ .rparen :: X)) (.inl rfl) trivial
      rw [split, Run_need, operand_call _ _ ba]
      simp only [Option.bind_some]
      rw [e, Run_got _ _ _ _ _ (by simp)]
      simp only [operator, ea, reduceAll, Option.bind_some, List.nil_append]
      rw [nextArg_plain _ _ _ bb]
    rcases qb with ⟨hs, hnf⟩ | ⟨vb, pb, hpb, hwb, hfb⟩
    · refine .inl ⟨?_, .inr (.inr hnf)⟩
      intro acc S X
      rw [first, heb]
      exact hs acc _ _
    · rw [← heb] at hpb
      cases hop : callOp f with
      | none =>
        refine .inl ⟨?_, .inl rfl⟩
        intro acc S X
        obtain ⟨y, S'', e2, -, ea2⟩ := hpb acc (.args f [(none, va)] none :: S) (.rparen :: X) (.inl rfl) trivial
        rw [first, e2]
        exact run_none_of_rparen acc f S y S'' vb X [(none, va)] none ea2 (by simp [finishCall, hop])
      | some op =>
        refine .inr ⟨va, vb, op, rfl, .atom fun acc S X hX => ?_, hwa, hwb, hfa, hfb⟩
        obtain ⟨y, S'', e2, -, ea2⟩ := hpb acc (.args f [(none, va)] none :: S) (.rparen :: X) (.inl rfl) trivial
        rw [first, e2, Run_got _ _ _ _ _ (by simp)]
        simp [operator, ea2, reduceAll, finishCall, hop]

theorem level_closed {d : DNode} {pp : Nat} (h : ∀ op a b, d ≠ .expr op a b) : level d pp = 8 := by
  cases d <;> first | rfl | exact absurd rfl (h _ _ _)

/-- What is in brackets is closed. -/
theorem R.brack {d : DNode} {pp : Nat} {l : List Tok} (ht : toks d pp = .lparen :: l ++ [.rparen]) (hl : level d pp = 8)
    (h : (Stuck l ∧ ¬ Faithful d) ∨ ∃ v lev, Parses l v lev ∧ weight v = weight (source d) ∧ (v = source d ↔ Faithful d)) : R d pp := by
  rcases h with ⟨h1, h2⟩ | ⟨v, lev, h1, h2, h3⟩
  · exact .inl ⟨ht ▸ h1.brack, h2⟩
  · exact .closed (ht ▸ h1.brack) h2 h3 hl

theorem fn_exact {op : Int} {a b : DNode} {f : String} (pp : Nat) (hl : level (.expr op a b) pp = 8)
    (ht : toks (.expr op a b) pp = brackT (7 ≤ pp) (.name f :: .lparen :: toks a 6 ++ .comma :: toks b 6 ++ [.rparen]))
    (ba : Begins (toks a 6)) (bb : Begins (toks b 6)) (qa : Q a 6) (qb : Q b 6)
    (hyes : ∀ o, callOp f = some o → o = op ∧ source (.expr op a b) = .expr op (source a) (source b))
    (hf : Faithful (.expr op a b) ↔ callOp f ≠ none ∧ Faithful a ∧ Faithful b) : R (.expr op a b) pp := by
  have key := call_read f ba bb rfl rfl qa qb
  have key' : (Stuck (.name f :: .lparen :: toks a 6 ++ .comma :: toks b 6 ++ [.rparen]) ∧ ¬ Faithful (.expr op a b)) ∨
      ∃ v, Parses (.name f :: .lparen :: toks a 6 ++ .comma :: toks b 6 ++ [.rparen]) v 8 ∧ weight v = weight (source (.expr op a b)) ∧
        (v = source (.expr op a b) ↔ Faithful (.expr op a b)) := by
    rcases key with ⟨hs, hn⟩ | ⟨va, vb, o, ho, hp, hwa, hwb, hfa, hfb⟩
    · refine .inl ⟨hs, fun h => ?_⟩
      obtain ⟨h1, h2, h3⟩ := hf.1 h
      rcases hn with h | h | h <;> contradiction
    · obtain ⟨rfl, hsrc⟩ := hyes o ho
      refine .inr ⟨_, hp, by rw [hsrc]; simp only [weight, hwa, hwb], ?_⟩
      rw [hsrc, hf]
      simp only [Node.expr.injEq, true_and, hfa, hfb, ho, ne_eq, reduceCtorEq, not_false_eq_true]
  by_cases hb : 7 ≤ pp
  · simp only [brackT, hb, decide_true, if_true] at ht
    exact .brack ht hl (key'.imp id fun ⟨v, h⟩ => ⟨v, 8, h⟩)
  · simp only [brackT, hb, decide_false, Bool.false_eq_true, if_false] at ht
    rcases key' with ⟨h1, h2⟩ | ⟨v, h1, h2, h3⟩
    · exact .inl ⟨ht ▸ h1, h2⟩
    · exact .closed (ht ▸ h1) h2 h3 hl

theorem bin_exact (o : Bin) {a b : DNode} (pp : Nat) (ra : R a (o.prio - 1)) (rb : R b (if o.brk then o.prio else o.prio - 1)) :
    R (.expr o.code a b) pp := by
  have ht : toks (.expr o.code a b) pp =
      brackT (o.prio ≤ pp) (toks a (o.prio - 1) ++ .op o :: toks b (if o.brk then o.prio else o.prio - 1)) := by
    simp only [toks, opInfo_bin, binOf_code]
  have hlev : level (.expr o.code a b) pp = if o.prio ≤ pp then 8 else o.binds := by simp only [level, binOf_code]
  -- the text without brackets
  have key : (Stuck (toks a (o.prio - 1) ++ .op o :: toks b (if o.brk then o.prio else o.prio - 1)) ∧ ¬ Faithful (.expr o.code a b)) ∨
      ∃ T : Tree, T.toks = toks a (o.prio - 1) ++ .op o :: toks b (if o.brk then o.prio else o.prio - 1) ∧ T.src = source (.expr o.code a b) ∧
        (∀ x, T.leaves x → Parses x.l x.v 8 ∧ weight x.v = weight x.src) ∧ T.Clean ∧ (4 ≤ o.prio → T.NoCmp) ∧ T.level = o.binds ∧
        (Faithful (.expr o.code a b) ↔ (∀ x, T.leaves x → x.v = x.src) ∧ T.Good) := by
    rcases ra with ⟨h1, h2⟩ | ⟨A, a1, a2, a3, a4, a5, a6, a7⟩
    · exact .inl ⟨h1.append _, fun h => h2 (faithful_bin.1 h).1⟩
    · rcases rb with ⟨h1, h2⟩ | ⟨B, b1, b2, b3, b4, b5, b6, b7⟩
      · refine .inl ⟨fun acc S X => ?_, fun h => h2 (faithful_bin.1 h).2.1⟩
        obtain ⟨x, S', e⟩ := passes (fun x hx => (a3 x hx).1) acc S (.op o :: (toks b (if o.brk then o.prio else o.prio - 1) ++ X)) trivial
        rw [a1] at e
        have : (toks a (o.prio - 1) ++ .op o :: toks b (if o.brk then o.prio else o.prio - 1)) ++ X =
            toks a (o.prio - 1) ++ .op o :: (toks b (if o.brk then o.prio else o.prio - 1) ++ X) := by simp
        rw [this, e, Run_got _ _ _ _ _ (by simp)]
        simp only [operator, Option.bind_some]
        exact h1 acc _ X
      · refine .inr ⟨.node o A B, by rw [toks_node, a1, b1], by rw [source_bin, Tree.src, a2, b2], ?_, ⟨a4, b4, ?_⟩, ?_, ?_, ?_⟩
        · intro x hx
          simp only [Tree.leaves, Tree.flat, List.mem_append, List.mem_cons, reduceCtorEq, false_or] at hx
          exact hx.elim (a3 x) (b3 x)
        · intro hc
          have : 4 ≤ o.prio := by revert hc; cases o <;> simp [Bin.isCmp, Bin.prio]
          exact ⟨a5 (by omega), b5 (by split <;> omega)⟩
        · intro h4
          rw [noCmp_node]
          refine ⟨?_, a5 (by omega), b5 (by split <;> omega)⟩
          revert h4
          cases o <;> simp [Bin.isCmp, Bin.prio]
        · rw [Bin.binds_eq]; rfl
        · rw [faithful_bin, a7, b7, Bin.binds_eq, ← a6, ← b6]
          constructor
          · rintro ⟨⟨h1, h2⟩, ⟨h3, h4⟩, h5, h6⟩
            refine ⟨fun x hx => ?_, h2, h4, h5, h6⟩
            simp only [Tree.leaves, Tree.flat, List.mem_append, List.mem_cons, reduceCtorEq, false_or] at hx
            exact hx.elim (h1 x) (h3 x)
          · rintro ⟨h1, h2, h4, h5, h6⟩
            exact ⟨⟨fun x hx => h1 x (by simp only [Tree.leaves, Tree.flat] at hx ⊢; simp [hx]), h2⟩,
              ⟨fun x hx => h1 x (by simp only [Tree.leaves, Tree.flat] at hx ⊢; simp [hx]), h4⟩, h5, h6⟩
  by_cases hb : o.prio ≤ pp
  · simp only [brackT, hb, decide_true, if_true] at ht
    refine .brack ht (by rw [hlev, if_pos hb]) ?_
    rcases key with h | ⟨T, t1, t2, t3, t4, -, -, t7⟩
    · exact .inl h
    · obtain ⟨v, lev, k1, k2, k3, -⟩ := tree_read T t3 t4
      exact .inr ⟨v, lev, t1 ▸ k1, t2 ▸ k2, by rw [← t2, k3, t7]⟩
  · simp only [brackT, hb, decide_false, Bool.false_eq_true, if_false] at ht
    rcases key with ⟨h1, h2⟩ | ⟨T, t1, t2, t3, t4, t5, t6, t7⟩
    · exact .inl ⟨ht ▸ h1, h2⟩
    · exact .inr ⟨T, by rw [ht, t1], t2, t3, t4, fun h => t5 (by omega), by rw [hlev, if_neg hb, t6], t7⟩

/-- Unsigned division. -/
theorem udiv_exact {op : Int} (h : op = 8 ∨ op = 9) {a b : DNode} (pp : Nat) (ra : R a 5) : Stuck (toks (.expr op a b) pp) := by
  have ht : ∃ o, toks (.expr op a b) pp = brackT (6 ≤ pp) (toks a 5 ++ .name "u" :: .op o :: toks b 5) := by
    rcases h with rfl | rfl
    · have e8 : opInfo 8 = some (.infix ['u', '/'], 6, false) := by decide
      have : binOf 8 = none := by decide
      exact ⟨.div, by simp only [toks, e8, this, if_true, Bool.false_eq_true, if_false]⟩
    · have e8 : opInfo 9 = some (.infix ['u', '%'], 6, false) := by decide
      have : binOf 9 = none := by decide
      have h98 : ¬ (9 : Int) = 8 := by decide
      exact ⟨.mod, by simp only [toks, e8, this, h98, Bool.false_eq_true, if_false]⟩
  obtain ⟨o, ht⟩ := ht
  rw [ht]
  refine Stuck.brackT _ ?_
  rcases ra with ⟨h1, -⟩ | ⟨A, a1, -, a3, -⟩
  · exact h1.append _
  · intro acc S X
    obtain ⟨x, S', e⟩ := passes (fun x hx => (a3 x hx).1) acc S (.name "u" :: .op o :: (toks b 5 ++ X)) trivial
    rw [a1] at e
    have : (toks a 5 ++ .name "u" :: .op o :: toks b 5) ++ X = toks a 5 ++ .name "u" :: .op o :: (toks b 5 ++ X) := by simp
    rw [this, e, Run_got _ _ _ _ _ (by simp)]
    rfl

theorem store_exact (p : Bool) {a : DNode} (r : Nat) (pp : Nat) (qa : Q a 1) :
    (pp < 2 → Q (.expr (storeCode p) a (.value (.ofNat r))) pp) ∧ (2 ≤ pp → R (.expr (storeCode p) a (.value (.ofNat r))) pp) := by
  have ht : toks (.expr (storeCode p) a (.value (.ofNat r))) pp =
      brackT (2 ≤ pp) (.name (storeText p) :: .lbracket :: .num r :: .rbracket :: .assign :: toks a (2 - 1)) := by
    simp only [toks, opInfo_store, String.ofList_toList]
  have hop : storeOp (storeText p) = some (storeCode p) := by cases p <;> decide
  have hs : storeCode p = storeCode false ∨ storeCode p = storeCode true := by cases p <;> simp
  have key : (Stuck (.name (storeText p) :: .lbracket :: .num r :: .rbracket :: .assign :: toks a (2 - 1)) ∧
        ¬ Faithful (.expr (storeCode p) a (.value (.ofNat r)))) ∨
      ∃ v lev, Parses (.name (storeText p) :: .lbracket :: .num r :: .rbracket :: .assign :: toks a (2 - 1)) v lev ∧
        weight v = weight (source (.expr (storeCode p) a (.value (.ofNat r)))) ∧
        (v = source (.expr (storeCode p) a (.value (.ofNat r))) ↔ Faithful (.expr (storeCode p) a (.value (.ofNat r)))) := by
    rw [faithful_store, source_store]
    rcases qa with ⟨h1, h2⟩ | ⟨v, lev, h1, h2, h3⟩
    · refine .inl ⟨fun acc S X => ?_, h2⟩
      have := h1 acc (.store (storeCode p) r :: S) X
      simp [Run_need, Run_got, operand, operator, reduceAll, closeIdx, constEval, hop, this]
    · refine .inr ⟨.expr (storeCode p) v (.value r), 0, ?_, by simp only [weight, h2], by simp only [Node.expr.injEq, true_and, and_true, h3]⟩
      intro acc S X hS hX
      obtain ⟨x, S', e, -, ea⟩ := h1 acc (.store (storeCode p) r :: S) X (.inl rfl) hX
      refine ⟨x, S', ?_, fun p h1 h2 => by omega, ?_⟩
      · simp [Run_need, Run_got, operand, operator, reduceAll, closeIdx, constEval, hop, e]
      · rw [ea]; simp only [reduceAll]
  constructor
  · intro hlt
    have hb : ¬ 2 ≤ pp := by omega
    simp only [brackT, hb, decide_false, Bool.false_eq_true, if_false] at ht
    unfold Q
    rw [ht]
    exact key
  · intro hb
    simp only [brackT, hb, decide_true, if_true] at ht
    exact .brack ht (by simp only [level, binOf_store, hs, if_true, hb]) key

theorem modToks_other {t : Nat} (ht : ¬ (t = 1 ∨ t = 2)) (a d : Option Nat) : modToks t a d = [] := by
  unfold modToks
  split <;> first | rfl | (exfalso; omega)

/-- Every printed expression. -/
theorem exact {d : DNode} (h : Made d) : ∀ pp s, format d pp = some s → Q d pp ∧ (2 ≤ pp → R d pp) := by
  induction h with
  | value v => intro pp s _; have := R.faithful (pp := pp) (.value v) rfl; exact ⟨this.q, fun _ => this⟩
  | var n h => intro pp s _; have := R.faithful (pp := pp) (.var n h) rfl; exact ⟨this.q, fun _ => this⟩
  | varP n p h hc hp ih =>
    intro pp s hs
    simp only [format, Option.map_eq_some_iff] at hs
    obtain ⟨q, hq, rfl⟩ := hs
    have hb := toks_begins_made hp 0 q hq
    have hstuck : Stuck (toks (.varP n p) pp) := by
      intro acc S X
      have e0 : toks (.varP n p) pp ++ X = .name n :: .lparen :: (toks p 0 ++ .rparen :: X) := by simp [toks]
      rw [e0, Run_need]
      have gen : operand S (.name n :: .lparen :: (toks p 0 ++ .rparen :: X)) = none ∨
          operand S (.name n :: .lparen :: (toks p 0 ++ .rparen :: X)) = some (.need (.args n [] none :: S), toks p 0 ++ .rparen :: X) := by
        generalize toks p 0 = l at hb
        cases hb with
        | num k ts h =>
          cases ts with
          | nil =>
            left
            simp only [List.cons_append, List.nil_append, operand]
            rw [if_neg (fun h => hc h.1)]
          | cons t ts => right; cases t <;> first | rfl | exact absurd rfl (h ts)
        | neg | paren | name => right; rfl
      rcases gen with e | e
      · rw [e]; rfl
      · rw [e]
        simp only [Option.bind_some]
        rcases (ih 0 q hq).1 with ⟨h1, -⟩ | ⟨v, lev, h1, -⟩
        · exact h1 _ _ _
        · obtain ⟨x, S', e, -, ea⟩ := h1 acc (.args n [] none :: S) (.rparen :: X) (.inl rfl) trivial
          rw [e]
          exact run_none_of_rparen acc n S x S' v X [] none ea (by simp [finishCall])
    have hnf : ¬ Faithful (.varP n p) := by intro h; cases h
    exact ⟨.inl ⟨hstuck, hnf⟩, fun _ => .inl ⟨hstuck, hnf⟩⟩
  | gvar v s m t a d h =>
    intro pp str hs
    have hr : R (.gvar v s m t a d) pp := by
      by_cases ht : t = 0 ∨ t = 1 ∨ t = 2
      · refine R.faithful (.gvar v s m t a d ?_) rfl
        rcases h with h | h
        · exact .inl h
        · exact .inr ⟨by omega, h.2⟩
      · have hmt := modToks_other (t := t) (by omega) a d
        refine R.closed (v := .gvar v s m) (.atom fun acc S X _ => ?_) ?_ ⟨fun h => ?_, fun h => ?_⟩ rfl
        · simp [toks, hmt, Run_need, Run_got, operand, operator, reduceAll, nextArg, finishCall, constEval]
        · simp only [source]; split <;> rfl
        · rw [source, if_neg (by omega)] at h; cases h
        · cases h with
          | gvar _ _ _ _ _ _ h => rcases h with h | h <;> (exfalso; omega)
    exact ⟨hr.q, fun _ => hr⟩
  | gvarP v s m t a d p h hp ih =>
    intro pp str hs
    obtain ⟨x, hx, -⟩ := reads_mod_made h
    simp only [format, hx, Option.bind_eq_bind, Option.bind_some, Option.bind_eq_some_iff, Option.some.injEq] at hs
    obtain ⟨q, hq, -⟩ := hs
    have hinv : Faithful (.gvarP v s m t a d p) ↔ ModOk t a d ∧ Faithful p := by
      constructor
      · intro h; cases h with | gvarP _ _ _ _ _ _ _ h1 h2 => exact ⟨h1, h2⟩
      · rintro ⟨h1, h2⟩; exact .gvarP _ _ _ _ _ _ _ h1 h2
    have hr : R (.gvarP v s m t a d p) pp := by
      rcases (ih 0 q hq).1 with ⟨h1, h2⟩ | ⟨pv, lev, h1, h2, h3⟩
      · refine .inl ⟨fun acc S X => ?_, fun h => h2 (hinv.1 h).2⟩
        have := h1 acc (.paren :: .args "var" [(none, .value v)] (some "param") :: S)
          (.rparen :: .comma :: .name "shift" :: .assign :: .num s :: .comma :: .name "and" :: .assign :: .num m ::
            (modToks t a d ++ .rparen :: X))
        simp [toks, Run_need, Run_got, operand, operator, reduceAll, nextArg, this]
      · by_cases ht : t = 0
        · have hz : t = 0 ∧ a = none ∧ d = none := h.resolve_right (fun h => h.1 ht)
          obtain ⟨rfl, rfl, rfl⟩ := hz
          refine R.closed (v := .gvarP v s m pv) (.atom fun acc S X _ => ?_) (by simp only [source, if_true, weight, h2]) ?_ rfl
          · obtain ⟨x, S', e, -, ea⟩ := h1 acc (.paren :: .args "var" [(none, .value v)] (some "param") :: S)
              (.rparen :: .comma :: .name "shift" :: .assign :: .num s :: .comma :: .name "and" :: .assign :: .num m :: .rparen :: X)
              (.inl rfl) trivial
            simp [toks, modToks, Run_need, Run_got, operand, operator, reduceAll, nextArg, finishCall, constEval, e, ea]
          · rw [hinv, source, if_pos rfl, Node.gvarP.injEq, h3]
            simp [ModOk]
        · obtain ⟨-, ha, hd⟩ := h.resolve_left (fun h => ht h.1)
          obtain ⟨a, rfl⟩ := Option.isSome_iff_exists.mp ha
          obtain ⟨d, rfl⟩ := Option.isSome_iff_exists.mp hd
          by_cases ht2 : t = 1 ∨ t = 2
          · refine R.closed (v := .gvarDivP v s m t a d pv) (.atom fun acc S X _ => ?_) (by simp only [source, ht, if_false, weight, h2]) ?_ rfl
            · obtain ⟨x, S', e, -, ea⟩ := h1 acc (.paren :: .args "var" [(none, .value v)] (some "param") :: S)
                (.rparen :: .comma :: .name "shift" :: .assign :: .num s :: .comma :: .name "and" :: .assign :: .num m ::
                  (modToks t (some a) (some d) ++ .rparen :: X)) (.inl rfl) trivial
              rcases ht2 with rfl | rfl <;> (simp [modToks] at e) <;>
                simp [toks, modToks, Run_need, Run_got, operand, operator, reduceAll, nextArg, finishCall, constEval, e, ea]
            · rw [hinv, source, if_neg ht]
              simp only [Node.gvarDivP.injEq, h3, Option.getD_some, true_and]
              simp [ModOk, ht2]
          · have hmt := modToks_other ht2 (some a) (some d)
            refine R.closed (v := .gvarP v s m pv) (.atom fun acc S X _ => ?_) (by simp only [source, ht, if_false, weight, h2]) ?_ rfl
            · obtain ⟨x, S', e, -, ea⟩ := h1 acc (.paren :: .args "var" [(none, .value v)] (some "param") :: S)
                (.rparen :: .comma :: .name "shift" :: .assign :: .num s :: .comma :: .name "and" :: .assign :: .num m :: .rparen :: X)
                (.inl rfl) trivial
              simp [toks, hmt, Run_need, Run_got, operand, operator, reduceAll, nextArg, finishCall, constEval, e, ea]
            · rw [hinv, source, if_neg ht]
              simp only [reduceCtorEq, false_iff, ModOk]
              omega
    exact ⟨hr.q, fun _ => hr⟩
  | temp r h ih =>
    intro pp s hs
    simp only [format, Option.map_eq_some_iff] at hs
    obtain ⟨q, hq, rfl⟩ := hs
    have hinv : Faithful (.temp r) ↔ Faithful r := ⟨fun h => by cases h; assumption, .temp r⟩
    have hr : R (.temp r) pp := by
      rcases (ih 0 q hq).1 with ⟨h1, h2⟩ | ⟨v, lev, h1, h2, h3⟩
      · refine .inl ⟨fun acc S X => ?_, fun h => h2 (hinv.1 h)⟩
        have := h1 acc (.idx "TEMP" :: S) (.rbracket :: X)
        simp [toks, Run_need, operand, this]
      · refine R.closed (v := .temp v) (.atom fun acc S X hX => ?_) (by simp only [source, weight, h2]) ?_ rfl
        · obtain ⟨x, S', e, -, ea⟩ := h1 acc (.idx "TEMP" :: S) (.rbracket :: X) (.inl rfl) trivial
          simp [toks, Run_need, Run_got, operand, operator, reduceAll, e, ea, closeIdx_read _ _ _ hX, storage]
        · rw [hinv, source, Node.temp.injEq, h3]
    exact ⟨hr.q, fun _ => hr⟩
  | perm r h ih =>
    intro pp s hs
    simp only [format, Option.map_eq_some_iff] at hs
    obtain ⟨q, hq, rfl⟩ := hs
    have hinv : Faithful (.perm r) ↔ Faithful r := ⟨fun h => by cases h; assumption, .perm r⟩
    have hr : R (.perm r) pp := by
      rcases (ih 0 q hq).1 with ⟨h1, h2⟩ | ⟨v, lev, h1, h2, h3⟩
      · refine .inl ⟨fun acc S X => ?_, fun h => h2 (hinv.1 h)⟩
        have := h1 acc (.idx "PERM" :: S) (.rbracket :: X)
        simp [toks, Run_need, operand, this]
      · refine R.closed (v := .perm v) (.atom fun acc S X hX => ?_) (by simp only [source, weight, h2]) ?_ rfl
        · obtain ⟨x, S', e, -, ea⟩ := h1 acc (.idx "PERM" :: S) (.rbracket :: X) (.inl rfl) trivial
          simp [toks, Run_need, Run_got, operand, operator, reduceAll, e, ea, closeIdx_read _ _ _ hX, storage]
        · rw [hinv, source, Node.perm.injEq, h3]
    exact ⟨hr.q, fun _ => hr⟩
  | call n =>
    intro pp s _
    have hr : R (.call n) pp := by
      by_cases hn : n < 256
      · exact R.faithful (.call n hn) rfl
      · refine .inl ⟨fun acc S X => ?_, fun h => ?_⟩
        · simp [toks, Run_need, operand, hn]
        · cases h; contradiction
    exact ⟨hr.q, fun _ => hr⟩
  | expr op a b ha hb iha ihb =>
    intro pp s hs
    simp only [format, Option.bind_eq_bind, Option.bind_eq_some_iff] at hs
    obtain ⟨⟨sh, prio, br⟩, ho, x, hx, hs⟩ := hs
    rcases opInfo_cases ho with ⟨o, rfl⟩ | ⟨f, rfl⟩ | ⟨p, rfl⟩ | h8
    · rw [opInfo_bin] at ho
      simp only [Option.some.injEq, Prod.mk.injEq] at ho
      obtain ⟨rfl, rfl, rfl⟩ := ho
      simp only [Option.bind_eq_some_iff, Option.map_eq_some_iff] at hs
      obtain ⟨_, ⟨y, hy, -⟩, -⟩ := hs
      have h3 : 3 ≤ o.prio := by cases o <;> decide
      simp only at hx hy
      have hr := bin_exact o pp ((iha _ _ hx).2 (by omega)) ((ihb _ _ hy).2 (by split <;> omega))
      exact ⟨hr.q, fun _ => hr⟩
    · rw [opInfo_fn] at ho
      simp only [Option.some.injEq, Prod.mk.injEq] at ho
      obtain ⟨rfl, rfl, rfl⟩ := ho
      simp only [Option.bind_eq_some_iff, Option.map_eq_some_iff] at hs
      obtain ⟨_, ⟨y, hy, -⟩, -⟩ := hs
      have hr : R (.expr f.code a b) pp := by
        refine fn_exact (f := f.text) pp ?_ ?_ (toks_begins_made ha _ _ hx) (toks_begins_made hb _ _ hy) (iha _ _ hx).1 (ihb _ _ hy).1 ?_ ?_
        · simp only [level, binOf_fn, fn_not_store, if_false]
        · simp only [toks, opInfo_fn, fnTok_fn]
        · intro o ho
          rw [callOp_fn] at ho
          exact ⟨(Option.some.inj ho).symm, source_fn f a b⟩
        · rw [faithful_fn, callOp_fn]; simp
      exact ⟨hr.q, fun _ => hr⟩
    · rw [opInfo_store] at ho
      simp only [Option.some.injEq, Prod.mk.injEq] at ho
      obtain ⟨rfl, rfl, rfl⟩ := ho
      simp only at hs
      split at hs
      · next r =>
        have hst := store_exact p r pp (iha _ _ hx).1
        refine ⟨?_, hst.2⟩
        by_cases h2 : 2 ≤ pp
        · exact (hst.2 h2).q
        · exact hst.1 (by omega)
      · simp at hs
    · have hnf := not_faithful_op (a := a) (b := b) h8
      rcases h8 with rfl | rfl | h8
      · have e8 : opInfo 8 = some (.infix ['u', '/'], 6, false) := by decide
        rw [e8] at ho
        simp only [Option.some.injEq, Prod.mk.injEq] at ho
        obtain ⟨rfl, rfl, rfl⟩ := ho
        have := udiv_exact (.inl rfl) (b := b) pp ((iha _ _ hx).2 (by decide))
        exact ⟨.inl ⟨this, hnf⟩, fun _ => .inl ⟨this, hnf⟩⟩
      · have e8 : opInfo 9 = some (.infix ['u', '%'], 6, false) := by decide
        rw [e8] at ho
        simp only [Option.some.injEq, Prod.mk.injEq] at ho
        obtain ⟨rfl, rfl, rfl⟩ := ho
        have := udiv_exact (.inr rfl) (b := b) pp ((iha _ _ hx).2 (by decide))
        exact ⟨.inl ⟨this, hnf⟩, fun _ => .inl ⟨this, hnf⟩⟩
      · have e7 : ∃ f, opInfo op = some (.fn f, 7, false) ∧ fnTok f = .name "hasbit" ∧ binOf op = none ∧
            ¬ (op = storeCode false ∨ op = storeCode true) := by
          rcases h8 with rfl | rfl
          · exact ⟨"hasbit".toList, by decide, by decide, by decide, by decide⟩
          · exact ⟨"!hasbit".toList, by decide, by decide, by decide, by decide⟩
        obtain ⟨f, e7, e8, e9, e10⟩ := e7
        rw [e7] at ho
        simp only [Option.some.injEq, Prod.mk.injEq] at ho
        obtain ⟨rfl, rfl, rfl⟩ := ho
        simp only [Option.bind_eq_some_iff, Option.map_eq_some_iff] at hs
        obtain ⟨_, ⟨y, hy, -⟩, -⟩ := hs
        have hcall : callOp "hasbit" = none := by decide
        have hr : R (.expr op a b) pp := by
          refine fn_exact (f := "hasbit") pp ?_ ?_ (toks_begins_made ha _ _ hx) (toks_begins_made hb _ _ hy) (iha _ _ hx).1 (ihb _ _ hy).1 ?_ ?_
          · simp only [level, e9, e10, if_false]
          · simp only [toks, e7, e8]
          · intro o ho; rw [hcall] at ho; cases ho
          · rw [hcall]; simp [hnf]
        exact ⟨hr.q, fun _ => hr⟩

end Grf.Syntax
