import Verif.Proofs.SyntaxParse
/-!
# What the parser reads from the text of any expression

A printed expression is a sequence of closed parts (operands, calls, brackets) with operators between them. The grammar reads the
sequence as the one tree which agrees with its precedences; the printed expression is another tree over the same sequence. They are
the same value only if they are the same tree.
-/
namespace Grf.Syntax

/-! ### Trees over a sequence of operators and closed parts -/

/-- A closed part: its tokens, what the parser reads, and what was printed. -/
structure Leaf where
  l : List Tok
  v : Node
  src : Node

inductive Tree where
  | leaf (x : Leaf)
  | node (o : Bin) (a b : Tree)

def Tree.flat : Tree → List (Bin ⊕ Leaf)
  | .leaf x => [.inr x]
  | .node o a b => a.flat ++ .inl o :: b.flat

def itemToks : Bin ⊕ Leaf → List Tok
  | .inl o => [.op o]
  | .inr x => x.l

def Tree.toks (T : Tree) : List Tok := T.flat.flatMap itemToks

def Tree.read : Tree → Node
  | .leaf x => x.v
  | .node o a b => o.node a.read b.read

def Tree.src : Tree → Node
  | .leaf x => x.src
  | .node o a b => o.node a.src b.src

def Tree.level : Tree → Nat
  | .leaf _ => 8
  | .node o _ _ => o.prec

/-- The precedences of the grammar agree with the tree. -/
def Tree.Good : Tree → Prop
  | .leaf _ => True
  | .node o a b => a.Good ∧ b.Good ∧ o.prec ≤ a.level ∧ o.prec < b.level

def Bin.isCmp : Bin → Bool
  | .lt | .gt | .le | .ge | .eq | .neq => true
  | _ => false

def Tree.NoCmp (T : Tree) : Prop := ∀ o, Sum.inl o ∈ T.flat → o.isCmp = false

/-- Comparisons are not below other operators. -/
def Tree.Clean : Tree → Prop
  | .leaf _ => True
  | .node o a b => a.Clean ∧ b.Clean ∧ (o.isCmp = false → a.NoCmp ∧ b.NoCmp)

theorem toks_node (o : Bin) (a b : Tree) : (Tree.node o a b).toks = a.toks ++ .op o :: b.toks := by
  simp [Tree.toks, Tree.flat, itemToks]

theorem level_le (T : Tree) : 1 ≤ T.level ∧ T.level ≤ 8 := by
  cases T with
  | leaf x => simp [Tree.level]
  | node o a b => have := o.prec_pos; have := o.prec_le; simp only [Tree.level]; omega

theorem noCmp_node {o : Bin} {a b : Tree} : (Tree.node o a b).NoCmp ↔ o.isCmp = false ∧ a.NoCmp ∧ b.NoCmp := by
  constructor
  · intro h
    exact ⟨h o (by simp [Tree.flat]), fun p hp => h p (by simp [Tree.flat, hp]), fun p hp => h p (by simp [Tree.flat, hp])⟩
  · rintro ⟨h1, h2, h3⟩ p hp
    simp only [Tree.flat, List.mem_append, List.mem_cons] at hp
    rcases hp with hp | hp | hp
    · exact h2 p hp
    · simp only [Sum.inl.injEq] at hp; rw [hp]; exact h1
    · exact h3 p hp

theorem good_noCmp {T : Tree} (h : T.Good) (hl : 2 ≤ T.level) : T.NoCmp := by
  induction T with
  | leaf x => intro o ho; simp [Tree.flat] at ho
  | node o a b iha ihb =>
    obtain ⟨h1, h2, h3, h4⟩ := h
    simp only [Tree.level] at hl
    rw [noCmp_node]
    refine ⟨?_, iha h1 (by omega), ihb h2 (by omega)⟩
    revert hl
    cases o <;> simp [Bin.prec, Bin.isCmp]

theorem good_clean {T : Tree} (h : T.Good) : T.Clean := by
  induction T with
  | leaf x => trivial
  | node o a b iha ihb =>
    obtain ⟨h1, h2, h3, h4⟩ := h
    refine ⟨iha h1, ihb h2, fun hc => ?_⟩
    have : 2 ≤ o.prec := by
      revert hc
      cases o <;> simp [Bin.prec, Bin.isCmp]
    exact ⟨good_noCmp h1 (by omega), good_noCmp h2 (by omega)⟩

/-! ### The tree the grammar reads -/

/-- One more operator with a closed operand at the end. -/
def Tree.insert (o : Bin) (x : Leaf) : Tree → Tree
  | .leaf y => .node o (.leaf y) (.leaf x)
  | .node o1 a b => if o1.prec < o.prec then .node o1 a (b.insert o x) else .node o (.node o1 a b) (.leaf x)

theorem insert_flat (o : Bin) (x : Leaf) (T : Tree) : (T.insert o x).flat = T.flat ++ [.inl o, .inr x] := by
  induction T with
  | leaf y => rfl
  | node o1 a b iha ihb =>
    simp only [Tree.insert]
    split
    · simp only [Tree.flat, ihb]; simp
    · simp only [Tree.flat]

theorem insert_good (o : Bin) (x : Leaf) {T : Tree} (h : T.Good) :
    (T.insert o x).Good ∧ min T.level o.prec ≤ (T.insert o x).level := by
  have hp := o.prec_le
  induction T with
  | leaf y =>
    refine ⟨⟨trivial, trivial, ?_, ?_⟩, ?_⟩ <;> simp only [Tree.insert, Tree.level] <;> omega
  | node o1 a b iha ihb =>
    obtain ⟨h1, h2, h3, h4⟩ := h
    obtain ⟨i1, i2⟩ := ihb h2
    simp only [Tree.insert]
    split
    · next hlt =>
      refine ⟨⟨h1, i1, h3, by omega⟩, by simp only [Tree.level]; omega⟩
    · next hlt =>
      refine ⟨⟨⟨h1, h2, h3, h4⟩, trivial, ?_, ?_⟩, ?_⟩ <;> simp only [Tree.level] <;> omega

theorem append_good (b : Tree) : ∀ (G : Tree) (o : Bin), G.Good → ∃ G' : Tree, G'.Good ∧ G'.flat = G.flat ++ .inl o :: b.flat := by
  induction b with
  | leaf x => intro G o h; exact ⟨G.insert o x, (insert_good o x h).1, by rw [insert_flat]; rfl⟩
  | node o2 b1 b2 ih1 ih2 =>
    intro G o h
    obtain ⟨G1, h1, e1⟩ := ih1 G o h
    obtain ⟨G2, h2, e2⟩ := ih2 G1 o2 h1
    exact ⟨G2, h2, by rw [e2, e1]; simp [Tree.flat]⟩

theorem exists_good (T : Tree) : ∃ G : Tree, G.Good ∧ G.flat = T.flat := by
  induction T with
  | leaf x => exact ⟨.leaf x, trivial, rfl⟩
  | node o a b iha _ =>
    obtain ⟨G, h, e⟩ := iha
    obtain ⟨G', h', e'⟩ := append_good b G o h
    exact ⟨G', h', by rw [e', e]; rfl⟩

/-- The leaves of a tree. -/
def Tree.leaves (T : Tree) (x : Leaf) : Prop := Sum.inr x ∈ T.flat

theorem parses_good {T : Tree} (hg : T.Good) (hl : ∀ x, T.leaves x → Parses x.l x.v 8) : Parses T.toks T.read T.level := by
  induction T with
  | leaf x => simpa [Tree.toks, Tree.flat, itemToks, Tree.read, Tree.level] using hl x (by simp [Tree.leaves, Tree.flat])
  | node o a b iha ihb =>
    obtain ⟨h1, h2, h3, h4⟩ := hg
    rw [toks_node]
    exact Parses.bin o (iha h1 fun x hx => hl x (by simp only [Tree.leaves, Tree.flat] at hx ⊢; simp [hx]))
      (ihb h2 fun x hx => hl x (by simp only [Tree.leaves, Tree.flat] at hx ⊢; simp [hx])) h3 h4

/-- The machine gets over the text of a tree, whatever is on its stack. -/
theorem passes {T : Tree} (hl : ∀ x, T.leaves x → Parses x.l x.v 8) :
    ∀ (acc : List Node) (S : List Frame) (X : List Tok), Stops X → ∃ x S', Run acc (.need S) (T.toks ++ X) = Run acc (.got x S') X := by
  induction T with
  | leaf x =>
    intro acc S X hX
    have hp := topPrec_le S
    obtain ⟨y, S', e, -⟩ := hl x (by simp [Tree.leaves, Tree.flat]) acc S X (.inr (by omega)) hX
    exact ⟨y, S', by simpa [Tree.toks, Tree.flat, itemToks] using e⟩
  | node o a b iha ihb =>
    intro acc S X hX
    obtain ⟨x, S1, e1⟩ := iha (fun x hx => hl x (by simp only [Tree.leaves, Tree.flat] at hx ⊢; simp [hx])) acc S (.op o :: (b.toks ++ X)) trivial
    obtain ⟨y, S2, e2⟩ := ihb (fun x hx => hl x (by simp only [Tree.leaves, Tree.flat] at hx ⊢; simp [hx])) acc
      (.bin (reduceFor o.prec x S1).1 o :: (reduceFor o.prec x S1).2) X hX
    refine ⟨y, S2, ?_⟩
    rw [toks_node]
    have : (a.toks ++ .op o :: b.toks) ++ X = a.toks ++ .op o :: (b.toks ++ X) := by simp
    rw [this, e1, Run_got _ _ _ _ _ (by simp)]
    simp only [operator, Option.bind_some]
    exact e2

/-! ### Different trees over one sequence have different values -/

/-- The number of nodes. -/
def weight : Node → Nat
  | .gvarP _ _ _ p => 1 + weight p
  | .gvarDivP _ _ _ _ _ _ p => 1 + weight p
  | .temp r => 1 + weight r
  | .perm r => 1 + weight r
  | .expr _ a b => 1 + weight a + weight b
  | .assign _ e => 1 + weight e
  | _ => 1

def Bin.cost : Bin → Nat
  | .ge | .eq => 3
  | .lt | .gt | .le | .neq => 5
  | _ => 1

theorem weight_node (o : Bin) (a b : Node) : weight (o.node a b) = o.cost + weight a + weight b := by
  cases o <;> simp [Bin.node, lowerCmp, Cmp.lowering, weight, Bin.cost] <;> omega

theorem Bin.cost_pos (o : Bin) : 1 ≤ o.cost := by cases o <;> decide

def itemWeight : Bin ⊕ Leaf → Nat
  | .inl o => o.cost
  | .inr x => weight x.src

theorem weight_src (T : Tree) : weight T.src = (T.flat.map itemWeight).sum := by
  induction T with
  | leaf x => simp [Tree.src, Tree.flat, itemWeight]
  | node o a b iha ihb => simp only [Tree.src, weight_node, iha, ihb, Tree.flat, List.map_append, List.map_cons, List.sum_append, List.sum_cons, itemWeight]; omega

theorem weight_read {T : Tree} (h : ∀ x, T.leaves x → weight x.v = weight x.src) : weight T.read = (T.flat.map itemWeight).sum := by
  induction T with
  | leaf x => simpa [Tree.read, Tree.flat, itemWeight] using h x (by simp [Tree.leaves, Tree.flat])
  | node o a b iha ihb =>
    simp only [Tree.read, weight_node, iha (fun x hx => h x (by simp only [Tree.leaves, Tree.flat] at hx ⊢; simp [hx])),
      ihb (fun x hx => h x (by simp only [Tree.leaves, Tree.flat] at hx ⊢; simp [hx])), Tree.flat, List.map_append, List.map_cons,
      List.sum_append, List.sum_cons, itemWeight]
    omega

/-- The operator and the operands of an expression, for comparisons and for other operators. -/
theorem node_inj {o o' : Bin} {a b a' b' : Node} (hc : o.isCmp = o'.isCmp) (h : o.node a b = o'.node a' b') : o = o' ∧ a = a' ∧ b = b' := by
  cases o <;> cases o' <;>
    first
    | (simp [Bin.isCmp] at hc; done)
    | (simp [Bin.node, lowerCmp, Cmp.lowering, OP_CMP, OP_MIN, OP_XOR, OP_SUB, OP_MAX, OP_AND] at h; done)
    | (simp [Bin.node, lowerCmp, Cmp.lowering] at h; exact ⟨rfl, h⟩)

theorem unique (G : Tree) : ∀ (T : Tree), G.flat = T.flat → G.Clean → T.Clean → (∀ x, T.leaves x → weight x.v = weight x.src) →
    G.read = T.src → G = T ∧ ∀ x, T.leaves x → x.v = x.src := by
  induction G with
  | leaf x =>
    intro T hf _ _ _ he
    cases T with
    | leaf y =>
      simp only [Tree.flat, List.cons.injEq, Sum.inr.injEq, and_true] at hf
      subst hf
      refine ⟨rfl, fun y hy => ?_⟩
      simp only [Tree.leaves, Tree.flat, List.mem_singleton, Sum.inr.injEq] at hy
      subst hy
      exact he
    | node o a b =>
      have : Sum.inl o ∈ (Tree.leaf x).flat := by rw [hf]; simp [Tree.flat]
      simp [Tree.flat] at this
  | node o a b iha ihb =>
    intro T hf hg ht hw he
    cases T with
    | leaf y =>
      have : Sum.inl o ∈ (Tree.leaf y).flat := by rw [← hf]; simp [Tree.flat]
      simp [Tree.flat] at this
    | node o' a' b' =>
      have hc : o.isCmp = o'.isCmp := by
        cases h1 : o.isCmp with
        | false =>
          have := (noCmp_node (o := o) (a := a) (b := b)).2 ⟨h1, hg.2.2 h1⟩
          exact (this o' (by rw [hf]; simp [Tree.flat])).symm
        | true =>
          cases h2 : o'.isCmp with
          | true => rfl
          | false =>
            have := (noCmp_node (o := o') (a := a') (b := b')).2 ⟨h2, ht.2.2 h2⟩
            rw [this o (by rw [← hf]; simp [Tree.flat])] at h1
            cases h1
      obtain ⟨rfl, ha, hb⟩ := node_inj hc he
      have hwG : ∀ x, (Tree.node o a b).leaves x → weight x.v = weight x.src := by
        intro x hx; refine hw x ?_; simp only [Tree.leaves] at hx ⊢; rw [← hf]; exact hx
      have hwa := weight_read (T := a) (fun x hx => hwG x (by simp only [Tree.leaves, Tree.flat] at hx ⊢; simp [hx]))
      have hwa' := weight_src a'
      rw [ha, hwa'] at hwa
      simp only [Tree.flat] at hf
      have hpos : a.flat = a'.flat ∧ b.flat = b'.flat := by
        have hcp := o.cost_pos
        rcases List.append_eq_append_iff.1 hf with ⟨as, e1, e2⟩ | ⟨as, e1, e2⟩
        · cases as with
          | nil => simp at e1 e2; exact ⟨e1.symm, e2⟩
          | cons i as =>
            simp only [List.cons_append, List.cons.injEq] at e2
            rw [e1, ← e2.1] at hwa
            simp only [List.map_append, List.map_cons, List.sum_append, List.sum_cons, itemWeight] at hwa
            omega
        · cases as with
          | nil => simp at e1 e2; exact ⟨e1, e2.symm⟩
          | cons i as =>
            simp only [List.cons_append, List.cons.injEq] at e2
            rw [e1, ← e2.1] at hwa
            simp only [List.map_append, List.map_cons, List.sum_append, List.sum_cons, itemWeight] at hwa
            omega
      obtain ⟨e1, k1⟩ := iha a' hpos.1 hg.1 ht.1 (fun x hx => hw x (by simp only [Tree.leaves, Tree.flat] at hx ⊢; simp [hx])) ha
      obtain ⟨e2, k2⟩ := ihb b' hpos.2 hg.2.1 ht.2.1 (fun x hx => hw x (by simp only [Tree.leaves, Tree.flat] at hx ⊢; simp [hx])) hb
      refine ⟨by rw [e1, e2], fun x hx => ?_⟩
      simp only [Tree.leaves, Tree.flat, List.mem_append, List.mem_cons, reduceCtorEq, false_or] at hx
      exact hx.elim (k1 x) (k2 x)

theorem read_of_leaves {T : Tree} (h : ∀ x, T.leaves x → x.v = x.src) : T.read = T.src := by
  induction T with
  | leaf x => exact h x (by simp [Tree.leaves, Tree.flat])
  | node o a b iha ihb =>
    simp only [Tree.read, Tree.src]
    rw [iha (fun x hx => h x (by simp only [Tree.leaves, Tree.flat] at hx ⊢; simp [hx])),
      ihb (fun x hx => h x (by simp only [Tree.leaves, Tree.flat] at hx ⊢; simp [hx]))]

/-- What is read from the text of a tree, and when it is the tree itself. -/
theorem tree_read (T : Tree) (hl : ∀ x, T.leaves x → Parses x.l x.v 8 ∧ weight x.v = weight x.src) (hc : T.Clean) :
    ∃ v lev, Parses T.toks v lev ∧ weight v = weight T.src ∧ (v = T.src ↔ (∀ x, T.leaves x → x.v = x.src) ∧ T.Good) ∧
      (T.Good → lev = T.level) := by
  by_cases hg : T.Good
  · refine ⟨_, _, parses_good hg fun x hx => (hl x hx).1, ?_, ⟨fun h => ⟨?_, hg⟩, fun h => read_of_leaves h.1⟩, fun _ => rfl⟩
    · rw [weight_read fun x hx => (hl x hx).2, weight_src]
    · exact (unique T T rfl hc hc (fun x hx => (hl x hx).2) h).2
  · obtain ⟨G, hG, e⟩ := exists_good T
    have hlG : ∀ x, G.leaves x → T.leaves x := by intro x hx; simp only [Tree.leaves] at hx ⊢; rw [← e]; exact hx
    have ht : G.toks = T.toks := by simp only [Tree.toks, e]
    refine ⟨_, _, ht ▸ parses_good hG fun x hx => (hl x (hlG x hx)).1, ?_, ⟨fun h => ?_, fun h => absurd h.2 hg⟩, fun h => absurd h hg⟩
    · rw [weight_read fun x hx => (hl x (hlG x hx)).2, weight_src, e]
    · exact absurd ((unique G T e (good_clean hG) hc (fun x hx => (hl x hx).2) h).1 ▸ hG) hg

end Grf.Syntax
