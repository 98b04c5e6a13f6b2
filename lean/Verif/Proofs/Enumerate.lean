import Verif.Model.Container
import Verif.Proofs.Refs1
/-! # Numbering and scheduling of real sprites -/
namespace Grf

/-- Resource actions of the list, in order. -/
def resOf : List Item → List Nat
  | [] => []
  | .action _ :: r => resOf r
  | .res o :: r => o :: resOf r

/-- Assign consecutive ids. -/
def assignSeq : List Nat → Nat → (Nat → Option Nat) → (Nat → Option Nat)
  | [], _, ids => ids
  | o :: r, n, ids => assignSeq r (n + 1) (upd ids o (some n))

theorem assignSeq_append (a b : List Nat) (n : Nat) (ids : Nat → Option Nat) :
    assignSeq (a ++ b) n ids = assignSeq b (n + a.length) (assignSeq a n ids) := by
  induction a generalizing n ids with
  | nil => rfl
  | cons o a ih =>
    simp only [List.cons_append, assignSeq, List.length_cons, ih]
    congr 1
    omega

def plain (W : ResWorld) (l : List Nat) : List Nat := l.filter fun o => (W o).files = []
def loaded (W : ResWorld) (l : List Nat) : List Nat := l.filter fun o => (W o).files ≠ []

theorem enumFirst_fold (W : ResWorld) (items : List Item) (st : EnumSt) :
    items.foldl (enumFirst W) st =
      { next := st.next + (plain W (resOf items)).length,
        unordered := st.unordered ++ (loaded W (resOf items)).map (fun o => (o, (W o).files)),
        ordered := st.ordered ++ plain W (resOf items),
        ids := assignSeq (plain W (resOf items)) st.next st.ids } := by
  induction items generalizing st with
  | nil => simp [resOf, plain, loaded, assignSeq]
  | cons it r ih =>
    rw [List.foldl_cons, ih]
    cases it with
    | action d => simp [enumFirst, resOf]
    | res o =>
      by_cases h : (W o).files = []
      · simp [enumFirst, resOf, plain, loaded, h, assignSeq]
        omega
      · simp [enumFirst, resOf, plain, loaded, h]

theorem mem_insertBy (key : Nat → Int) (x y : Nat) (l : List Nat) : y ∈ insertBy key x l ↔ y = x ∨ y ∈ l := by
  induction l with
  | nil => simp [insertBy]
  | cons a l ih =>
    simp only [insertBy]
    split
    · simp
    · simp only [List.mem_cons, ih]
      constructor
      · rintro (h | h | h) <;> simp [h]
      · rintro (h | h | h) <;> simp [h]

theorem insertBy_perm (key : Nat → Int) (x : Nat) (l : List Nat) : (insertBy key x l).Perm (x :: l) := by
  induction l with
  | nil => exact .refl _
  | cons a l ih =>
    simp only [insertBy]
    split
    · exact .refl _
    · exact (ih.cons a).trans (.swap x a l)

theorem sortBy_perm (key : Nat → Int) (l : List Nat) : (sortBy key l).Perm l := by
  induction l with
  | nil => exact .refl _
  | cons a l ih => exact (insertBy_perm key a _).trans (ih.cons a)

theorem imgIndex_fold (o : Nat) (fs : List Nat) (d : Nat → List Nat) (f x : Nat)
    (h : x ∈ (fs.foldl (fun d f => upd d f (d f ++ [o])) d) f) : x ∈ d f ∨ x = o := by
  induction fs generalizing d with
  | nil => exact .inl h
  | cons g fs ih =>
    rcases ih _ h with h1 | h1
    · simp only [] at h1
      by_cases e : f = g
      · subst e
        rw [upd_same, List.mem_append, List.mem_singleton] at h1
        exact h1
      · rw [upd_ne _ _ _ _ e] at h1
        exact .inl h1
    · exact .inr h1

theorem indexSprite_fold (l : List (Nat × List Nat)) (st : OrdSt) :
    (l.foldl indexSprite st).order = st.order ++ l.map (·.1) ∧
    (∀ f x, x ∈ (l.foldl indexSprite st).imgIndex f → x ∈ st.imgIndex f ∨ x ∈ l.map (·.1)) := by
  induction l generalizing st with
  | nil => simp
  | cons p l ih =>
    obtain ⟨h1, h2⟩ := ih (indexSprite st p)
    rw [List.foldl_cons]
    refine ⟨by rw [h1]; simp [indexSprite], ?_⟩
    intro f x hx
    rcases h2 f x hx with h | h
    · rcases imgIndex_fold p.1 p.2 st.imgIndex f x h with h | h
      · exact .inl h
      · right; simp [h]
    · right; simp only [List.map_cons, List.mem_cons]; exact .inr h

theorem setPos_spec (order : List Nat) : ∀ (l pre : List Nat) (pos : Nat → Nat) (x : Nat), order = pre ++ l →
    (x ∉ l → setPos order pre.length l pos x = pos x) ∧
    (x ∈ l → order.getD (setPos order pre.length l pos x) 0 = x) := by
  intro l
  induction l with
  | nil => intro pre pos x _; simp [setPos]
  | cons a l ih =>
    intro pre pos x e
    have := ih (pre ++ [a]) (upd pos a pre.length) x (by simp [e])
    simp only [List.length_append, List.length_singleton] at this
    simp only [setPos]
    refine ⟨?_, ?_⟩
    · intro h
      simp only [List.mem_cons, not_or] at h
      rw [this.1 h.2, upd_ne _ _ _ _ h.1]
    · intro h
      by_cases hx : x ∈ l
      · exact this.2 hx
      · have hxa : x = a := by simpa [hx] using h
        subst hxa
        rw [this.1 hx, upd_same, e]
        simp

/-- The reordering loop stops at once: it compares the priority of the sprite with itself. -/
theorem findPos_self {order : List Nat} {prio : Nat → Int} {x : Nat} (i : Nat) {p : Int} {old : Nat}
    (h1 : order.getD old 0 = x) (h2 : prio x = p) : findPos order prio i p old = old := by
  cases old with
  | zero => rfl
  | succ k =>
    simp only [findPos]
    rw [h1, h2]
    simp

/-- `sprite_pos` is the inverse of `sprite_order`. -/
structure OrdOk (order : List Nat) (st : OrdSt) : Prop where
  ordEq : st.order = order
  pos : ∀ x ∈ order, order.getD (st.pos x) 0 = x
  img : ∀ f, ∀ x ∈ st.imgIndex f, x ∈ order

theorem bump_ok {order : List Nat} {st : OrdSt} (h : OrdOk order st) (i x : Nat) (hx : x ∈ order) :
    OrdOk order (bump i st x) := by
  unfold bump
  have : findPos st.order (upd st.prio x (st.prio x - 1)) i (st.prio x - 1) (st.pos x) = st.pos x :=
    findPos_self (x := x) i (by rw [h.ordEq]; exact h.pos x hx) (by rw [upd_same])
  simp only [this, ne_eq, not_true_eq_false, if_false]
  exact ⟨h.ordEq, h.pos, h.img⟩

theorem bump_fold_ok {order : List Nat} (i : Nat) : ∀ (l : List Nat) (st : OrdSt), OrdOk order st →
    (∀ x ∈ l, x ∈ order) → OrdOk order (l.foldl (bump i) st) := by
  intro l
  induction l with
  | nil => intro st h _; exact h
  | cons a l ih =>
    intro st h hl
    exact ih _ (bump_ok h i a (hl a (by simp))) (fun x hx => hl x (by simp [hx]))

/-- Effect of the files of one sprite. -/
theorem schedFile_fold {order : List Nat} (i sid : Nat) : ∀ (fs : List Nat) (st : SchedSt), OrdOk order st.ord →
    (∀ f ∈ st.loadFiles sid, (st.lastUse.lookup f).isSome) → (st.loadFiles sid).Nodup →
    (st.lastUse.map (·.1)).Nodup →
    let st' := fs.foldl (schedFile i sid) st
    OrdOk order st'.ord ∧ st'.next = st.next ∧ st'.ordered = st.ordered ∧ st'.ids = st.ids ∧
    (∀ f, st'.lastUse.lookup f = if f ∈ fs then some sid else st.lastUse.lookup f) ∧
    (∀ s, s ≠ sid → st'.loadFiles s = st.loadFiles s) ∧
    (∀ f, f ∈ st'.loadFiles sid ↔ f ∈ st.loadFiles sid ∨ (f ∈ fs ∧ st.lastUse.lookup f = none)) ∧
    (st'.loadFiles sid).Nodup ∧ (st'.lastUse.map (·.1)).Nodup := by
  intro fs
  induction fs with
  | nil => intro st h1 _ h3 h4; simp [h1, h3, h4]
  | cons g fs ih =>
    intro st h1 h2 h3 h4
    simp only [List.foldl_cons]
    have hload : (schedFile i sid st g).loadFiles =
        if (st.lastUse.lookup g).isNone then upd st.loadFiles sid (st.loadFiles sid ++ [g]) else st.loadFiles := rfl
    have hlu : (schedFile i sid st g).lastUse = dictSet st.lastUse g sid := rfl
    have hlook : ∀ f, (schedFile i sid st g).lastUse.lookup f = if f = g then some sid else st.lastUse.lookup f := by
      intro f; rw [hlu, lookup_dictSet]
    have hmem : ∀ f, f ∈ (schedFile i sid st g).loadFiles sid ↔
        f ∈ st.loadFiles sid ∨ (f = g ∧ st.lastUse.lookup g = none) := by
      intro f
      rw [hload]
      cases hg : st.lastUse.lookup g with
      | none => simp [upd_same]
      | some v => simp
    have hnd : ((schedFile i sid st g).loadFiles sid).Nodup := by
      rw [hload]
      cases hg : st.lastUse.lookup g with
      | none =>
        simp only [Option.isNone_none, if_true, upd_same]
        rw [List.nodup_append]
        refine ⟨h3, by simp, ?_⟩
        intro a ha b hb e
        have hb' : b = g := by simpa using hb
        have := h2 a ha
        rw [e, hb', hg] at this
        simp at this
      | some v => simpa using h3
    have := ih (schedFile i sid st g) (bump_fold_ok i _ _ h1 (h1.img g)) ?_ hnd ?_
    · obtain ⟨a1, a2, a3, a4, a5, a6, a7, a8, a9⟩ := this
      refine ⟨a1, a2, a3, a4, ?_, ?_, ?_, a8, a9⟩
      · intro f
        rw [a5, hlook]
        by_cases e : f ∈ fs
        · simp [e]
        · by_cases e' : f = g <;> simp [e, e']
      · intro s hs
        rw [a6 s hs, hload]
        split
        · rw [upd_ne _ _ _ _ hs]
        · rfl
      · intro f
        rw [a7, hmem, hlook]
        by_cases e' : f = g
        · subst e'
          by_cases hn : st.lastUse.lookup f = none
          · simp [hn]
          · simp [hn]
        · simp only [e', false_and, or_false, if_false, List.mem_cons, false_or]
    · intro f hf
      rw [hlook]
      rcases (hmem f).1 hf with h | h
      · split
        · rfl
        · exact h2 f h
      · simp [h.1]
    · rw [hlu, keys_dictSet]
      split
      · exact h4
      · rename_i hni
        rw [List.nodup_append]
        refine ⟨h4, by simp, ?_⟩
        intro a ha b hb e
        have hb' : b = g := by simpa using hb
        rw [e, hb'] at ha
        exact hni ha

/-- State of the schedule after the sprites `P` (no sprite twice). -/
structure SchedOk (W : ResWorld) (order P : List Nat) (n : Nat) (pre : List Nat) (ids0 : Nat → Option Nat)
    (st : SchedSt) : Prop where
  ord : OrdOk order st.ord
  next : st.next = n + P.length
  ordered : st.ordered = pre ++ P
  ids : st.ids = assignSeq P n ids0

/-- What is known about loads and last uses after the sprites `P`, provided none occurs twice. -/
structure LoadOk (W : ResWorld) (P : List Nat) (st : SchedSt) : Prop where
  last : ∀ f, st.lastUse.lookup f = P.reverse.find? (fun s => f ∈ (W s).files)
  loadMem : ∀ P1 s P2, P = P1 ++ s :: P2 → ∀ f, f ∈ st.loadFiles s ↔ f ∈ (W s).files ∧ ∀ t ∈ P1, f ∉ (W t).files
  loadOut : ∀ s, s ∉ P → st.loadFiles s = []
  loadNodup : ∀ s, (st.loadFiles s).Nodup
  lastNodup : (st.lastUse.map (·.1)).Nodup

theorem find_isSome_iff {P : List Nat} {p : Nat → Bool} : (P.reverse.find? p).isSome = true ↔ ∃ s ∈ P, p s = true := by
  rw [List.find?_isSome]
  simp

theorem schedLoop_ids {W : ResWorld} {order pre : List Nat} {n : Nat} {ids0 : Nat → Option Nat} :
    ∀ (Q P : List Nat) (st : SchedSt), order = P ++ Q → SchedOk W order P n pre ids0 st →
    SchedOk W order order n pre ids0 (schedLoop W Q.length P.length st) := by
  intro Q
  induction Q with
  | nil =>
    intro P st e h
    simp only [List.append_nil] at e
    subst e
    exact h
  | cons s Q ih =>
    intro P st e h
    simp only [List.length_cons, schedLoop]
    have hs : st.ord.order.getD P.length 0 = s := by rw [h.ord.ordEq, e]; simp
    rw [hs]
    have := ih (P ++ [s]) (st := (W s).files.foldl (schedFile P.length s)
      { st with ordered := st.ordered ++ [s], ids := upd st.ids s (some st.next), next := st.next + 1 }) (by simp [e]) ?_
    · simpa using this
    · have key : ∀ (fs : List Nat) (st : SchedSt), OrdOk order st.ord →
          let st' := fs.foldl (schedFile P.length s) st
          OrdOk order st'.ord ∧ st'.next = st.next ∧ st'.ordered = st.ordered ∧ st'.ids = st.ids := by
        intro fs
        induction fs with
        | nil => intro st h; exact ⟨h, rfl, rfl, rfl⟩
        | cons g fs ihf =>
          intro st h
          obtain ⟨a, b, c, d⟩ := ihf (schedFile P.length s st g) (bump_fold_ok _ _ _ h (h.img g))
          exact ⟨a, b, c, d⟩
      obtain ⟨a, b, c, d⟩ := key (W s).files
        { st with ordered := st.ordered ++ [s], ids := upd st.ids s (some st.next), next := st.next + 1 } h.ord
      refine ⟨a, ?_, ?_, ?_⟩
      · rw [b]; simp [h.next]; omega
      · rw [c]; simp [h.ordered]
      · rw [d, assignSeq_append]
        simp [assignSeq, h.ids, h.next]

theorem schedLoop_loads {W : ResWorld} {order : List Nat} (hnd : order.Nodup) :
    ∀ (Q P : List Nat) (st : SchedSt), order = P ++ Q → OrdOk order st.ord → LoadOk W P st →
    LoadOk W order (schedLoop W Q.length P.length st) := by
  intro Q
  induction Q with
  | nil =>
    intro P st e _ h
    simp only [List.append_nil] at e
    subst e
    exact h
  | cons s Q ih =>
    intro P st e ho h
    simp only [List.length_cons, schedLoop]
    have hs : st.ord.order.getD P.length 0 = s := by rw [ho.ordEq, e]; simp
    rw [hs]
    have hsP : s ∉ P := by
      rw [e, List.nodup_append] at hnd
      intro hm
      exact hnd.2.2 s hm s (by simp) rfl
    have hl0 := h.loadOut s hsP
    obtain ⟨a1, _, _, _, a5, a6, a7, a8, a9⟩ := schedFile_fold (order := order) P.length s (W s).files
      { st with ordered := st.ordered ++ [s], ids := upd st.ids s (some st.next), next := st.next + 1 } ho
      (by intro f hf; simp [hl0] at hf) (by simp [hl0]) h.lastNodup
    simp only [hl0, List.not_mem_nil, false_or] at a7
    have := ih (P ++ [s]) (st := (W s).files.foldl (schedFile P.length s)
      { st with ordered := st.ordered ++ [s], ids := upd st.ids s (some st.next), next := st.next + 1 }) (by simp [e]) a1 ?_
    · simpa using this
    · refine ⟨?_, ?_, ?_, ?_, a9⟩
      · intro f
        rw [a5]
        simp only [List.reverse_append, List.reverse_cons, List.reverse_nil, List.nil_append, List.cons_append,
          List.find?_cons]
        by_cases hf : f ∈ (W s).files
        · simp [hf]
        · simp [hf, h.last]
      · intro P1 t P2 e' f
        by_cases ht : t = s
        · subst ht
          have : P2 = [] ∧ P1 = P := by
            rcases List.eq_nil_or_concat P2 with r | ⟨r, z, rfl⟩
            · subst r
              have := List.append_inj' e' rfl
              exact ⟨rfl, this.1.symm⟩
            · exfalso
              have e2 : P ++ [t] = (P1 ++ t :: r) ++ [z] := by simpa using e'
              have := (List.append_inj' e2 rfl).1
              exact hsP (by rw [this]; simp)
          rw [this.2, a7, h.last]
          simp
        · have : ∃ P3, P2 = P3 ++ [s] ∧ P = P1 ++ t :: P3 := by
            rcases List.eq_nil_or_concat P2 with r | ⟨r, z, rfl⟩
            · subst r
              have := (List.append_inj' e' rfl).2
              simp at this
              exact absurd this.symm ht
            · have e2 : P ++ [s] = (P1 ++ t :: r) ++ [z] := by simpa using e'
              have := List.append_inj' e2 rfl
              simp at this
              exact ⟨r, by simp [this.2], this.1⟩
          obtain ⟨P3, _, hP⟩ := this
          rw [a6 t ht]
          exact h.loadMem P1 t P3 hP f
      · intro t ht
        simp only [List.mem_append, List.mem_singleton, not_or] at ht
        rw [a6 t ht.2]
        exact h.loadOut t ht.1
      · intro t
        by_cases ht : t = s
        · subst ht; exact a8
        · rw [a6 t ht]; exact h.loadNodup t

end Grf
