/-!
# Which sprites a set number means in a file

A small specification, independent of the library: an action 1 in the file announces `count` sets of `size` sprites each for a feature,
numbered from `first`; the sprites follow it immediately. A later action that mentions set `i` of that feature gets the sprites of the
last announcement which covers `i`.
-/
namespace Spec

/-- What stands in the file, as far as sprite sets go. -/
inductive Kind where
  /-- an action 1: `count` sets of `size` sprites for `feature`, the first of which has number `first` -/
  | sets (feature first count size : Nat)
  /-- a sprite -/
  | sprite
  /-- anything else -/
  | other
deriving DecidableEq, Repr

/-- `x` announces set `i` of the feature. -/
def Announces (kind : Nat → Kind) (feature i x : Nat) : Prop :=
  ∃ first count size, kind x = .sets feature first count size ∧ first ≤ i ∧ i < first + count

/-- After the items `before` have been read, set `i` of the feature consists of these sprites. -/
def SetIs (kind : Nat → Kind) (before : List Nat) (feature i : Nat) (sprites : List Nat) : Prop :=
  ∃ l1 x reals l2 first count size,
    before = l1 ++ x :: (reals ++ l2) ∧
    kind x = .sets feature first count size ∧ first ≤ i ∧ i < first + count ∧
    reals.length = count * size ∧ (∀ r ∈ reals, kind r = .sprite) ∧
    (∀ y ∈ l2, ¬ Announces kind feature i y) ∧
    sprites = (reals.drop ((i - first) * size)).take size

/-- The action `u` of the file, mentioning set `i` of the feature, gets these sprites. -/
def Draws (kind : Nat → Kind) (file : List Nat) (u feature i : Nat) (sprites : List Nat) : Prop :=
  ∃ before after, file = before ++ u :: after ∧ u ∉ before ∧ SetIs kind before feature i sprites

/-- The set has one meaning only. -/
theorem SetIs.unique {kind : Nat → Kind} {before : List Nat} {f i : Nat} {s t : List Nat}
    (h : SetIs kind before f i s) (h' : SetIs kind before f i t) : s = t := by
  obtain ⟨l1, x, reals, l2, first, count, size, e, hk, h1, h2, hl, hr, hn, rfl⟩ := h
  obtain ⟨m1, y, reals', m2, first', count', size', e', hk', h1', h2', hl', hr', hn', rfl⟩ := h'
  have ax : Announces kind f i x := ⟨_, _, _, hk, h1, h2⟩
  have ay : Announces kind f i y := ⟨_, _, _, hk', h1', h2'⟩
  have key : ∀ (l1 m1 : List Nat) (x y : Nat) (ra rb l2 m2 : List Nat), l1 ++ x :: (ra ++ l2) = m1 ++ y :: (rb ++ m2) →
      Announces kind f i x → Announces kind f i y → (∀ z ∈ ra, kind z = .sprite) → (∀ z ∈ rb, kind z = .sprite) →
      (∀ z ∈ l2, ¬ Announces kind f i z) → (∀ z ∈ m2, ¬ Announces kind f i z) → x = y ∧ ra ++ l2 = rb ++ m2 := by
    intro l1 m1 x y ra rb l2 m2 e ax ay h1 h2 h3 h4
    have none' : ∀ (r l : List Nat), (∀ z ∈ r, kind z = .sprite) → (∀ z ∈ l, ¬ Announces kind f i z) →
        ∀ z ∈ r ++ l, ¬ Announces kind f i z := by
      intro r l hr hl z hz
      rcases List.mem_append.1 hz with hz | hz
      · rintro ⟨_, _, _, hk, -⟩
        rw [hr z hz] at hk; cases hk
      · exact hl z hz
    have n1 := none' ra l2 h1 h3
    have n2 := none' rb m2 h2 h4
    generalize ra ++ l2 = A at e n1
    generalize rb ++ m2 = B at e n2
    induction l1 generalizing m1 with
    | nil =>
      cases m1 with
      | nil => simpa using e
      | cons z m1 =>
        simp only [List.nil_append, List.cons_append, List.cons.injEq] at e
        exact absurd ay (n1 y (by rw [e.2]; simp))
    | cons z l1 ih =>
      cases m1 with
      | nil =>
        simp only [List.nil_append, List.cons_append, List.cons.injEq] at e
        exact absurd ax (n2 x (by rw [← e.2]; simp))
      | cons w m1 =>
        simp only [List.cons_append, List.cons.injEq] at e
        exact ih m1 e.2
  obtain ⟨exy, er⟩ := key _ _ _ _ _ _ _ _ (e.symm.trans e') ax ay hr hr' hn hn'
  subst exy
  rw [hk] at hk'
  injection hk' with a b c d
  subst b c d
  rw [(List.append_inj er (by rw [hl, hl'])).1]

/-- An action gets one set of sprites only. -/
theorem Draws.unique {kind : Nat → Kind} {file : List Nat} {u f i : Nat} {s t : List Nat}
    (h : Draws kind file u f i s) (h' : Draws kind file u f i t) : s = t := by
  obtain ⟨a, b, e, hu, hs⟩ := h
  obtain ⟨a', b', e', hu', hs'⟩ := h'
  have : a = a' := by
    have h1 := e.symm.trans e'
    clear e e' hs hs'
    induction a generalizing a' with
    | nil =>
      cases a' with
      | nil => rfl
      | cons z a' => simp at h1; simp [h1.1] at hu'
    | cons z a ih =>
      cases a' with
      | nil => simp at h1; simp [h1.1] at hu
      | cons w a' =>
        simp only [List.cons_append, List.cons.injEq] at h1
        rw [h1.1, ih (fun h => hu (List.mem_cons_of_mem _ h)) a' (fun h => hu' (List.mem_cons_of_mem _ h)) h1.2]
  subst this
  exact hs.unique hs'

end Spec
