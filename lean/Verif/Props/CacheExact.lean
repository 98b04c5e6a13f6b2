import Verif.Props.Cache
/-!
# C37, exactly: what every lookup of every build returns
-/
namespace Grf.Cache

variable {K D : Type} [DecidableEq K]

/-! ## any history -/

/-- What was last written to the file of `k`: by a store, by a store that failed half way, or from outside. -/
def lastWrite (k : K) (acc : Option D) : List (Op K D) → Option D
  | [] => acc
  | .set k' d :: os => lastWrite k (if k' = k then some d else acc) os
  | .setFails k' d :: os => lastWrite k (if k' = k then some d else acc) os
  | .damage k' d :: os => lastWrite k (if k' = k then some d else acc) os
  | _ :: os => lastWrite k acc os

theorem run_written (k : K) (os : List (Op K D)) : ∀ (s : St K D) (acc : Option D), (s.files k = none ∨ s.files k = acc) →
    (run s os).files k = none ∨ (run s os).files k = lastWrite k acc os := by
  have upd' : ∀ (s : St K D) (acc : Option D) (k' : K) (d : D), (s.files k = none ∨ s.files k = acc) →
      upd s.files k' (some d) k = none ∨ upd s.files k' (some d) k = if k' = k then some d else acc := by
    intro s acc k' d h
    by_cases e : k' = k
    · subst e; right; rw [if_pos rfl, upd_same]
    · rw [if_neg e, upd_ne _ _ _ _ (fun h => e h.symm)]; exact h
  induction os with
  | nil => intro s acc h; exact h
  | cons o os ih =>
    intro s acc h
    cases o with
    | load c => exact ih _ acc h
    | save =>
      refine ih _ acc ?_
      simp only [step, save]
      split
      · exact .inl rfl
      · exact h
    | get k' =>
      refine ih _ acc ?_
      simp only [step, get]
      split <;> exact h
    | set k' d => exact ih _ _ (upd' s acc k' d h)
    | setFails k' d => exact ih _ _ (upd' s acc k' d h)
    | lose k' =>
      refine ih _ acc ?_
      simp only [step]
      by_cases e : k = k'
      · subst e; left; rw [upd_same]
      · rw [upd_ne _ _ _ _ e]; exact h
    | damage k' d => exact ih _ _ (upd' s acc k' d h)
    | loseIndex => exact ih _ acc h
    | breakIndex => exact ih _ acc h
    | restart => exact ih _ acc h

/-- **C37** After any history at all, a lookup returns nothing or what was last written to the file of the very same key. So it is what was
last stored successfully unless a store that failed, or somebody else, wrote to the file afterwards. -/
theorem lookup_returns_last_written (s : St K D) (hempty : ∀ k, s.files k = none) (history : List (Op K D)) (k : K) :
    (get (run s history) k).2 = none ∨ (get (run s history) k).2 = lastWrite k none history := by
  have h := run_written k history s none (.inl (hempty k))
  unfold get
  split
  · exact .inl rfl
  · exact h

/-- The last write is the last store when no store failed and nobody else wrote. -/
theorem lastWrite_undamaged (k : K) (os : List (Op K D)) : ∀ acc : Option D, Undamaged os → lastWrite k acc os = lastSet k acc os := by
  induction os with
  | nil => intro acc _; rfl
  | cons o os ih =>
    intro acc h
    cases o <;> first | exact ih _ h | exact absurd h id

/-! ## builds -/

/-- What may happen to the directory between builds. -/
inductive Outside (K D : Type) where
  | lose (k : K)
  | damage (k : K) (d : D)
  | loseIndex
  | breakIndex

/-- What may happen during a build: a lookup, a store, a store that fails half way. -/
inductive Act (K D : Type) where
  | get (k : K)
  | set (k : K) (d : D)
  | fail (k : K) (d : D)

def Act.key : Act K D → K
  | .get k => k
  | .set k _ => k
  | .fail k _ => k

/-- A build, and what happened before it. -/
structure Session (K D : Type) where
  outside : List (Outside K D)
  clean : Bool
  acts : List (Act K D)

/-! ### specification: a cache is a partial map; an entry has data or has lost it -/

abbrev Abs (K D : Type) := K → Option (Option D)

def Outside.abs (a : Abs K D) : Outside K D → Abs K D
  | .lose k => upd a k ((a k).map fun _ => none)
  | .damage k d => upd a k ((a k).map fun _ => some d)
  | .loseIndex => fun _ => none
  | .breakIndex => fun _ => none

def Act.abs (a : Abs K D) : Act K D → Abs K D × List (Option D)
  | .get k => (a, [(a k).join])
  | .set k d => (upd a k (some (some d)), [])
  | .fail k d => (upd a k ((a k).map fun _ => some d), [])

def actsAbs (a : Abs K D) : List (Act K D) → Abs K D × List (Option D)
  | [] => (a, [])
  | x :: xs => ((actsAbs (x.abs a).1 xs).1, (x.abs a).2 ++ (actsAbs (x.abs a).1 xs).2)

/-- A build: a clean one starts with nothing; entries that were not used are forgotten at its end. -/
def Session.abs (a : Abs K D) (x : Session K D) : Abs K D × List (Option D) :=
  let r := actsAbs (if x.clean then fun _ => none else x.outside.foldl Outside.abs a) x.acts
  (fun k => if k ∈ x.acts.map Act.key then r.1 k else none, r.2)

/-- The answers of all lookups of all builds, by the specification. -/
def sessionsAbs (a : Abs K D) : List (Session K D) → List (List (Option D))
  | [] => []
  | x :: xs => (x.abs a).2 :: sessionsAbs (x.abs a).1 xs

/-! ### the program -/

def Outside.op : Outside K D → Op K D
  | .lose k => .lose k
  | .damage k d => .damage k d
  | .loseIndex => .loseIndex
  | .breakIndex => .breakIndex

def Act.run (s : St K D) : Act K D → St K D × List (Option D)
  | .get k => ((Cache.get s k).1, [(Cache.get s k).2])
  | .set k d => (Cache.set s k d, [])
  | .fail k d => (Cache.setFails s k d, [])

def actsRun (s : St K D) : List (Act K D) → St K D × List (Option D)
  | [] => (s, [])
  | x :: xs => ((actsRun (x.run s).1 xs).1, (x.run s).2 ++ (actsRun (x.run s).1 xs).2)

/-- A build of a new process: a new object, `load`, the accesses, `save`. -/
def Session.run (s : St K D) (x : Session K D) : St K D × List (Option D) :=
  let r := actsRun (load x.clean (step (Cache.run s (x.outside.map Outside.op)) .restart).1) x.acts
  (save r.1, r.2)

def sessionsRun (s : St K D) : List (Session K D) → List (List (Option D))
  | [] => []
  | x :: xs => (x.run s).2 :: sessionsRun (x.run s).1 xs

/-- The keys the index file lists. -/
def IndexFile.listed : IndexFile K → List K
  | .keys l => l
  | .broken => []
  | .missing => []

/-- The directory between builds holds the map. -/
def Holds (s : St K D) (a : Abs K D) : Prop :=
  ∀ k, a k = if k ∈ s.indexFile.listed then some (s.files k) else none

theorem holds_outside (os : List (Outside K D)) : ∀ (s : St K D) (a : Abs K D), Holds s a →
    Holds (Cache.run s (os.map Outside.op)) (os.foldl Outside.abs a) := by
  induction os with
  | nil => intro s a h; exact h
  | cons o os ih =>
    intro s a h
    refine ih _ _ ?_
    intro k
    cases o with
    | lose k' =>
      simp only [Outside.op, Outside.abs, step]
      by_cases e : k = k'
      · subst e
        rw [upd_same, upd_same, h k]
        split <;> simp_all
      · rw [upd_ne _ _ _ _ e, upd_ne _ _ _ _ e]; exact h k
    | damage k' d =>
      simp only [Outside.op, Outside.abs, step]
      by_cases e : k = k'
      · subst e
        rw [upd_same, upd_same, h k]
        split <;> simp_all
      · rw [upd_ne _ _ _ _ e, upd_ne _ _ _ _ e]; exact h k
    | loseIndex => simp [Outside.op, Outside.abs, step, IndexFile.listed]
    | breakIndex => simp [Outside.op, Outside.abs, step, IndexFile.listed]

/-- The object during a build holds the map. -/
def Loaded (s : St K D) (a : Abs K D) : Prop := ∀ k, a k = if k ∈ s.index then some (s.files k) else none

theorem loaded_acts (xs : List (Act K D)) : ∀ (s : St K D) (a : Abs K D), Loaded s a →
    (actsRun s xs).2 = (actsAbs a xs).2 ∧ Loaded (actsRun s xs).1 (actsAbs a xs).1 ∧ (actsRun s xs).1.oldKeys = s.oldKeys ∧
    (∀ k, k ∈ (actsRun s xs).1.newKeys → k ∈ s.newKeys ∨ k ∈ xs.map Act.key) ∧
    (∀ k, k ∈ s.newKeys → k ∈ (actsRun s xs).1.newKeys) ∧
    (∀ k, k ∈ xs.map Act.key → k ∈ (actsRun s xs).1.index → k ∈ (actsRun s xs).1.newKeys) ∧
    (∀ k, k ∈ s.index → k ∈ (actsRun s xs).1.index) ∧
    (∀ k, k ∈ (actsRun s xs).1.index → k ∈ s.index ∨ k ∈ xs.map Act.key) := by
  induction xs with
  | nil => intro s a h; exact ⟨rfl, h, rfl, fun k h => .inl h, fun k h => h, by simp, fun k h => h, fun k h => .inl h⟩
  | cons x xs ih =>
    intro s a h
    have key : (x.run s).2 = (x.abs a).2 ∧ Loaded (x.run s).1 (x.abs a).1 ∧ (x.run s).1.oldKeys = s.oldKeys ∧
        (∀ k, k ∈ (x.run s).1.newKeys ↔ k ∈ s.newKeys ∨ (k = x.key ∧ ((k ∈ s.index) ∨ ∀ k', x ≠ .get k'))) ∧
        (∀ k, k ∈ (x.run s).1.index ↔ k ∈ s.index ∨ (k = x.key ∧ ∃ k' d, x = .set k' d)) := by
      cases x with
      | get k' =>
        simp only [Act.run, Act.abs, Cache.get, Act.key]
        have hk := h k'
        by_cases hi : k' ∈ s.index
        · rw [if_pos hi] at hk
          have hn : ¬ k' ∉ s.index := fun hc => hc hi
          simp only [if_neg hn, hk]
          refine ⟨rfl, h, trivial, ?_, by simp⟩
          intro k
          rw [mem_addKey]
          constructor
          · rintro (rfl | h1)
            · exact .inr ⟨rfl, .inl hi⟩
            · exact .inl h1
          · rintro (h1 | ⟨h1, _⟩)
            · exact .inr h1
            · exact .inl h1
        · rw [if_neg hi] at hk
          simp only [if_pos hi, hk]
          refine ⟨rfl, h, trivial, ?_, by simp⟩
          intro k
          constructor
          · exact .inl
          · rintro (h1 | ⟨rfl, h2 | h2⟩)
            · exact h1
            · exact absurd h2 hi
            · exact absurd rfl (h2 k)
      | set k' d =>
        simp only [Act.run, Act.abs, Cache.set, Act.key]
        refine ⟨trivial, ?_, trivial, ?_, ?_⟩
        · intro k
          simp only [mem_addKey]
          by_cases e : k = k'
          · subst e
            rw [upd_same, upd_same, if_pos (.inl rfl)]
          · rw [upd_ne _ _ _ _ e, upd_ne _ _ _ _ e, h k]
            simp [e]
        · intro k
          rw [mem_addKey]
          simp
          constructor
          · rintro (h | h)
            · exact .inr h
            · exact .inl h
          · rintro (h | h)
            · exact .inr h
            · exact .inl h
        · intro k
          rw [mem_addKey]
          simp
          constructor
          · rintro (h | h)
            · exact .inr h
            · exact .inl h
          · rintro (h | h)
            · exact .inr h
            · exact .inl h
      | fail k' d =>
        simp only [Act.run, Act.abs, setFails, Act.key]
        refine ⟨trivial, ?_, trivial, ?_, by simp⟩
        · intro k
          simp only
          by_cases e : k = k'
          · subst e
            rw [upd_same, upd_same, h k]
            split <;> simp_all
          · rw [upd_ne _ _ _ _ e, upd_ne _ _ _ _ e]; exact h k
        · intro k
          rw [mem_addKey]
          simp
          constructor
          · rintro (h | h)
            · exact .inr h
            · exact .inl h
          · rintro (h | h)
            · exact .inr h
            · exact .inl h
    obtain ⟨k1, k2, k3, k4, k5⟩ := key
    obtain ⟨i1, i2, i3, i4, i5, i6, i7, i8⟩ := ih _ _ k2
    simp only [actsRun, actsAbs, List.map_cons, List.mem_cons]
    refine ⟨by rw [k1, i1], i2, i3.trans k3, ?_, ?_, ?_, ?_, ?_⟩
    · intro k hk
      rcases i4 k hk with hk | hk
      · rcases (k4 k).mp hk with hk | ⟨hk, _⟩
        · exact .inl hk
        · exact .inr (.inl hk)
      · exact .inr (.inr hk)
    · intro k hk
      exact i5 k ((k4 k).mpr (.inl hk))
    · intro k hk hin
      by_cases hlater : k ∈ xs.map Act.key
      · exact i6 k hlater hin
      · rcases hk with hk | hk
        · apply i5
          rw [k4]
          rcases i8 k hin with h1 | h1
          · rcases (k5 k).mp h1 with h1 | ⟨_, k', d, h1⟩
            · exact .inr ⟨hk, .inl h1⟩
            · exact .inr ⟨hk, .inr (by rw [h1]; intro k'' h2; cases h2)⟩
          · exact absurd h1 hlater
        · exact absurd hk hlater
    · intro k hk
      exact i7 k ((k5 k).mpr (.inl hk))
    · intro k hk
      rcases i8 k hk with hk | hk
      · rcases (k5 k).mp hk with hk | ⟨hk, _⟩
        · exact .inl hk
        · exact .inr (.inl hk)
      · exact .inr (.inr hk)

theorem holds_session (s : St K D) (a : Abs K D) (h : Holds s a) (x : Session K D) :
    (x.run s).2 = (x.abs a).2 ∧ Holds (x.run s).1 (x.abs a).1 := by
  obtain ⟨outside, clean, acts⟩ := x
  have h0 := holds_outside outside s a h
  simp only [Session.run, Session.abs]
  generalize Cache.run s (outside.map Outside.op) = s0 at *
  generalize outside.foldl Outside.abs a = a0 at *
  have hold : (load clean (step s0 .restart).1).oldKeys = s0.indexFile.listed := by
    simp only [load, step]
    cases s0.indexFile <;> rfl
  have hnew : (load clean (step s0 .restart).1).newKeys = [] := rfl
  have hix : (load clean (step s0 .restart).1).index = if clean then [] else s0.indexFile.listed := by
    simp only [load, step]
    cases s0.indexFile <;> rfl
  have hl : Loaded (load clean (step s0 .restart).1) (if clean = true then fun _ => none else a0) := by
    intro k
    rw [hix]
    cases clean with
    | true => simp
    | false =>
      simp only [Bool.false_eq_true, if_false]
      rw [h0 k]
      rfl
  obtain ⟨r1, r2, r3, r4, r5, r6, r7, r8⟩ := loaded_acts acts _ _ hl
  refine ⟨r1, ?_⟩
  intro k
  generalize hR : actsRun (load clean (step s0 .restart).1) acts = R at *
  simp only [save, IndexFile.listed, List.mem_filter, decide_eq_true_eq, not_and, Decidable.not_not]
  rw [r3, hold]
  by_cases hm : k ∈ acts.map Act.key
  · rw [if_pos hm, r2 k]
    by_cases hi : k ∈ R.1.index
    · have hn := r6 k hm hi
      rw [if_pos hi, if_pos ⟨hi, fun _ => hn⟩, if_neg (fun h => h.2 hn)]
    · rw [if_neg hi, if_neg (fun h => hi h.1)]
  · rw [if_neg hm, if_neg]
    rintro ⟨hi, hk⟩
    rcases r8 k hi with h1 | h1
    · rw [hix] at h1
      cases clean with
      | true => simp at h1
      | false =>
        simp only [Bool.false_eq_true, if_false] at h1
        rcases r4 k (hk h1) with h2 | h2
        · rw [hnew] at h2; cases h2
        · exact hm h2
    · exact hm h1

/-- **C37** (every lookup). In any sequence of builds, with files and index lost or damaged before each and stores that fail, every lookup
returns what the specification says: starting from an empty directory, or from any directory. -/
theorem builds_exact (xs : List (Session K D)) : ∀ (s : St K D) (a : Abs K D), Holds s a → sessionsRun s xs = sessionsAbs a xs := by
  induction xs with
  | nil => intro s a _; rfl
  | cons x xs ih =>
    intro s a h
    obtain ⟨h1, h2⟩ := holds_session s a h x
    simp only [sessionsRun, sessionsAbs]
    rw [h1, ih _ _ h2]

theorem holds_empty : Holds (empty : St K D) (fun _ => none) := by intro k; simp [empty, IndexFile.listed]

/-- An entry used in a build is found by the next one, with the data written last; one not used is not. -/
example : sessionsRun (empty : St Nat Nat)
    [⟨[], false, [.get 1, .set 1 10, .set 2 20]⟩, ⟨[], false, [.get 1, .set 3 30]⟩, ⟨[.lose 3], false, [.get 1, .get 2, .get 3]⟩,
     ⟨[.damage 1 99], false, [.get 1, .fail 1 5]⟩, ⟨[], false, [.get 1]⟩, ⟨[], true, [.get 1]⟩] =
    [[none], [some 10], [some 10, none, none], [some 99], [some 5], [none]] := by decide +kernel

end Grf.Cache
