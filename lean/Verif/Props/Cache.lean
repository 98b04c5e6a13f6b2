import Verif.Model.Cache
import Verif.Proofs.Refs1
/-!
# C37: the sprite cache returns only data stored under the same fingerprint
-/
namespace Grf.Cache

variable {K D : Type} [DecidableEq K]

/-! ## specification -/

/-- The data of the last successful store under `k` in a history. -/
def lastSet (k : K) (acc : Option D) : List (Op K D) → Option D
  | [] => acc
  | .set k' d :: os => lastSet k (if k' = k then some d else acc) os
  | _ :: os => lastSet k acc os

/-- Nothing but the library wrote cache files, and no store failed half way. -/
def Undamaged : List (Op K D) → Prop
  | [] => True
  | .setFails _ _ :: _ => False
  | .damage _ _ :: _ => False
  | _ :: os => Undamaged os

/-- Operations made between `load` and `save`. -/
inductive Use (K D : Type) where
  | get (k : K)
  | set (k : K) (d : D)

def Use.op : Use K D → Op K D
  | .get k => .get k
  | .set k d => .set k d

/-! ## proofs -/

theorem mem_addKey {k x : K} {l : List K} : x ∈ addKey k l ↔ x = k ∨ x ∈ l := by
  unfold addKey
  split
  · rename_i h
    constructor
    · exact .inr
    · rintro (rfl | h')
      · exact h
      · exact h'
  · simp only [List.mem_append, List.mem_singleton]
    constructor
    · rintro (h | h)
      · exact .inr h
      · exact .inl h
    · rintro (h | h)
      · exact .inr h
      · exact .inl h

theorem run_files (k : K) (os : List (Op K D)) : ∀ (s : St K D) (acc : Option D), Undamaged os →
    (s.files k = none ∨ s.files k = acc) → (run s os).files k = none ∨ (run s os).files k = lastSet k acc os := by
  induction os with
  | nil => intro s acc _ h; exact h
  | cons o os ih =>
    intro s acc hu h
    cases o with
    | load c => exact ih _ acc hu h
    | save =>
      refine ih _ acc hu ?_
      simp only [step, save]
      split
      · exact .inl rfl
      · exact h
    | get k' =>
      refine ih _ acc hu ?_
      simp only [step, get]
      split <;> exact h
    | set k' d =>
      refine ih _ _ hu ?_
      simp only [step, set]
      by_cases e : k' = k
      · subst e
        rw [upd_same, if_pos rfl]
        exact .inr rfl
      · rw [upd_ne _ _ _ _ (fun h => e h.symm), if_neg e]
        exact h
    | setFails k' d => exact absurd hu (by simp [Undamaged])
    | damage k' d => exact absurd hu (by simp [Undamaged])
    | lose k' =>
      refine ih _ acc hu ?_
      simp only [step]
      by_cases e : k' = k
      · subst e
        rw [upd_same]
        exact .inl rfl
      · rw [upd_ne _ _ _ _ (fun h => e h.symm)]
        exact h
    | loseIndex => exact ih _ acc hu h
    | breakIndex => exact ih _ acc hu h
    | restart => exact ih _ acc hu h

/-- **C37** (lookups). After any history of loads, stores, lookups, saves, restarts, lost cache files and lost or unreadable
index files, a lookup returns nothing or the data last stored under the very same key.
Partial: if a store failed half way or a cache file was overwritten from outside, its content is returned unchecked, see
`failed_store_is_served` and `damaged_file_is_served`. -/
theorem lookup_returns_last_stored_partial (s : St K D) (hempty : ∀ k, s.files k = none) (history : List (Op K D))
    (hu : Undamaged history) (k : K) :
    (get (run s history) k).2 = none ∨ (get (run s history) k).2 = lastSet k none history := by
  have h := run_files k history s none hu (.inl (hempty k))
  unfold get
  split
  · exact .inl rfl
  · exact h

/-- **C37** (a lost file is a miss). -/
theorem lost_file_is_a_miss (s : St K D) (k : K) : (get (step s (.lose k)).1 k).2 = none := by
  unfold get
  split
  · rfl
  · simp [step, upd_same]

/-- **C37** (a lost or broken index means an empty cache, never an error). -/
theorem lost_index_is_a_miss (s : St K D) (k : K) (clean : Bool) :
    (get (load clean (step s .loseIndex).1) k).2 = none ∧ (get (load clean (step s .breakIndex).1) k).2 = none := by
  constructor <;> (simp only [get, load, step]; cases clean <;> simp)

/-- **C37** (a clean build uses nothing stored before). -/
theorem clean_build_starts_empty (s : St K D) (k : K) : (get (load true s) k).2 = none := by
  simp [get, load]

theorem run_uses (us : List (Use K D)) : ∀ s : St K D,
    (∀ k, k ∈ (run s (us.map Use.op)).index ↔ k ∈ s.index ∨ ∃ d, Use.set k d ∈ us) ∧
    (∀ k, k ∈ (run s (us.map Use.op)).newKeys ↔ k ∈ s.newKeys ∨ (∃ d, Use.set k d ∈ us) ∨ (Use.get k ∈ us ∧ k ∈ s.index)) ∧
    (run s (us.map Use.op)).oldKeys = s.oldKeys ∧
    (∀ k, (run s (us.map Use.op)).files k = lastSet k (s.files k) (us.map Use.op)) := by
  induction us with
  | nil => intro s; simp [run, lastSet]
  | cons u us ih =>
    intro s
    cases u with
    | get k0 =>
      simp only [List.map_cons, Use.op, run, step, lastSet]
      obtain ⟨h1, h2, h3, h4⟩ := ih (get s k0).1
      have e1 : (get s k0).1.index = s.index := by unfold get; split <;> rfl
      have e3 : (get s k0).1.oldKeys = s.oldKeys := by unfold get; split <;> rfl
      have e4 : (get s k0).1.files = s.files := by unfold get; split <;> rfl
      have e2 : ∀ k, k ∈ (get s k0).1.newKeys ↔ k ∈ s.newKeys ∨ (k = k0 ∧ k ∈ s.index) := by
        intro k
        unfold get
        split
        · rename_i h
          constructor
          · exact .inl
          · rintro (h' | ⟨rfl, h'⟩)
            · exact h'
            · exact absurd h' h
        · rename_i h
          simp only [mem_addKey]
          constructor
          · rintro (rfl | h')
            · exact .inr ⟨rfl, Classical.byContradiction h⟩
            · exact .inl h'
          · rintro (h' | ⟨rfl, _⟩)
            · exact .inr h'
            · exact .inl rfl
      refine ⟨?_, ?_, by rw [h3, e3], by intro k; rw [h4, e4]⟩
      · intro k
        rw [h1, e1]
        simp
      · intro k
        rw [h2, e1, e2]
        simp only [List.mem_cons, reduceCtorEq, false_or, Use.get.injEq]
        grind
    | set k0 d0 =>
      simp only [List.map_cons, Use.op, run, step, lastSet]
      obtain ⟨h1, h2, h3, h4⟩ := ih (set s k0 d0)
      refine ⟨?_, ?_, by rw [h3]; rfl, ?_⟩
      · intro k
        rw [h1]
        simp only [set, mem_addKey, List.mem_cons, Use.set.injEq]
        grind
      · intro k
        rw [h2]
        simp only [set, mem_addKey, List.mem_cons, Use.set.injEq, reduceCtorEq, false_or]
        grind
      · intro k
        rw [h4]
        simp only [set]
        by_cases e : k0 = k
        · subst e
          rw [upd_same, if_pos rfl]
        · rw [upd_ne _ _ _ _ (fun h => e h.symm), if_neg e]

/-- **C37** (eviction). Consider one build: load, any uses, save. Afterwards the index lists exactly the keys that were
stored in it or (unless it was a clean build) were in the index and looked up; files of keys of the old index that were not
used are gone; the file of every other key is what the build stored last, or what was there before. -/
theorem unused_entries_evicted (s : St K D) (l : List K) (hl : s.indexFile = .keys l) (clean : Bool)
    (uses : List (Use K D)) :
    let s' := save (run (load clean s) (uses.map Use.op))
    let used := fun k => (∃ d, Use.set k d ∈ uses) ∨ (clean = false ∧ k ∈ l ∧ Use.get k ∈ uses)
    (∃ l', s'.indexFile = .keys l' ∧ ∀ k, k ∈ l' ↔ used k) ∧
    (∀ k, k ∈ l → ¬ used k → s'.files k = none) ∧
    (∀ k, used k ∨ k ∉ l → s'.files k = lastSet k (s.files k) (uses.map Use.op)) := by
  intro s' used
  obtain ⟨h1, h2, h3, h4⟩ := run_uses uses (load clean s)
  have e1 : ∀ k, k ∈ (load clean s).index ↔ clean = false ∧ k ∈ l := by
    intro k; simp only [load, hl]; cases clean <;> simp
  have e2 : (load clean s).oldKeys = l := by simp only [load, hl]
  have e3 : (load clean s).newKeys = [] := rfl
  have e4 : (load clean s).files = s.files := rfl
  rw [e2] at h3
  rw [e3] at h2
  rw [e4] at h4
  simp only [e1] at h1 h2
  have hgone : ∀ k, k ∈ (run (load clean s) (uses.map Use.op)).oldKeys.filter
      (fun k => k ∉ (run (load clean s) (uses.map Use.op)).newKeys) ↔ k ∈ l ∧ ¬ used k := by
    intro k
    rw [List.mem_filter, h3]
    simp only [decide_eq_true_eq, h2, used]
    grind
  refine ⟨⟨_, rfl, ?_⟩, ?_, ?_⟩
  · intro k
    rw [List.mem_filter]
    simp only [decide_eq_true_eq, hgone, h1, used]
    grind
  · intro k hk hu
    show (if k ∈ _ then none else _) = none
    rw [if_pos ((hgone k).mpr ⟨hk, hu⟩)]
  · intro k hk
    show (if k ∈ _ then none else _) = _
    rw [if_neg, h4]
    intro h
    obtain ⟨a, b⟩ := (hgone k).mp h
    rcases hk with hk | hk
    · exact b hk
    · exact hk a

/-! ## the whole build -/

/-- Every cache file holds what its key stands for. -/
def Right (real : K → D) (s : St K D) : Prop := ∀ k d, s.files k = some d → d = real k

theorem right_go (real : K → D) (ks : List K) : ∀ s : St K D, Right real s →
    (build.go s (ks.map fun k => (k, real k))).2 = ks.map real ∧
    Right real (build.go s (ks.map fun k => (k, real k))).1 := by
  induction ks with
  | nil => intro s h; exact ⟨rfl, h⟩
  | cons k ks ih =>
    intro s h
    have key : (spriteData s k (real k)).2 = real k ∧ Right real (spriteData s k (real k)).1 := by
      unfold spriteData
      have hf : (get s k).1.files = s.files := by unfold get; split <;> rfl
      have hr : (get s k).2 = none ∨ (get s k).2 = s.files k := by
        unfold get; split
        · exact .inl rfl
        · exact .inr rfl
      cases hg : get s k with
      | mk s1 r =>
        rw [hg] at hf hr
        cases r with
        | some d =>
          simp only
          rcases hr with hr | hr
          · cases hr
          · exact ⟨h k d hr.symm, fun k' d' hd => h k' d' (hf ▸ hd)⟩
        | none =>
          refine ⟨rfl, ?_⟩
          intro k' d' hd
          simp only [set] at hd
          by_cases e : k' = k
          · subst e
            rw [upd_same] at hd
            injection hd with hd
            exact hd.symm
          · rw [upd_ne _ _ _ _ e] at hd
            simp only at hf
            exact h k' d' (hf ▸ hd)
    simp only [List.map_cons, build.go]
    obtain ⟨a, b⟩ := ih _ key.2
    exact ⟨by rw [a, key.1], b⟩

theorem right_build (real : K → D) (clean : Bool) (s : St K D) (h : Right real s) (ks : List K) :
    (build clean s (ks.map fun k => (k, real k))).2 = ks.map real ∧
      Right real (build clean s (ks.map fun k => (k, real k))).1 := by
  obtain ⟨a, b⟩ := right_go real ks (load clean s) (fun k d hd => h k d hd)
  refine ⟨a, ?_⟩
  intro k d hd
  simp only [build, save] at hd
  split at hd
  · cases hd
  · exact b k d hd

/-- Builds in a row, with cache files (those `lost` names) disappearing before each. -/
def builds (real : K → D) : St K D → List (Bool × (K → Bool) × List K) → List (List D)
  | _, [] => []
  | s, (clean, lost, ks) :: r =>
    let s1 := { s with files := fun k => if lost k then none else s.files k }
    let (s2, ds) := build clean s1 (ks.map fun k => (k, real k))
    ds :: builds real s2 r

/-- **C37** (the cache never changes a build's output). When the data of a sprite is determined by its key, every build of
any sequence of builds, clean or not, starting from an empty cache directory and with any cache files lost between builds,
uses for each sprite the data it would have without a cache. -/
theorem cache_never_changes_output (real : K → D) (bs : List (Bool × (K → Bool) × List K)) :
    builds real (empty : St K D) bs = bs.map fun b => b.2.2.map real := by
  have : ∀ (bs : List (Bool × (K → Bool) × List K)) (s : St K D), Right real s →
      builds real s bs = bs.map fun b => b.2.2.map real := by
    intro bs
    induction bs with
    | nil => intro s _; rfl
    | cons b bs ih =>
      intro s h
      obtain ⟨clean, lost, ks⟩ := b
      have h1 : Right real { s with files := fun k => if lost k then none else s.files k } := by
        intro k d hd
        simp only at hd
        split at hd
        · cases hd
        · exact h k d hd
      obtain ⟨a, c⟩ := right_build real clean _ h1 ks
      simp only [builds, List.map_cons]
      rw [a, ih _ c]
  exact this bs _ (fun k d h => by simp [empty] at h)

/-! ## what does not hold -/

/-- Negative result for C37: keys are 64-bit digests, so two different sprites whose digests agree share an entry: the
second gets the data of the first. -/
theorem digest_collision_serves_other_sprite (k : K) (d e : D) (s : St K D) :
    (get (set s k d) k).2 = some d ∧ (spriteData (set s k d) k e).2 = d := by
  have h : (get (set s k d) k).2 = some d := by
    unfold get
    rw [if_neg]
    · simp [set, upd_same]
    · simp [set, mem_addKey]
  refine ⟨h, ?_⟩
  unfold spriteData
  cases hg : get (set s k d) k with
  | mk s1 r =>
    rw [hg] at h
    simp only at h
    subst h
    rfl

/-- Negative result for C37: a cache file that was lost is regenerated, the store fails half way, the build saves the index
(it does so even when it fails) and the next build is served the truncated file. -/
theorem failed_store_is_served :
    let before := run (empty : St Nat (List Nat)) [.load false, .set 7 [1, 2, 3], .save]
    let lost := run before [.lose 7, .restart, .load false]
    (get lost 7).2 = none ∧ (get (run lost [.get 7, .setFails 7 [1], .save, .restart, .load false]) 7).2 = some [1] := by
  decide +kernel

/-- Negative result for C37: the content of a cache file is not checked. -/
theorem damaged_file_is_served :
    (get (run (empty : St Nat (List Nat)) [.load false, .set 7 [1, 2, 3], .save, .damage 7 [9], .restart, .load false]) 7).2
      = some [9] := by
  decide +kernel

/-! Non-vacuity. -/

example :
    let s := run (empty : St Nat Nat) [.load false, .set 1 10, .set 2 20, .save]
    (∃ l, s.indexFile = .keys l ∧ l = [1, 2]) ∧
    (save (run (load false s) ([Use.get 1, .set 3 30].map Use.op))).files 2 = none ∧
    (save (run (load false s) ([Use.get 1, .set 3 30].map Use.op))).files 1 = some 10 ∧
    (save (run (load false s) ([Use.get 1, .set 3 30].map Use.op))).index = [1, 3] := by
  refine ⟨⟨[1, 2], rfl, rfl⟩, ?_⟩
  decide +kernel

example : Undamaged ([.load false, .set 1 10, .save, .lose 1, .restart, .load true] : List (Op Nat Nat)) := trivial

example : builds (fun k : Nat => k * k) empty [(false, fun _ => false, [3, 4]), (false, fun k => k = 3, [3, 4, 5]),
    (true, fun _ => false, [5])] = [[9, 16], [9, 16, 25], [25]] := by decide +kernel

end Grf.Cache
