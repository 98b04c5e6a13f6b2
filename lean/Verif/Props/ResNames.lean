import Verif.Model.ResNames
import Verif.Props.Strings
/-!
# C48: generated resource names are unique
-/
namespace Grf.ResNames
open Strings (dec decVal_dec)

/-! ### Lemmas -/

theorem findFrom_spec (index : List Name) (name ext : Name) : ∀ (n i : Nat),
    (∀ u, findFrom index name ext i n = some u → ∃ k, i ≤ k ∧ k < i + n ∧ u = candidate name ext k ∧ u ∉ index ∧ ∀ j, i ≤ j → j < k → candidate name ext j ∈ index) ∧
    (findFrom index name ext i n = none ↔ ∀ k, i ≤ k → k < i + n → candidate name ext k ∈ index) := by
  intro n
  induction n with
  | zero =>
    intro i
    refine ⟨(fun u h => by cases h), ?_⟩
    simp only [findFrom, true_iff]
    intro k h1 h2
    omega
  | succ n ih =>
    intro i
    simp only [findFrom]
    split
    · next hm =>
      obtain ⟨h1, h2⟩ := ih (i + 1)
      refine ⟨fun u hu => ?_, ?_⟩
      · obtain ⟨k, a, b, c, d, e⟩ := h1 u hu
        refine ⟨k, by omega, by omega, c, d, fun j hj hk => ?_⟩
        by_cases hji : j = i
        · subst hji; exact hm
        · exact e j (by omega) hk
      · rw [h2]
        constructor
        · intro h k hk hk'
          by_cases hki : k = i
          · subst hki; exact hm
          · exact h k (by omega) (by omega)
        · intro h k hk hk'; exact h k (by omega) (by omega)
    · next hm =>
      refine ⟨fun u hu => ?_, ?_⟩
      · simp only [Option.some.injEq] at hu
        subst hu
        exact ⟨i, Nat.le_refl _, by omega, rfl, hm, fun j h1 h2 => by omega⟩
      · simp only [reduceCtorEq, false_iff]
        intro h
        exact hm (h i (Nat.le_refl _) (by omega))

theorem dec_ne_nil (n : Nat) : dec n ≠ [] := by
  unfold dec
  split <;> simp

theorem candidate_inj (name ext : Name) (i j : Nat) (h : candidate name ext i = candidate name ext j) : i = j := by
  unfold candidate at h
  split at h
  · next hi =>
    split at h
    · next hj => omega
    · have hl := congrArg List.length h
      simp at hl
      omega
  · next hi =>
    split at h
    · have hl := congrArg List.length h
      simp at hl
      omega
    · simp only [List.append_assoc, List.cons_append] at h
      have h := List.append_cancel_left h
      simp only [List.cons.injEq, true_and] at h
      have h := List.append_cancel_right h
      have := congrArg Strings.decVal h
      rw [decVal_dec, decVal_dec] at this
      omega

/-! ### The claims -/

/-- A name that is handed out is new, is the first of `name.ext`, `name_2.ext`, `name_3.ext`, ... that is, and is used from then on. -/
theorem name_is_new (index : List Name) (name ext : Name) (tries : Nat) (u : Name) (index' : List Name)
    (h : findUnique index name ext tries = some (u, index')) : u ∉ index ∧ (∀ x, x ∈ index' ↔ x = u ∨ x ∈ index) ∧
      ∃ k, k < tries ∧ u = candidate name ext k ∧ ∀ j, j < k → candidate name ext j ∈ index := by
  unfold findUnique at h
  simp only [Option.map_eq_some_iff, Prod.mk.injEq] at h
  obtain ⟨v, hv, rfl, rfl⟩ := h
  obtain ⟨k, _, h2, h3, h4, h5⟩ := (findFrom_spec index name ext tries 0).1 _ hv
  exact ⟨h4, fun x => List.mem_cons, k, by omega, h3, fun j hj => h5 j (Nat.zero_le _) hj⟩

/-- A request is refused exactly if all the names tried are used. -/
theorem refused_iff_all_used (index : List Name) (name ext : Name) (tries : Nat) :
    findUnique index name ext tries = none ↔ ∀ k, k < tries → candidate name ext k ∈ index := by
  unfold findUnique
  rw [Option.map_eq_none_iff, (findFrom_spec index name ext tries 0).2]
  constructor
  · intro h k hk; exact h k (Nat.zero_le _) (by omega)
  · intro h k _ hk; exact h k (by omega)

/-- The names tried are all different, so a request is refused only after at least as many names have been handed out. -/
theorem refused_only_after_tries (index : List Name) (name ext : Name) (tries : Nat) (h : findUnique index name ext tries = none) :
    tries ≤ index.length := by
  rw [refused_iff_all_used] at h
  have hn : ((List.range tries).map (candidate name ext)).Nodup := by
    apply List.Pairwise.map (R := fun a b => a ≠ b) _ _ List.nodup_range
    intro a b hab he
    exact hab (candidate_inj name ext a b he)
  have hsub : (List.range tries).map (candidate name ext) ⊆ index := by
    intro x hx
    rw [List.mem_map] at hx
    obtain ⟨k, hk, rfl⟩ := hx
    exact h k (List.mem_range.mp hk)
  have := hn.length_le_of_subset hsub
  simpa using this

/-- A history of requests for names, each a name and an extension, as far as none is refused: the names handed out and the index. -/
def history (norm : Name → Name) (tries : Nat) : List Name → List (Name × Name) → Option (List Name × List Name)
  | index, [] => some ([], index)
  | index, (n, e) :: rest => do
    let (u, index) ← genName norm index n e tries
    let (us, index) ← history norm tries index rest
    pure (u :: us, index)

/-- For every history of requests, the names handed out differ from each other and from those used before. -/
theorem names_unique (norm : Name → Name) (tries : Nat) (reqs : List (Name × Name)) : ∀ (index : List Name) (us index' : List Name),
    history norm tries index reqs = some (us, index') → us.Nodup ∧ (∀ u ∈ us, u ∉ index) ∧ us.length = reqs.length ∧
      ∀ x, x ∈ index' ↔ x ∈ us ∨ x ∈ index := by
  induction reqs with
  | nil => intro index us index' h; simp only [history, Option.some.injEq, Prod.mk.injEq] at h; obtain ⟨rfl, rfl⟩ := h; simp
  | cons r reqs ih =>
    intro index us index' h
    obtain ⟨n, e⟩ := r
    simp only [history, Option.bind_eq_bind, Option.bind_eq_some_iff, Option.pure_def, Option.some.injEq, Prod.mk.injEq, Prod.exists] at h
    obtain ⟨u, ix, h1, us', ix', h2, rfl, rfl⟩ := h
    obtain ⟨a, b, _⟩ := name_is_new _ _ _ _ _ _ h1
    obtain ⟨c, d, l, f⟩ := ih ix us' ix' h2
    refine ⟨List.nodup_cons.mpr ⟨fun hm => d u hm ((b u).mpr (Or.inl rfl)), c⟩, ?_, by simp [l], ?_⟩
    · intro x hx
      rcases List.mem_cons.mp hx with rfl | hx
      · exact a
      · intro hi; exact d x hx ((b x).mpr (Or.inr hi))
    · intro x
      rw [f, b, List.mem_cons]
      constructor
      · rintro (h | h | h)
        · exact Or.inl (Or.inr h)
        · exact Or.inl (Or.inl h)
        · exact Or.inr h
      · rintro ((h | h) | h)
        · exact Or.inr (Or.inl h)
        · exact Or.inl h
        · exact Or.inr (Or.inr h)

/-- A character that is safe in file names: a small letter, a digit, a dash or an underscore. -/
def Safe (c : Char) : Prop := ('a' ≤ c ∧ c ≤ 'z') ∨ ('0' ≤ c ∧ c ≤ '9') ∨ c = '-' ∨ c = '_'

theorem dashes_mem (b : Bool) (l : Name) : ∀ c ∈ dashes b l, c = '-' ∨ (c ∈ l ∧ isSpace c = false) := by
  induction l generalizing b with
  | nil => intro c h; simp [dashes] at h
  | cons x l ih =>
    intro c h
    simp only [dashes] at h
    split at h
    · split at h
      · rcases ih true c h with h | ⟨h, h'⟩
        · exact Or.inl h
        · exact Or.inr ⟨List.mem_cons_of_mem _ h, h'⟩
      · rcases List.mem_cons.mp h with h | h
        · exact Or.inl h
        · rcases ih true c h with h | ⟨h, h'⟩
          · exact Or.inl h
          · exact Or.inr ⟨List.mem_cons_of_mem _ h, h'⟩
    · next hx =>
      simp only [Bool.or_eq_true, not_or, Bool.not_eq_true] at hx
      rcases List.mem_cons.mp h with rfl | h
      · exact Or.inr ⟨List.mem_cons_self, hx.2⟩
      · rcases ih false c h with h | ⟨h, h'⟩
        · exact Or.inl h
        · exact Or.inr ⟨List.mem_cons_of_mem _ h, h'⟩

theorem lower_word (c : Char) (h : isWord (lower c) = true) : Safe (lower c) := by
  unfold lower at *
  split at h
  · next hc =>
    simp only [Bool.and_eq_true, decide_eq_true_eq] at hc
    rw [if_pos (by simp [hc])]
    left
    have h1 : 65 ≤ c.toNat := hc.1
    have h2 : c.toNat ≤ 90 := hc.2
    have key : ∀ k : Fin 26, 'a' ≤ Char.ofNat (k.val + 65 + 32) ∧ Char.ofNat (k.val + 65 + 32) ≤ 'z' := by decide
    have := key ⟨c.toNat - 65, by omega⟩
    have e : c.toNat - 65 + 65 + 32 = c.toNat + 32 := by omega
    simp only [e] at this
    exact this
  · next hc =>
    rw [if_neg hc]
    simp only [isWord, Bool.or_eq_true, Bool.and_eq_true, decide_eq_true_eq, beq_iff_eq] at h
    simp only [Bool.and_eq_true, decide_eq_true_eq] at hc
    rcases h with ((h | h) | h) | h
    · exact Or.inl h
    · exact absurd h hc
    · exact Or.inr (Or.inl h)
    · exact Or.inr (Or.inr (Or.inr h))

theorem strip_mem (l : Name) (c : Char) (h : c ∈ strip l) : c ∈ l := by
  unfold strip at h
  rw [List.mem_reverse] at h
  have h := (List.dropWhile_sublist _).subset h
  rw [List.mem_reverse] at h
  exact (List.dropWhile_sublist _).subset h

/-- Before the extension a generated name has only small letters, digits, dashes and underscores, whatever was asked for: it names no other
directory. -/
theorem name_is_safe (norm : Name → Name) (index : List Name) (name ext : Name) (tries : Nat) (u : Name) (index' : List Name)
    (h : genName norm index name ext tries = some (u, index')) : ∃ p, u = p ++ '.' :: ext ∧ ∀ c ∈ p, Safe c := by
  have hclean : ∀ c ∈ clean norm (cutExt name ext), Safe c := by
    intro c hc
    rcases dashes_mem _ _ c (strip_mem _ c hc) with rfl | ⟨hm, hs⟩
    · exact Or.inr (Or.inr (Or.inl rfl))
    · rw [List.mem_filter, List.mem_map] at hm
      obtain ⟨⟨d, _, rfl⟩, hw⟩ := hm
      rw [hs] at hw
      simp only [Bool.or_false, Bool.or_eq_true, beq_iff_eq] at hw
      rcases hw with hw | hw
      · exact lower_word d hw
      · exact Or.inr (Or.inr (Or.inl hw))
  have hdec : ∀ n, ∀ c ∈ dec n, Safe c := by
    intro n
    induction n using Nat.strongRecOn with
    | _ n ih =>
      intro c hc
      have hdig : ∀ k : Fin 10, '0' ≤ Char.ofNat (48 + k.val) ∧ Char.ofNat (48 + k.val) ≤ '9' := by decide
      unfold dec at hc
      split at hc
      · next hn =>
        simp only [List.mem_singleton] at hc
        subst hc
        exact Or.inr (Or.inl (hdig ⟨n, hn⟩))
      · next hn =>
        rw [List.mem_append] at hc
        rcases hc with hc | hc
        · exact ih (n / 10) (by omega) c hc
        · simp only [List.mem_singleton] at hc
          subst hc
          exact Or.inr (Or.inl (hdig ⟨n % 10, Nat.mod_lt _ (by decide)⟩))
  obtain ⟨_, _, k, _, rfl, _⟩ := name_is_new _ _ _ _ _ _ h
  unfold candidate
  split
  · exact ⟨_, rfl, hclean⟩
  · refine ⟨_, rfl, ?_⟩
    intro c hc
    rw [List.mem_append, List.mem_cons] at hc
    rcases hc with hc | rfl | hc
    · exact hclean c hc
    · exact Or.inr (Or.inr (Or.inr rfl))
    · exact hdec _ c hc

/-- Every extracted sound is found in the file named in its code, with its own data: no sound overwrites another. -/
theorem sounds_saved (norm : Name → Name) (sounds : List (Name × Bytes)) : ∀ (index : List Name) (dir dir' : Name → Option Bytes) (names : List Name),
    saveSounds norm index dir sounds = some (dir', names) →
      names.length = sounds.length ∧ names.Nodup ∧ (∀ n ∈ names, n ∉ index) ∧ (∀ n, n ∉ names → dir' n = dir n) ∧
      ∀ (i : Nat) (n : Name), names[i]? = some n → ∃ s : Name × Bytes, sounds[i]? = some s ∧ dir' n = some s.2 := by
  induction sounds with
  | nil =>
    intro index dir dir' names h
    simp only [saveSounds, Option.some.injEq, Prod.mk.injEq] at h
    obtain ⟨rfl, rfl⟩ := h
    simp
  | cons s sounds ih =>
    intro index dir dir' names h
    obtain ⟨n, d⟩ := s
    simp only [saveSounds, Option.bind_eq_bind, Option.bind_eq_some_iff, Option.pure_def, Option.some.injEq, Prod.mk.injEq, Prod.exists] at h
    obtain ⟨u, ix, h1, dir1, us, h2, rfl, rfl⟩ := h
    obtain ⟨a, b, _⟩ := name_is_new _ _ _ _ _ _ h1
    obtain ⟨l, nd, c, o, g⟩ := ih ix _ _ _ h2
    have hu : u ∉ us := fun hm => c u hm ((b u).mpr (Or.inl rfl))
    refine ⟨by simp [l], List.nodup_cons.mpr ⟨hu, nd⟩, ?_, ?_, ?_⟩
    · intro x hx
      rcases List.mem_cons.mp hx with rfl | hx
      · exact a
      · intro hi; exact c x hx ((b x).mpr (Or.inr hi))
    · intro x hx
      rw [List.mem_cons, not_or] at hx
      rw [o x hx.2]
      unfold writeFile
      rw [if_neg hx.1]
    · intro i x hx
      cases i with
      | zero =>
        simp only [List.getElem?_cons_zero, Option.some.injEq] at hx
        subst hx
        exact ⟨(n, d), rfl, by rw [o _ hu]; unfold writeFile; rw [if_pos rfl]⟩
      | succ i =>
        simp only [List.getElem?_cons_succ] at hx ⊢
        exact g i x hx

/-- Asked for the same name again and again. -/
example : (history id 100 [] [("Train Horn.wav".toList, "wav".toList), ("train/horn".toList, "wav".toList), ("train - horn".toList, "wav".toList)]).map (·.1.map String.ofList) =
    some ["train-horn.wav", "trainhorn.wav", "train-horn_2.wav"] := by decide +kernel

end Grf.ResNames
