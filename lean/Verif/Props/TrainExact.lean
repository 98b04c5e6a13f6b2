import Verif.Props.Train
/-!
# C43, C53: exactly which lengths come out right, and what the visual effect byte says
-/
namespace Grf.Train

open Grf.IdMap (Value)

/-- **C43** A train is accepted exactly when it is not given both `length` and `shorten_by` and its length, if given, is at most 24. -/
theorem new_train_accepted_iff (id : Value) (l sh : Option Int) (dual : Bool) :
    (new id l sh dual).isSome = true ↔ (l = none ∨ sh = none) ∧ ∀ n, l = some n → n ≤ 24 := by
  unfold new
  cases l with
  | none => cases sh <;> simp [split]
  | some n =>
    cases sh with
    | some s => simp
    | none =>
      simp only [Option.isSome_some, Option.isSome_none, Bool.false_eq_true, and_false, if_false, reduceCtorEq, or_true, true_and,
        Option.some.injEq, forall_eq']
      by_cases h : 24 < n
      · simp [split, h]
      · by_cases h8 : n ≤ 8
        · rw [split_short _ _ _ h8]; simp; omega
        · rw [split_long _ _ _ (by omega) (by omega)]; simp; omega

/-- **C43** The parts of an accepted train always add up to the requested length, and each is a length the game allows exactly when the
requested one is at least 1. -/
theorem new_train_exact (id : Value) (l : Int) (dual : Bool) (t : T) (h : new id (some l) none dual = some t) :
    (lengths t).sum = l ∧ ((Allowed t.shorten ∧ ∀ p ∈ t.parts, Allowed p.shorten) ↔ 1 ≤ l) := by
  have h24 : l ≤ 24 := ((new_train_accepted_iff id (some l) none dual).1 (by rw [h]; rfl)).2 l rfl
  by_cases h1 : 1 ≤ l
  · obtain ⟨t', e, s, a, _⟩ := new_train_length id l dual h1 h24
    rw [h] at e
    cases e
    exact ⟨s, fun _ => h1, fun _ => a⟩
  · have e : new id (some l) none dual = some ⟨id, some l, some (8 - l), dual, []⟩ := by
      simp [new, split_short _ _ _ (show l ≤ 8 by omega)]
    rw [h] at e
    cases e
    refine ⟨by simp [lengths, lengthOf]; omega, ?_⟩
    simp only [Allowed, lengthOf, Option.getD_some, List.not_mem_nil, false_implies, implies_true, and_true]
    omega

/-- **C43** A part given by its length is accepted exactly when the checks pass (or are switched off), the length is at most 24 and, above
8, the train was built with a length. -/
theorem add_part_accepted_iff (t : T) (id : Value) (l : Int) (skip : Bool) :
    (addPart t id (some l) none skip).isSome = true ↔
      (skip = true ∨ partAllowed t id (some l) none = true) ∧ l ≤ 24 ∧ (8 < l → t.length ≠ none) := by
  unfold addPart
  by_cases hc : (!skip && !partAllowed t id (some l) none) = true
  · rw [if_pos hc]
    simp only [Bool.and_eq_true, Bool.not_eq_eq_eq_not, Bool.not_true] at hc
    simp [hc.1, hc.2]
  · rw [if_neg hc]
    have hc' : skip = true ∨ partAllowed t id (some l) none = true := by
      cases skip with
      | true => exact .inl rfl
      | false => simpa using hc
    simp only [hc', true_and]
    by_cases h : 24 < l
    · simp [split, h]; omega
    · by_cases h8 : l ≤ 8
      · rw [split_short _ _ _ h8]; simp; omega
      · cases hl : t.length with
        | none =>
          have : split none (some l) none = none := by simp [split]; omega
          rw [this]; simp; omega
        | some sl => rw [split_long _ _ _ (by omega) (by omega)]; simp; omega

/-- **C43** What an added part amounts to: nothing else of the train changes; the new parts have the requested total length exactly when the
length is at most 8 or has the parity of the train's own length (otherwise the total is one less); and each has a length the game
allows exactly when the requested one is at least 1 and not 9 on a train of even length. -/
theorem add_part_exact (t t' : T) (id : Value) (l : Int) (skip : Bool) (h : addPart t id (some l) none skip = some t') :
    ∃ new, t' = { t with parts := t.parts ++ new } ∧ (new.head?.map (·.id)) = some id ∧
      ((new.map fun p => lengthOf p.shorten).sum = if l ≤ 8 ∨ ∃ sl, t.length = some sl ∧ sl % 2 = l % 2 then l else l - 1) ∧
      ((∀ p ∈ new, Allowed p.shorten) ↔ 1 ≤ l ∧ ¬ (l = 9 ∧ ∃ sl, t.length = some sl ∧ sl % 2 = 0)) := by
  obtain ⟨hok, h24, h8l⟩ := (add_part_accepted_iff t id l skip).1 (by rw [h]; rfl)
  have hc : (!skip && !partAllowed t id (some l) none) = false := by rcases hok with e | e <;> simp [e]
  unfold addPart at h
  simp only [hc, Bool.false_eq_true, if_false, Option.bind_eq_bind] at h
  by_cases h8 : l ≤ 8
  · rw [split_short _ _ _ h8] at h
    simp only [Option.bind_some, Option.some.injEq] at h
    refine ⟨[⟨id, some (8 - l)⟩], h.symm, rfl, ?_, ?_⟩
    · rw [if_pos (.inl h8)]; simp [lengthOf]; omega
    · simp only [List.mem_singleton, forall_eq, Allowed, lengthOf, Option.getD_some]
      constructor
      · intro e; exact ⟨by omega, fun e => by omega⟩
      · intro e; omega
  · obtain ⟨sl, hs⟩ := Option.ne_none_iff_exists'.1 (h8l (by omega))
    rw [hs, split_long _ _ _ (by omega) h24] at h
    simp only [Option.bind_some, Option.some.injEq] at h
    refine ⟨_, by rw [← h, hs], rfl, ?_, ?_⟩
    · simp only [hs, h8, false_or, Option.some.injEq, exists_eq_left', autoParts, lengthOf, Option.getD_some, List.map_cons, List.map_nil,
        List.sum_cons, List.sum_nil]
      by_cases hp : sl % 2 = 1
      · simp only [hp, if_true]
        split <;> omega
      · simp only [hp, if_false]
        split <;> omega
    · simp only [hs, Option.some.injEq, exists_eq_left', autoParts, Allowed, lengthOf, Option.getD_some, List.forall_mem_cons,
        List.not_mem_nil, false_implies, implies_true, and_true]
      by_cases hp : sl % 2 = 1
      · simp only [hp, if_true]
        omega
      · simp only [hp, if_false]
        omega

/-- Both parities: a part of length 11 on trains of length 8 and 9. -/
example : ((new (.int 1) (some 8) none false).bind fun t => addPart t (.int 2) (some 11) none false).map lengths = some [8, 1, 8, 1] ∧
    ((new (.int 1) (some 9) none false).bind fun t => addPart t (.int 2) (some 11) none false).map lengths = some [1, 7, 1, 2, 7, 2] := by
  decide +kernel

/-! ### Visual effects -/

/-- **C53** The byte for an effect, a position and a wagon power choice: without wagon power it contains the effect and the position; with
it, the byte is 0x7f, whatever was chosen. In both cases the game powers the wagons. -/
theorem visual_effect_exact (effect position : Nat) (he : effect ∈ [0x00, 0x10, 0x20, 0x30, 0x40]) (hp : position < 16) (power : Bool) :
    visualSpec (visualEffect effect position power) = if power then (0x70, 15, true) else (effect, position, true) := by
  cases power with
  | false => exact visual_effect_partial effect position he hp
  | true =>
    have : effect < 0x80 := by
      simp only [List.mem_cons, List.not_mem_nil, or_false] at he
      omega
    rw [visual_effect_lost effect position this (by omega)]
    rfl

/-- **C53** So no choice is ever encoded as made. -/
theorem visual_effect_never (effect position : Nat) (he : effect ∈ [0x00, 0x10, 0x20, 0x30, 0x40]) (hp : position < 16) (power : Bool) :
    visualSpec (visualEffect effect position power) ≠ (effect, position, power) := by
  rw [visual_effect_exact effect position he hp power]
  simp only [List.mem_cons, List.not_mem_nil, or_false] at he
  cases power
  · simp
  · simp only [if_true, ne_eq, Prod.mk.injEq, not_and]
    intro e; omega

example : visualSpec (visualEffect 0x20 5 false) = (0x20, 5, true) ∧ visualSpec (visualEffect 0x20 5 true) = (0x70, 15, true) := by decide

end Grf.Train
