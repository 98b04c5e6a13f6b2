import Verif.Model.Train
import Verif.Props.IdMap
/-!
# C43: articulated trains keep their total length
-/
namespace Grf.Train

open Grf.IdMap (Value)

/-! ### Specification -/

/-- The length of a part in the game, in eighths of a tile: 8 less its `shorten_by` (0 if the property is not set). -/
def lengthOf (shorten : Option Int) : Int := 8 - shorten.getD 0

/-- The lengths the game allows for one part. -/
def Allowed (shorten : Option Int) : Prop := 1 ≤ lengthOf shorten ∧ lengthOf shorten ≤ 8

/-- The lengths of the head and the parts of a train. -/
def lengths (t : T) : List Int := lengthOf t.shorten :: t.parts.map fun p => lengthOf p.shorten

/-- The parts the game attaches when the head is built: it asks the callback with 1, 2, 3, ... until the answer is 0x7fff. -/
def consist (ans : Nat → Int) : List Int := ((List.range 255).map fun k => ans (k + 1)).takeWhile fun i => i ≠ 0x7fff

/-! ### Lengths -/

theorem split_short (sl : Option Int) (l : Int) (sh : Option Int) (h : l ≤ 8) : split sl (some l) sh = some (some (8 - l), none) := by
  simp only [split]
  rw [if_neg (by omega), if_pos h]

theorem split_long (sl l : Int) (sh : Option Int) (h1 : 8 < l) (h2 : l ≤ 24) : split (some sl) (some l) sh =
    some (some (8 - (if sl % 2 = 1 then 7 else 8)), some (8 - (if sl % 2 = 1 then (l - 7) / 2 else (l - 8) / 2))) := by
  simp only [split]
  rw [if_neg (by omega), if_neg (by omega)]

/-- **C43**: a train of any length from 1 to 24 is accepted, it has one part (up to 8) or three, their lengths add up to the requested one
and each is a length the game allows. -/
theorem new_train_length (id : Value) (l : Int) (dual : Bool) (h1 : 1 ≤ l) (h2 : l ≤ 24) :
    ∃ t, new id (some l) none dual = some t ∧ (lengths t).sum = l ∧ (Allowed t.shorten ∧ ∀ p ∈ t.parts, Allowed p.shorten) ∧
      t.parts.length = if l ≤ 8 then 0 else 2 := by
  unfold new
  by_cases h : l ≤ 8
  · refine ⟨⟨id, some l, some (8 - l), dual, []⟩, ?_, ?_, ?_, ?_⟩
    · simp [split_short _ _ _ h]
    · simp [lengths, lengthOf]; omega
    · simp only [Allowed, lengthOf, Option.getD_some, List.not_mem_nil, false_implies, implies_true, and_true]; omega
    · simp [h]
  · by_cases hp : l % 2 = 1
    · refine ⟨⟨id, some l, some (8 - (l - 7) / 2), dual, autoParts id (some 1) (some (8 - (l - 7) / 2))⟩, ?_, ?_, ?_, ?_⟩
      · simp [split_long _ _ _ (Int.not_le.mp h) h2, hp]
      · simp only [lengths, autoParts, lengthOf, Option.getD_some, List.map_cons, List.map_nil, List.sum_cons, List.sum_nil]; omega
      · simp only [Allowed, autoParts, lengthOf, Option.getD_some, List.forall_mem_cons, List.not_mem_nil, false_implies, implies_true, and_true]
        omega
      · simp [h, autoParts]
    · refine ⟨⟨id, some l, some (8 - (l - 8) / 2), dual, autoParts id (some 0) (some (8 - (l - 8) / 2))⟩, ?_, ?_, ?_, ?_⟩
      · simp [split_long _ _ _ (Int.not_le.mp h) h2, hp]
      · simp only [lengths, autoParts, lengthOf, Option.getD_some, List.map_cons, List.map_nil, List.sum_cons, List.sum_nil]; omega
      · simp only [Allowed, autoParts, lengthOf, Option.getD_some, List.forall_mem_cons, List.not_mem_nil, false_implies, implies_true, and_true]
        omega
      · simp [h, autoParts]

/-- Longer trains are refused, and so is giving both `length` and `shorten_by`. -/
theorem new_train_refused (id : Value) (l : Int) (sh : Option Int) (dual : Bool) (h : 24 < l ∨ sh.isSome) : new id (some l) sh dual = none := by
  unfold new
  rcases h with h | h
  · by_cases hs : sh.isSome
    · simp [hs]
    · simp [hs, split, h]
  · simp [h]

/-- Lengths below 1 are not refused: the part gets a shortening the game does not allow. -/
theorem nonpositive_length_accepted (id : Value) (l : Int) (dual : Bool) (h : l ≤ 0) :
    ∃ t, new id (some l) none dual = some t ∧ ¬ Allowed t.shorten := by
  refine ⟨⟨id, some l, some (8 - l), dual, []⟩, ?_, ?_⟩
  · simp [new, split_short _ _ _ (show l ≤ 8 by omega)]
  · simp only [Allowed, lengthOf, Option.getD_some]; omega

/-- Adding a part of length 1..8, or of length 9..24 with the parity of the train's own length: the parts added have the requested total
length, and allowed ones each. Nothing else changes. -/
theorem add_part_length_partial (t : T) (id : Value) (l : Int) (skip : Bool) (h1 : 1 ≤ l) (h2 : l ≤ 24)
    (hok : skip = true ∨ partAllowed t id (some l) none = true)
    (hp : 8 < l → ∃ sl, t.length = some sl ∧ sl % 2 = l % 2) :
    ∃ new, addPart t id (some l) none skip = some { t with parts := t.parts ++ new } ∧
      (new.map fun p => lengthOf p.shorten).sum = l ∧ (∀ p ∈ new, Allowed p.shorten) ∧ (new.head?.map (·.id)) = some id := by
  have hc : (!skip && !partAllowed t id (some l) none) = false := by
    rcases hok with rfl | h
    · rfl
    · simp [h]
  unfold addPart
  rw [hc]
  by_cases h : l ≤ 8
  · refine ⟨[⟨id, some (8 - l)⟩], ?_, ?_, ?_, rfl⟩
    · simp [split_short _ _ _ h]
    · simp [lengthOf]; omega
    · simp only [List.mem_singleton, forall_eq, Allowed, lengthOf, Option.getD_some]; omega
  · obtain ⟨sl, hs, hpar⟩ := hp (by omega)
    rw [hs]
    by_cases hp : sl % 2 = 1
    · refine ⟨⟨id, some (8 - (l - 7) / 2)⟩ :: autoParts id (some 1) (some (8 - (l - 7) / 2)), ?_, ?_, ?_, rfl⟩
      · simp [split_long _ _ _ (Int.not_le.mp h) h2, hp]
      · simp only [autoParts, lengthOf, Option.getD_some, List.map_cons, List.map_nil, List.sum_cons, List.sum_nil]; omega
      · simp only [Allowed, autoParts, lengthOf, Option.getD_some, List.forall_mem_cons, List.not_mem_nil, false_implies, implies_true, and_true]
        omega
    · refine ⟨⟨id, some (8 - (l - 8) / 2)⟩ :: autoParts id (some 0) (some (8 - (l - 8) / 2)), ?_, ?_, ?_, rfl⟩
      · simp [split_long _ _ _ (Int.not_le.mp h) h2, hp]
      · simp only [autoParts, lengthOf, Option.getD_some, List.map_cons, List.map_nil, List.sum_cons, List.sum_nil]; omega
      · simp only [Allowed, autoParts, lengthOf, Option.getD_some, List.forall_mem_cons, List.not_mem_nil, false_implies, implies_true, and_true]
        omega

/-- The rest of the claim is false of the code: with the other parity (the code looks at the length of the whole train instead of the length of
the part) the added parts are one eighth too short. -/
theorem add_part_wrong_parity (t : T) (id : Value) (l sl : Int) (h1 : 9 ≤ l) (h2 : l ≤ 24) (hs : t.length = some sl)
    (hp : sl % 2 ≠ l % 2) : ∃ new, addPart t id (some l) none true = some { t with parts := t.parts ++ new } ∧
      (new.map fun p => lengthOf p.shorten).sum = l - 1 := by
  unfold addPart
  rw [hs]
  have h : 8 < l := by omega
  by_cases hp' : sl % 2 = 1
  · refine ⟨⟨id, some (8 - (l - 7) / 2)⟩ :: autoParts id (some 1) (some (8 - (l - 7) / 2)), ?_, ?_⟩
    · simp [split_long _ _ _ h h2, hp']
    · simp only [autoParts, lengthOf, Option.getD_some, List.map_cons, List.map_nil, List.sum_cons, List.sum_nil]; omega
  · refine ⟨⟨id, some (8 - (l - 8) / 2)⟩ :: autoParts id (some 0) (some (8 - (l - 8) / 2)), ?_, ?_⟩
    · simp [split_long _ _ _ h h2, hp']
    · simp only [autoParts, lengthOf, Option.getD_some, List.map_cons, List.map_nil, List.sum_cons, List.sum_nil]; omega

/-- A part of length 9 added to a train of even length gets invisible parts of length 0. -/
theorem add_part_nine_not_allowed : ∃ t t', new (.int 1) (some 8) none false = some t ∧ addPart t (.int 2) (some 9) none false = some t' ∧
    ∃ p ∈ t'.parts, lengthOf p.shorten = 0 :=
  ⟨_, _, rfl, rfl, ⟨.int 2, some 8⟩, by decide, by decide⟩

/-- Long parts cannot be added to a train built without a length. -/
theorem add_long_part_without_length (t : T) (id : Value) (l : Int) (sh : Option Int) (skip : Bool) (h : 8 < l) (hs : t.length = none) :
    addPart t id (some l) sh skip = none := by
  unfold addPart
  split
  · rfl
  · have : split t.length (some l) sh = none := by
      simp only [split, hs]
      split
      · rfl
      · rw [if_neg (by omega)]
    simp [this]

/-! ### A whole train -/

/-- Parts added one after the other: ids and lengths. -/
def addParts (t : T) : List (Value × Int) → Option T
  | [] => some t
  | (id, l) :: r => addPart t id (some l) none false >>= fun t => addParts t r

/-- For a train of length `l` with parts of lengths `ps` the total length is the sum. -/
theorem train_total_length_partial (id : Value) (l : Int) (ps : List (Value × Int)) (h1 : 1 ≤ l) (h2 : l ≤ 24)
    (hid : ∀ p ∈ ps, ∀ i, p.1 = .int i → i < 0x4000)
    (hps : ∀ p ∈ ps, 1 ≤ p.2 ∧ p.2 ≤ 24 ∧ (8 < p.2 → p.2 % 2 = l % 2)) :
    ∃ t, (new id (some l) none false >>= fun t => addParts t ps) = some t ∧ (lengths t).sum = l + (ps.map (·.2)).sum ∧
      Allowed t.shorten ∧ ∀ p ∈ t.parts, Allowed p.shorten := by
  obtain ⟨t0, hn, hsum, ⟨ha, hall⟩, _⟩ := new_train_length id l false h1 h2
  have hl : t0.length = some l ∧ t0.dualHeaded = false := by
    unfold new at hn
    simp only [Option.isSome_none, Bool.false_eq_true, and_false, if_false, Option.bind_eq_bind, Option.bind_eq_some_iff] at hn
    obtain ⟨⟨m, a⟩, _, hn⟩ := hn
    cases a <;> simp only [Option.some.injEq] at hn <;> subst hn <;> exact ⟨rfl, rfl⟩
  rw [hn]
  simp only [Option.bind_eq_bind, Option.bind_some]
  have key : ∀ (ps : List (Value × Int)) (t : T), t.length = some l → t.dualHeaded = false →
      (∀ p ∈ ps, ∀ i, p.1 = .int i → i < 0x4000) → (∀ p ∈ ps, 1 ≤ p.2 ∧ p.2 ≤ 24 ∧ (8 < p.2 → p.2 % 2 = l % 2)) →
      Allowed t.shorten → (∀ p ∈ t.parts, Allowed p.shorten) →
      ∃ t', addParts t ps = some t' ∧ (lengths t').sum = (lengths t).sum + (ps.map (·.2)).sum ∧
        Allowed t'.shorten ∧ ∀ p ∈ t'.parts, Allowed p.shorten := by
    intro ps
    induction ps with
    | nil => intro t _ _ _ _ h3 h4; exact ⟨t, rfl, by simp, h3, h4⟩
    | cons p ps ih =>
      intro t e1 e2 e3 e4 e5 e6
      obtain ⟨q1, q2, q3⟩ := e4 p (by simp)
      have hok : partAllowed t p.1 (some p.2) none = true := by
        have := e3 p (by simp)
        cases hv : p.1 with
        | int i => simp [partAllowed, e2, this i hv]
        | str s => simp [partAllowed, e2]
      obtain ⟨nw, r1, r2, r3, _⟩ := add_part_length_partial t p.1 p.2 false q1 q2 (Or.inr hok) (fun h => ⟨l, e1, (q3 h).symm⟩)
      obtain ⟨t', s1, s2, s3⟩ := ih { t with parts := t.parts ++ nw } e1 e2 (fun q hq => e3 q (by simp [hq]))
        (fun q hq => e4 q (by simp [hq])) e5 (by
          intro q hq
          rcases List.mem_append.mp hq with hq | hq
          · exact e6 q hq
          · exact r3 q hq)
      refine ⟨t', ?_, ?_, s3⟩
      · simp only [addParts, r1, Option.bind_eq_bind, Option.bind_some, s1]
      · rw [s2]
        simp only [lengths, List.map_append, List.sum_cons, List.sum_append, r2, List.map_cons]
        omega
  obtain ⟨t, g1, g2, g3⟩ := key ps t0 hl.1 hl.2 hid hps ha hall
  exact ⟨t, g1, by rw [g2, hsum], g3⟩

/-! ### The consist the game builds -/

theorem ranges_lookup (rid : Value → Int) (t : T) (k : Nat) : (ranges rid t).lookup (k + 1) = (t.parts[k]?).map fun p => rid p.id := by
  unfold ranges
  have gen : ∀ (l : List Part) (n k : Nat), ((l.zipIdx n).map fun p => (p.2 + 1, rid p.1.id)).lookup (n + k + 1) = (l[k]?).map fun p => rid p.id := by
    intro l
    induction l with
    | nil => intro n k; simp
    | cons p l ih =>
      intro n k
      simp only [List.zipIdx_cons, List.map_cons, List.lookup_cons]
      cases k with
      | zero => simp
      | succ k =>
        have hb : (n + (k + 1) + 1 == n + 1) = false := by simp only [beq_eq_false_iff_ne]; omega
        have := ih (n + 1) k
        rw [hb]
        have e : n + (k + 1) + 1 = n + 1 + k + 1 := by omega
        rw [e]
        simpa using this
  have := gen t.parts 0 k
  simpa using this

/-- **C43** (callback): for up to 254 parts, none with the id 0x7fff, the game attaches exactly the train's parts, in order. -/
theorem consist_is_parts (rid : Value → Int) (t : T) (hn : t.parts.length < 255) (hid : ∀ p ∈ t.parts, rid p.id ≠ 0x7fff) :
    consist (answer rid t) = t.parts.map fun p => rid p.id := by
  have hans : (List.range 255).map (fun k => answer rid t (k + 1)) =
      (t.parts.map fun p => rid p.id) ++ 0x7fff :: List.replicate (254 - t.parts.length) 0x7fff := by
    apply List.ext_getElem
    · simp; omega
    · intro k h1 h2
      simp only [List.length_map, List.length_range] at h1
      have hz : answer rid t (k + 1) = ((t.parts[k]?).map fun p => rid p.id).getD 0x7fff := by
        unfold answer
        rw [Nat.mod_eq_of_lt (show k + 1 < 256 by omega), ranges_lookup]
      simp only [List.getElem_map, List.getElem_range, hz]
      by_cases hk : k < t.parts.length
      · simp [List.getElem_append_left, hk]
      · rw [List.getElem_append_right (by simpa using hk)]
        simp only [List.getElem?_eq_none (Nat.le_of_not_lt hk), Option.map_none, Option.getD_none, List.length_map]
        rw [List.getElem_cons]
        split
        · rfl
        · simp
  unfold consist
  rw [hans]
  have : ∀ (l : List Int) (m : List Int), (∀ i ∈ l, i ≠ 0x7fff) → (l ++ 0x7fff :: m).takeWhile (fun i => i ≠ 0x7fff) = l := by
    intro l m
    induction l with
    | nil => intro _; simp
    | cons a l ih =>
      intro h
      have := ih fun i hi => h i (by simp [hi])
      simp only [List.cons_append, List.takeWhile_cons]
      rw [this]
      simp [h a (by simp)]
  apply this
  intro i hi
  obtain ⟨p, hp, rfl⟩ := List.mem_map.mp hi
  exact hid p hp

/-- Every vehicle of the consist is defined by the generated actions with the length the train was split into: summing the lengths the
definitions give to the head and to the parts the callback announces gives the requested length. -/
theorem consist_length (rid : Value → Int) (id : Value) (l : Int) (h1 : 1 ≤ l) (h2 : l ≤ 24)
    (hd : ∀ t, new id (some l) none false = some t → ((t.id :: t.parts.map (·.id)).map rid).Nodup ∧ ∀ p ∈ t.parts, rid p.id ≠ 0x7fff) :
    ∃ t ds, new id (some l) none false = some t ∧ defines rid t = some ds ∧
      ((rid id :: consist (answer rid t)).map fun i => (ds.lookup i).map lengthOf) = (lengths t).map some ∧ (lengths t).sum = l := by
  obtain ⟨t, hn, hsum, _, hlen⟩ := new_train_length id l false h1 h2
  obtain ⟨hnd, h7⟩ := hd t hn
  have hl : t.id = id ∧ t.dualHeaded = false := by
    unfold new at hn
    simp only [Option.isSome_none, Bool.false_eq_true, and_false, if_false, Option.bind_eq_bind, Option.bind_eq_some_iff] at hn
    obtain ⟨⟨m, a⟩, _, hn⟩ := hn
    cases a <;> simp only [Option.some.injEq] at hn <;> subst hn <;> exact ⟨rfl, rfl⟩
  refine ⟨t, _, hn, by simp only [defines, hl.2, Bool.false_and, Bool.false_eq_true, if_false]; rfl, ?_, hsum⟩
  rw [consist_is_parts rid t (by rw [hlen]; split <;> omega) h7, hl.1]
  have e : (rid id, t.shorten) :: t.parts.map (fun p => (rid p.id, p.shorten)) =
      (⟨id, t.shorten⟩ :: t.parts : List Part).map fun p => (rid p.id, p.shorten) := rfl
  have e2 : rid id :: t.parts.map (fun p => rid p.id) = (⟨id, t.shorten⟩ :: t.parts : List Part).map fun p => rid p.id := rfl
  have e3 : (lengths t).map some = (⟨id, t.shorten⟩ :: t.parts : List Part).map fun p => some (lengthOf p.shorten) := by
    simp [lengths]
  have hnd' : ((⟨id, t.shorten⟩ :: t.parts : List Part).map fun p => rid p.id).Nodup := by
    rw [hl.1] at hnd
    simpa [List.map_map, Function.comp_def] using hnd
  rw [e, e2, e3]
  generalize (⟨id, t.shorten⟩ :: t.parts : List Part) = ps at hnd'
  rw [List.map_map]
  apply List.map_congr_left
  intro p hp
  have : (ps.map fun p => (rid p.id, p.shorten)).lookup (rid p.id) = some p.shorten := by
    apply IdMap.lookup_of_mem
    · simpa [List.map_map, Function.comp_def] using hnd'
    · exact List.mem_map.mpr ⟨p, hp, rfl⟩
  simp [Function.comp, this]

/-! ### Other helpers -/

/-- The weight is written as two bytes that make up the weight; it fits exactly if it is in 0..65535. -/
theorem weight_split (w : Int) : (weightProps w).1 + 256 * (weightProps w).2 = w ∧
    ((0 ≤ (weightProps w).1 ∧ (weightProps w).1 < 256 ∧ 0 ≤ (weightProps w).2 ∧ (weightProps w).2 < 256) ↔ 0 ≤ w ∧ w < 65536) := by
  simp only [weightProps]; omega

/-- What the game reads from the visual effect byte: effect (bits 4-6), position (bits 0-3) and whether wagons are *not* powered (bit 7). -/
def visualSpec (b : Nat) : Nat × Nat × Bool := (b / 16 % 8 * 16, b % 16, b / 128 % 2 = 0)

/-- Without wagon power the effect and the position are kept, but the game still powers the wagons: the flag is lost. -/
theorem visual_effect_partial (effect position : Nat) (he : effect ∈ [0x00, 0x10, 0x20, 0x30, 0x40]) (hp : position < 16) :
    visualSpec (visualEffect effect position false) = (effect, position, true) := by
  simp only [List.mem_cons, List.not_mem_nil, or_false] at he
  have h16 : ∀ p, p < 16 → ∀ e ∈ [0x00, 0x10, 0x20, 0x30, 0x40], visualSpec (visualEffect e p false) = (e, p, true) := by decide
  exact h16 position hp effect (by simp only [List.mem_cons, List.not_mem_nil, or_false]; exact he)

/-- With wagon power (the default) effect and position are lost: the result does not depend on them. -/
theorem visual_effect_lost (effect position : Nat) (he : effect < 0x80) (hp : position < 0x80) : visualEffect effect position true = 0x7f := by
  have : ∀ x < 0x80, x ||| 0x7f = 0x7f := by decide
  unfold visualEffect
  simp only [if_true]
  have hor : effect ||| position < 2 ^ 7 := Nat.or_lt_two_pow he hp
  exact this _ hor

example : (new (.str "loco") (some 15) none false).map lengths = some [4, 7, 4] := by decide +kernel
example : (new (.str "loco") (some 24) none false).map lengths = some [8, 8, 8] := by decide +kernel
example : ((new (.str "loco") (some 9) none false).bind fun t => addParts t [(.int 5, 11), (.int 6, 4)]).map lengths =
    some [1, 7, 1, 2, 7, 2, 4] := by decide +kernel

end Grf.Train
