import Verif.Model.Remap
import Verif.Props.SpriteData
/-!
# C45: palette remaps map exactly the requested ranges
-/
namespace Grf.Remap
open SpriteData

/-! ### What a list of ranges asks for -/

/-- A range covers the colours from its first to its last one. -/
def Range.covers (r : Range) (c : Nat) : Bool := decide (r.first ≤ (c : Int)) && decide ((c : Int) ≤ r.last)

/-- The colour a range asks for: the single one given, or the one at the colour's place. -/
def Range.colour (r : Range) (c : Nat) : Int :=
  match r.value with
  | .one v => v
  | .list [v] => v
  | .list l => (l[((c : Int) - r.first).toNat]?).getD 0

/-- The last range that covers the colour decides. -/
def wanted (ranges : List Range) (c : Nat) : Int :=
  match ranges.reverse.find? (·.covers c) with
  | some r => r.colour c
  | none => c

/-- How many of the 256 colours a range covers. -/
def Range.count (r : Range) : Nat := ((List.range 256).filter (fun c => r.covers c)).length

/-- Colour numbers are not negative (an empty range may end at -1). -/
def Range.proper (r : Range) : Prop := 0 ≤ r.first ∧ -1 ≤ r.last

instance (r : Range) : Decidable r.proper := inferInstanceAs (Decidable (_ ∧ _))

/-! ### Lemmas -/

theorem count_between (n a b : Nat) : ((List.range n).filter (fun c => decide (a ≤ c) && decide (c < b))).length = min b n - min a n := by
  induction n with
  | zero => simp
  | succ n ih =>
    rw [List.range_succ, List.filter_append, List.length_append, ih]
    by_cases h : a ≤ n ∧ n < b
    · simp [h.1, h.2]; omega
    · have : (decide (a ≤ n) && decide (n < b)) = false := by simp; omega
      simp [this]; omega

theorem Range.count_eq (r : Range) (h : r.proper) : r.count = pyIndex 256 (r.last + 1) - pyIndex 256 r.first := by
  obtain ⟨h1, h2⟩ := h
  have e : (fun c => r.covers c) = (fun c : Nat => decide (r.first.toNat ≤ c) && decide (c < (r.last + 1).toNat)) := by
    funext c
    unfold Range.covers
    congr 1
    · apply decide_eq_decide.mpr; omega
    · apply decide_eq_decide.mpr; omega
  unfold Range.count
  rw [e, count_between]
  unfold pyIndex
  rw [if_neg (by omega), if_neg (by omega)]

theorem broadcast_length {n : Nat} {v : Value} {vs : Bytes} (h : v.broadcast n = some vs) : vs.length = n := by
  cases v with
  | one v => simp only [Value.broadcast, Option.some.injEq] at h; subst h; simp
  | list l =>
    simp only [Value.broadcast] at h
    split at h
    · next hl => simp only [Option.some.injEq] at h; subst h; simp [hl]
    · split at h
      · simp only [Option.some.injEq] at h; subst h; simp
      · cases h

theorem assign_spec (a : Bytes) (r : Range) (b : Bytes) (ha : a.length = 256) (hp : r.proper) (h : assign a r = some b) :
    b.length = 256 ∧ ∀ c, c < 256 → b[c]? = if r.covers c then some (toByte (r.colour c)) else a[c]? := by
  obtain ⟨h1, h2⟩ := hp
  unfold assign at h
  simp only [ha, Option.map_eq_some_iff] at h
  obtain ⟨vs, hvs, rfl⟩ := h
  have hl := broadcast_length hvs
  have ei : pyIndex 256 r.first = min r.first.toNat 256 := by unfold pyIndex; rw [if_neg (by omega)]
  have ej : pyIndex 256 (r.last + 1) = min (r.last + 1).toNat 256 := by unfold pyIndex; rw [if_neg (by omega)]
  generalize hi : pyIndex 256 r.first = i at *
  generalize hj : pyIndex 256 (r.last + 1) = j at *
  refine ⟨by simp only [List.length_append, List.length_take, List.length_drop, ha, hl]; omega, fun c hc => ?_⟩
  by_cases hcv : r.covers c = true
  · rw [if_pos hcv]
    unfold Range.covers at hcv
    simp only [Bool.and_eq_true, decide_eq_true_eq] at hcv
    have k1 : i ≤ c := by omega
    have k2 : c < j := by omega
    rw [List.append_assoc, List.getElem?_append_right (by rw [List.length_take]; omega), List.length_take, ha, Nat.min_eq_left (by omega),
      List.getElem?_append_left (by omega)]
    have k3 : ((c : Int) - r.first).toNat = c - i := by omega
    unfold Range.colour
    cases hv : r.value with
    | one v =>
      rw [hv] at hvs
      simp only [Value.broadcast, Option.some.injEq] at hvs
      subst hvs
      rw [List.getElem?_replicate, if_pos (by omega)]
    | list l =>
      rw [hv] at hvs
      simp only [Value.broadcast] at hvs
      split at hvs
      · next hll =>
        simp only [Option.some.injEq] at hvs
        subst hvs
        rw [List.getElem?_map]
        split
        · cases ‹Value.list _ = _›
        · next v hvl =>
          cases hvl
          have : c - i = 0 := by simp at hll; omega
          rw [this]; rfl
        · next l' _ hvl =>
          cases hvl
          rw [k3, List.getElem?_eq_getElem (by omega)]; rfl
      · next hll =>
        split at hvs
        · next v =>
          simp only [Option.some.injEq] at hvs
          subst hvs
          rw [List.getElem?_replicate, if_pos (by omega)]
        · cases hvs
  · rw [if_neg hcv]
    have : c < i ∨ j ≤ c ∧ i ≤ c := by
      unfold Range.covers at hcv
      simp only [Bool.and_eq_true, decide_eq_true_eq] at hcv
      omega
    rcases this with k | ⟨k, k'⟩
    · rw [List.append_assoc, List.getElem?_append_left (by rw [List.length_take]; omega), List.getElem?_take, if_pos k]
    · rw [List.getElem?_append_right (by simp only [List.length_append, List.length_take]; omega), List.getElem?_drop]
      congr 1
      simp only [List.length_append, List.length_take]; omega

theorem setRanges_spec (ranges : List Range) : ∀ (a b : Bytes), a.length = 256 → (∀ r ∈ ranges, r.proper) → setRanges a ranges = some b →
    b.length = 256 ∧ ∀ c, c < 256 → b[c]? = match ranges.reverse.find? (·.covers c) with
      | some r => some (toByte (r.colour c))
      | none => a[c]? := by
  induction ranges with
  | nil =>
    intro a b ha _ h
    simp only [setRanges, Option.some.injEq] at h
    subst h
    exact ⟨ha, fun c _ => rfl⟩
  | cons r rs ih =>
    intro a b ha hp h
    simp only [setRanges, Option.bind_eq_some_iff] at h
    obtain ⟨a', h1, h2⟩ := h
    obtain ⟨l1, s1⟩ := assign_spec a r a' ha (hp r List.mem_cons_self) h1
    obtain ⟨l2, s2⟩ := ih a' b l1 (fun r hr => hp r (List.mem_cons_of_mem _ hr)) h2
    refine ⟨l2, fun c hc => ?_⟩
    rw [s2 c hc, List.reverse_cons, List.find?_append]
    cases hf : rs.reverse.find? (·.covers c) with
    | some r' => rfl
    | none =>
      simp only [Option.none_or]
      rw [s1 c hc]
      by_cases hcv : r.covers c = true
      · simp [hcv]
      · simp [hcv]

theorem identity_at (c : Nat) (hc : c < 256) : identity[c]? = some (toByte c) := by
  unfold identity
  rw [List.getElem?_map, List.getElem?_range hc, Option.map_some]
  unfold toByte
  congr 2
  omega

/-! ### The claims -/

/-- A remap built from ranges has 256 entries, and each is what the last covering range asks for, or the colour itself. -/
theorem remap_exact (ranges : List Range) (m : Bytes) (hr : ∀ r ∈ ranges, r.proper) (h : make ranges = some m) :
    m.length = 256 ∧ ∀ c, c < 256 → m[c]? = some (toByte (wanted ranges c)) := by
  obtain ⟨h1, h2⟩ := setRanges_spec ranges identity m (by simp [identity]) hr h
  refine ⟨h1, fun c hc => ?_⟩
  rw [h2 c hc]
  unfold wanted
  cases ranges.reverse.find? (·.covers c) with
  | some r => rfl
  | none => exact identity_at c hc

theorem toByte_small (v : Int) (h0 : 0 ≤ v) (h1 : v < 256) : ((toByte v).toNat : Int) = v := by
  unfold toByte
  rw [UInt8.toNat_ofNat']
  omega

/-- A remap is refused exactly if it has a list that does not fit its range. -/
theorem remap_accepted_iff (ranges : List Range) (hr : ∀ r ∈ ranges, r.proper) :
    (make ranges).isSome ↔ ∀ r ∈ ranges, ∀ l, r.value = .list l → l.length = 1 ∨ l.length = r.count := by
  unfold make
  have hl : identity.length = 256 := by simp [identity]
  revert hl
  generalize identity = a
  induction ranges generalizing a with
  | nil => intro _; simp [setRanges]
  | cons r rs ih =>
    intro ha
    have hp := hr r List.mem_cons_self
    have hr' := fun r' h' => hr r' (List.mem_cons_of_mem _ h')
    simp only [List.mem_cons, forall_eq_or_imp]
    have key : (assign a r).isSome ↔ ∀ l, r.value = .list l → l.length = 1 ∨ l.length = r.count := by
      unfold assign
      simp only [ha, Option.isSome_map, ← r.count_eq hp]
      cases hv : r.value with
      | one v => simp [Value.broadcast]
      | list l =>
        simp only [Value.list.injEq, forall_eq', Value.broadcast]
        split
        · next h => simp [h]
        · next h =>
          match l, h with
          | [], h => simpa using h
          | [v], _ => simp
          | v :: w :: l, h => simpa using h
    cases hs : assign a r with
    | none =>
      rw [hs] at key
      simp only [setRanges, hs, Option.bind_none, Option.isSome_none, Bool.false_eq_true, false_iff, not_and]
      intro h
      exact absurd (key.mpr h) (by simp)
    | some b =>
      have hb := (assign_spec a r b ha hp hs).1
      have k : ∀ l, r.value = .list l → l.length = 1 ∨ l.length = r.count := key.mp (by rw [hs]; rfl)
      simp only [setRanges, hs, Option.bind_some, ih hr' b hb]
      constructor
      · intro h; exact ⟨k, h⟩
      · intro h; exact h.2

/-- The encoded form is a zero byte and the 256 entries, and the entries come back from it. -/
theorem remap_encoding (ranges : List Range) (m : Bytes) (hr : ∀ r ∈ ranges, r.proper) (h : make ranges = some m) :
    ∃ e, getData m = 0 :: e ∧ e.length = 256 ∧ (∀ c, c < 256 → e[c]? = some (toByte (wanted ranges c))) ∧ fromBuffer e = m := by
  obtain ⟨h1, h2⟩ := remap_exact ranges m hr h
  exact ⟨m, rfl, h1, h2, rfl⟩

/-- Different tables have different encodings. -/
theorem remap_encoding_injective (a b : Bytes) (h : getData a = getData b) : a = b := by
  unfold getData at h
  exact (List.cons.inj h).2

/-- Recolouring a picture replaces each pixel by what the ranges ask for. -/
theorem remap_picture (ranges : List Range) (m : Bytes) (hr : ∀ r ∈ ranges, r.proper) (h : make ranges = some m) (a : List (List UInt8)) :
    remapArray m a = some (a.map (·.map (fun p => toByte (wanted ranges p.toNat)))) := by
  obtain ⟨_, h2⟩ := remap_exact ranges m hr h
  unfold remapArray
  have e : (fun p : UInt8 => m[p.toNat]?) = fun p => some (toByte (wanted ranges p.toNat)) := by
    funext p; exact h2 _ p.toNat_lt
  rw [e]
  have m1 : ∀ {α β : Type} (g : α → β) (l : List α), l.mapM (fun x => some (g x)) = some (l.map g) := by
    intro α β g l
    induction l with
    | nil => rfl
    | cons x l ih => rw [List.mapM_cons, ih]; rfl
  have e2 : (fun row : List UInt8 => row.mapM (fun p => some (toByte (wanted ranges p.toNat)))) =
      fun row => some (row.map (fun p => toByte (wanted ranges p.toNat))) := by funext row; exact m1 _ row
  rw [e2]
  exact m1 _ a

/-- A table given in full is taken as it is; any other length is refused. -/
theorem from_array_exact (l : List Int) : (∀ m, fromArray l = some m → m.length = 256 ∧ ∀ c, c < 256 → m[c]? = (l[c]?).map toByte) ∧
    ((fromArray l).isSome ↔ l.length = 256) := by
  unfold fromArray
  split
  · next h =>
    refine ⟨fun m hm => ?_, by simp [h]⟩
    simp only [Option.some.injEq] at hm
    subst hm
    exact ⟨by simp [h], fun c _ => by rw [List.getElem?_map]⟩
  · next h => exact ⟨(fun m hm => by cases hm), by simp [h]⟩

/-- A remap made from a colour function has the chosen colours in its range and the colours themselves elsewhere. -/
theorem from_function_exact (best : Nat → UInt8) (range : List Nat) (m : Bytes) (h : fromFunction best range = some m) :
    m.length = 256 ∧ ∀ c, c < 256 → m[c]? = some (if c ∈ range then best c else toByte c) := by
  have key : ∀ (range : List Nat) (a b : Bytes), range.foldlM (fun a i => if i < a.length then some (a.set i (best i)) else none) a = some b →
      b.length = a.length ∧ ∀ c, c < a.length → b[c]? = if c ∈ range then some (best c) else a[c]? := by
    intro range
    induction range with
    | nil => intro a b h; simp only [List.foldlM_nil] at h; cases h; exact ⟨rfl, fun c _ => by simp⟩
    | cons i is ih =>
      intro a b h
      simp only [List.foldlM_cons, Option.bind_eq_bind, Option.bind_eq_some_iff] at h
      obtain ⟨a', h1, h2⟩ := h
      split at h1
      · next hi =>
        simp only [Option.some.injEq] at h1
        subst h1
        obtain ⟨l1, s1⟩ := ih _ _ h2
        rw [List.length_set] at l1
        refine ⟨l1, fun c hc => ?_⟩
        rw [s1 c (by rw [List.length_set]; exact hc)]
        by_cases hm : c ∈ is
        · simp [hm]
        · by_cases hci : c = i
          · subst hci; simp [hm, hc]
          · have : i ≠ c := fun h => hci h.symm
            simp [hm, hci, List.getElem?_set_ne this]
      · cases h1
  obtain ⟨l, s⟩ := key range identity m h
  have hl : identity.length = 256 := by simp [identity]
  refine ⟨by rw [l, hl], fun c hc => ?_⟩
  rw [s c (by omega), identity_at c hc]
  split <;> rfl

/-- Negative colour numbers count from the end, and a range from -10 to -1 changes nothing. -/
theorem negative_range_empty (v : Int) : make [⟨-10, -1, .one v⟩] = some identity := by
  have : make [⟨-10, -1, .one v⟩] = (assign identity ⟨-10, -1, .one v⟩).bind (fun b => some b) := rfl
  rw [this]
  unfold assign
  have hl : identity.length = 256 := by simp [identity]
  simp only [hl]
  have : pyIndex 256 (-1 + 1) - pyIndex 256 (-10) = 0 := by decide
  rw [this]
  simp [Value.broadcast, pyIndex]

/-- A table of another length, as made from a buffer, is written with that length. -/
theorem short_buffer_written (b : Bytes) : getData (fromBuffer b) = 0 :: b := rfl

/-- Overlapping ranges, a list and a single colour. -/
example : (∀ r ∈ [(⟨10, 19, .one 5⟩ : Range), ⟨12, 14, .list [1, 2, 3]⟩, ⟨14, 300, .list [7]⟩], r.proper) ∧
    (make [⟨10, 19, .one 5⟩, ⟨12, 14, .list [1, 2, 3]⟩, ⟨14, 300, .list [7]⟩]).map (fun m => [m[9]?, m[10]?, m[13]?, m[14]?, m[255]?]) =
      some [some 9, some 5, some 2, some 7, some 7] := by decide +kernel

/-- A colour function on two colours. -/
example : (fromFunction (fun i => UInt8.ofNat (i + 1)) [5, 7]).map (fun m => [m[5]?, m[6]?, m[7]?]) = some [some 6, some 6, some 8] := by decide +kernel

end Grf.Remap
