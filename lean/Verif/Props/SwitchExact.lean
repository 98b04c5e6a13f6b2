import Verif.Props.Switch
/-!
# C25: exactly what a range table does

`Spec.choose` (`Spec/SwitchSem.lean`) is what the user means. The theorems below say what the emitted table does for every list of
ranges, including the empty one and ranges written backwards.
-/
set_option linter.unusedSimpArgs false
namespace Spec

/-- The values a range of the table catches: those between its ends and, if it is written backwards across zero, all from the low end
upwards and all up to the high end. -/
def UserRange.catches (r : UserRange) (v : Int) : Prop :=
  (r.low ≤ v ∧ v ≤ r.high) ∨ (0 ≤ r.low ∧ r.high < 0 ∧ (r.low ≤ v ∨ v ≤ r.high))

instance (r : UserRange) (v : Int) : Decidable (r.catches v) := by unfold UserRange.catches; infer_instance

/-- The word of the first range that catches the value, otherwise the default. -/
def caught (rs : List UserRange) (dflt : Int) (v : Int) : Int :=
  match rs.find? (fun r => decide (r.catches v)) with
  | some r => r.word
  | none => dflt

end Spec

namespace Grf
open Spec

/-- The entries of any range catch exactly these values. -/
theorem ents_find_exact (r : SRange) (hr : r.inRange) (v : Word) :
    ((ents r).find? (fun e => decide (e.2.1.toNat ≤ v.toNat) && decide (v.toNat ≤ e.2.2.toNat))).map (·.1) =
      if r.user.catches v.toInt then some (getRefId r.ref).toNat else none := by
  by_cases hinv : 0 ≤ r.low ∧ r.high < 0
  · obtain ⟨_, ⟨h1, h2⟩, h3, h4⟩ := hr
    have hv1 := BitVec.toInt_lt (x := v)
    have hv2 := BitVec.le_toInt (x := v)
    simp only [Nat.reducePow, Nat.reduceSub, Int.reducePow] at hv1 hv2
    have he : ents r = [((getRefId r.ref).toNat, BitVec.ofInt 32 r.low, BitVec.ofInt 32 r.high)] := by
      unfold ents; rw [if_neg (by omega)]
    have m := entry_match v h1 h2 h3 h4
    rw [he]
    simp only [List.find?_cons, List.find?_nil]
    by_cases c : (BitVec.ofInt 32 r.low).toNat ≤ v.toNat ∧ v.toNat ≤ (BitVec.ofInt 32 r.high).toNat
    · have : r.user.catches v.toInt := by
        rw [m] at c
        simp only [UserRange.catches, SRange.user]
        have e1 : (if r.low < 0 then r.low + 4294967296 else r.low) = r.low := if_neg (by omega)
        have e2 : (if r.high < 0 then r.high + 4294967296 else r.high) = r.high + 4294967296 := if_pos (by omega)
        rw [e1, e2] at c
        by_cases hs : v.toInt < 0
        · rw [if_pos hs] at c; omega
        · rw [if_neg hs] at c; omega
      rw [if_pos this]
      simp only [c.1, c.2, decide_true, Bool.and_self, Option.map_some]
    · have : ¬ r.user.catches v.toInt := by
        rw [m] at c
        simp only [UserRange.catches, SRange.user]
        have e1 : (if r.low < 0 then r.low + 4294967296 else r.low) = r.low := if_neg (by omega)
        have e2 : (if r.high < 0 then r.high + 4294967296 else r.high) = r.high + 4294967296 := if_pos (by omega)
        rw [e1, e2] at c
        by_cases hs : v.toInt < 0
        · rw [if_pos hs] at c; omega
        · rw [if_neg hs] at c; omega
      rw [if_neg this]
      have f : (decide ((BitVec.ofInt 32 r.low).toNat ≤ v.toNat) && decide (v.toNat ≤ (BitVec.ofInt 32 r.high).toNat)) = false := by
        rw [Bool.and_eq_false_iff]; simp only [decide_eq_false_iff_not]; omega
      simp only [f, Option.map_none]
  · rw [ents_find r hr hinv v]
    have : r.user.catches v.toInt ↔ (r.low ≤ v.toInt ∧ v.toInt ≤ r.high) := by
      simp only [UserRange.catches, SRange.user]; omega
    by_cases c : r.low ≤ v.toInt ∧ v.toInt ≤ r.high
    · rw [if_pos c, if_pos (this.2 c)]
    · rw [if_neg c, if_neg (fun x => c (this.1 x))]

theorem find_flatMap_exact (rs : List SRange) (hr : ∀ r ∈ rs, r.inRange) (v : Word) :
    ((rs.flatMap ents).find? (fun e => decide (e.2.1.toNat ≤ v.toNat) && decide (v.toNat ≤ e.2.2.toNat))).map (·.1) =
      (((rs.map SRange.user).find? (fun r => decide (r.catches v.toInt))).map (·.word)).map Int.toNat := by
  induction rs with
  | nil => rfl
  | cons r rs ih =>
    have e := ents_find_exact r (hr r (by simp)) v
    have ih := ih (fun x hx => hr x (by simp [hx]))
    simp only [List.flatMap_cons, List.find?_append, List.map_cons, List.find?_cons]
    by_cases c : r.user.catches v.toInt
    · rw [if_pos c] at e
      simp only [Option.map_eq_some_iff] at e
      obtain ⟨x, hx, hx2⟩ := e
      rw [hx, decide_eq_true c]
      simp [hx2, SRange.user]
    · rw [if_neg c] at e
      simp only [Option.map_eq_none_iff] at e
      rw [e]
      simp only [c, decide_false, Option.none_or]
      exact ih

/-- **C25** For every list of ranges and every default that grf-py accepts and every 32-bit value, the emitted table - whatever bytes
follow it - makes the game do exactly this: without ranges, return the value; otherwise continue with the target of the first range
that catches the value, or with the default. -/
theorem table_exact (rs : List SRange) (dflt : Target) (bs : Bytes) (h : encodeTable rs dflt = some bs) :
    ∃ t, (∀ rest, parseTable (bs ++ rest) = some (t, rest)) ∧
      ∀ v : Word, (rs = [] → select t v = .computed v) ∧
        (rs ≠ [] → ∃ n : Nat, select t v = .goto n ∧ (n : Int) = caught (rs.map SRange.user) (getRefId dflt) v.toInt) := by
  obtain ⟨hr, hd, hp⟩ := encodeTable_some h
  refine ⟨_, hp, fun v => ⟨?_, ?_⟩⟩
  · rintro rfl; rfl
  intro hne
  have hf := find_flatMap_exact rs hr v
  have hemp : (rs.flatMap ents).isEmpty = false := by
    cases rs with
    | nil => exact absurd rfl hne
    | cons r rs =>
      simp only [List.flatMap_cons]
      unfold ents
      split <;> rfl
  simp only [select, hemp, Bool.false_eq_true, if_false, caught]
  cases hu : (rs.map SRange.user).find? (fun r => decide (r.catches v.toInt)) with
  | none =>
    rw [hu] at hf
    simp only [Option.map_none, Option.map_eq_none_iff] at hf
    rw [hf]
    exact ⟨_, rfl, by simp only []; omega⟩
  | some u =>
    rw [hu] at hf
    simp only [Option.map_some, Option.map_eq_some_iff] at hf
    obtain ⟨x, hx, hx2⟩ := hf
    rw [hx]
    refine ⟨_, rfl, ?_⟩
    have hm := List.mem_of_find?_eq_some hu
    simp only [List.mem_map] at hm
    obtain ⟨r, hrm, rfl⟩ := hm
    have := (hr r hrm).1
    simp only [SRange.user] at hx2 ⊢
    omega

/-- A range not written backwards across zero catches the values it contains. -/
theorem catches_forward (r : UserRange) (h : ¬ (0 ≤ r.low ∧ r.high < 0)) (v : Int) : r.catches v ↔ r.low ≤ v ∧ v ≤ r.high := by
  unfold UserRange.catches; omega

theorem caught_cons (u : UserRange) (us : List UserRange) (d v : Int) :
    caught (u :: us) d v = if u.catches v then u.word else caught us d v := by
  unfold caught
  rw [List.find?_cons]
  by_cases c : u.catches v
  · simp [c]
  · simp [c]

/-- **C25** What the table does is what the user means, for all values, exactly when no range catches a value that the ranges before it
leave over, that it does not contain, and that the user sends elsewhere. -/
theorem caught_eq_choose_iff (rs : List UserRange) (d v : Int) :
    caught rs d v = choose rs d v ↔
      ∀ (us : List UserRange) (u : UserRange) (ws : List UserRange), rs = us ++ u :: ws → (∀ x ∈ us, ¬ x.catches v) → u.catches v →
        ¬ (u.low ≤ v ∧ v ≤ u.high) → choose ws d v = u.word := by
  induction rs with
  | nil =>
    refine ⟨fun _ us u ws e => by simp at e, fun _ => rfl⟩
  | cons r rs ih =>
    rw [caught_cons, choose_cons]
    by_cases c : r.catches v
    · rw [if_pos c]
      by_cases c2 : r.low ≤ v ∧ v ≤ r.high
      · rw [if_pos c2]
        refine ⟨fun _ us u ws e h1 h2 h3 => ?_, fun _ => rfl⟩
        cases us with
        | nil => simp at e; obtain ⟨rfl, rfl⟩ := e; exact absurd c2 h3
        | cons x us => simp at e; obtain ⟨rfl, rfl⟩ := e; exact absurd c (h1 r (by simp))
      · rw [if_neg c2]
        constructor
        · intro e us u ws e' h1 h2 h3
          cases us with
          | nil => simp at e'; obtain ⟨rfl, rfl⟩ := e'; exact e.symm
          | cons x us => simp at e'; obtain ⟨rfl, rfl⟩ := e'; exact absurd c (h1 r (by simp))
        · intro hh
          exact (hh [] r rs rfl (by simp) c c2).symm
    · have c2 : ¬ (r.low ≤ v ∧ v ≤ r.high) := fun x => c (Or.inl x)
      rw [if_neg c, if_neg c2, ih]
      constructor
      · intro hh us u ws e h1 h2 h3
        cases us with
        | nil => simp at e; obtain ⟨rfl, rfl⟩ := e; exact absurd h2 c
        | cons x us =>
          simp at e; obtain ⟨rfl, rfl⟩ := e
          exact hh us u ws rfl (fun y hy => h1 y (by simp [hy])) h2 h3
      · intro hh us u ws e h1 h2 h3
        exact hh (r :: us) u ws (by rw [e]; rfl) (by
          intro x hx
          rcases List.mem_cons.1 hx with rfl | hx
          · exact c
          · exact h1 x hx) h2 h3

theorem packRange_isSome {ref lo hi : Int} : (packRange ref lo hi).isSome = true ↔ (0 ≤ ref ∧ ref < 65536) ∧
    (-2147483648 ≤ lo ∧ lo < 2147483648) ∧ (-2147483648 ≤ hi ∧ hi < 2147483648) := by
  constructor
  · intro h
    obtain ⟨b, hb⟩ := Option.isSome_iff_exists.1 h
    obtain ⟨_, h1, h2, h3, _⟩ := packRange_some hb
    exact ⟨h1, h2, h3⟩
  · rintro ⟨h1, h2, h3⟩
    have e1 : ∃ b, packU 2 ref = some b := by
      unfold packU
      rw [if_pos (by simp only [Nat.reducePow]; omega)]; exact ⟨_, rfl⟩
    have e2 : ∀ x : Int, -2147483648 ≤ x ∧ x < 2147483648 → ∃ b, packS 4 x = some b := by
      intro x hx
      unfold packS
      simp only [Nat.reducePow, Nat.reduceDiv]
      rw [if_pos (by omega)]; exact ⟨_, rfl⟩
    obtain ⟨b1, e1⟩ := e1
    obtain ⟨b2, h2⟩ := e2 lo h2
    obtain ⟨b3, h3⟩ := e2 hi h3
    simp [packRange, cat, e1, h2, h3]

theorem encodeRange_isSome (r : SRange) : (encodeRange r).isSome = true ↔ r.inRange := by
  constructor
  · intro h
    obtain ⟨b, hb⟩ := Option.isSome_iff_exists.1 h
    exact (encodeRange_some hb).2.1
  · rintro ⟨h1, h2, h3⟩
    unfold encodeRange
    split
    · next hc =>
      obtain ⟨a, ha⟩ := Option.isSome_iff_exists.1 (packRange_isSome.2 ⟨h1, h2, (by omega : -2147483648 ≤ (-1 : Int) ∧ (-1 : Int) < 2147483648)⟩)
      obtain ⟨b, hb⟩ := Option.isSome_iff_exists.1 (packRange_isSome.2 ⟨h1, (by omega : -2147483648 ≤ (0 : Int) ∧ (0 : Int) < 2147483648), h3⟩)
      simp [cat, ha, hb]
    · exact packRange_isSome.2 ⟨h1, h2, h3⟩

theorem encodeRanges_isSome (rs : List SRange) (h : ∀ r ∈ rs, r.inRange) : (encodeRanges rs).isSome = true := by
  induction rs with
  | nil => rfl
  | cons r rs ih =>
    obtain ⟨a, ha⟩ := Option.isSome_iff_exists.1 ((encodeRange_isSome r).2 (h r (by simp)))
    obtain ⟨b, hb⟩ := Option.isSome_iff_exists.1 (ih (fun x hx => h x (by simp [hx])))
    simp only [encodeRanges] at hb ⊢
    simp [cat, ha, hb]

/-- Ranges from a negative to a non-negative number take two entries. -/
def SRange.crosses (r : SRange) : Bool := decide (r.low < 0) && decide (0 ≤ r.high)

theorem ents_length (rs : List SRange) : (rs.flatMap ents).length = rs.length + (rs.filter SRange.crosses).length := by
  induction rs with
  | nil => rfl
  | cons r rs ih =>
    simp only [List.flatMap_cons, List.length_append, List.length_cons, ih, List.filter_cons]
    unfold ents SRange.crosses
    by_cases c : r.low < 0 ∧ 0 ≤ r.high
    · simp [c.1, c.2]; omega
    · rw [if_neg c]
      have : (decide (r.low < 0) && decide (0 ≤ r.high)) = false := by
        rw [Bool.and_eq_false_iff]; simp only [decide_eq_false_iff_not]; omega
      simp [this]; omega

/-- **C25** A range table is accepted exactly when all target words fit 16 bits, all ends fit 32 bits and there are at most 255 entries,
counting twice the ranges from a negative to a non-negative number. -/
theorem table_accepted_iff (rs : List SRange) (dflt : Target) :
    (encodeTable rs dflt).isSome = true ↔ (∀ r ∈ rs, (0 ≤ getRefId r.ref ∧ getRefId r.ref < 65536) ∧
      (-2147483648 ≤ r.low ∧ r.low < 2147483648) ∧ (-2147483648 ≤ r.high ∧ r.high < 2147483648)) ∧
      (0 ≤ getRefId dflt ∧ getRefId dflt < 65536) ∧ rs.length + (rs.filter SRange.crosses).length ≤ 255 := by
  constructor
  · intro h
    obtain ⟨bs, hb⟩ := Option.isSome_iff_exists.1 h
    obtain ⟨h1, h2, _⟩ := encodeTable_some hb
    refine ⟨h1, h2, ?_⟩
    simp only [encodeTable, Option.bind_eq_bind, Option.bind_eq_some_iff, Option.some.injEq] at hb
    obtain ⟨b1, h3, n, hn, d, hd, rfl⟩ := hb
    obtain ⟨l1, _, _⟩ := encodeRanges_some h3
    obtain ⟨_, h4, _⟩ := packU_some hn
    rw [← ents_length]
    have : b1.length / 10 = (rs.flatMap ents).length := by omega
    rw [this] at h4
    simp only [Nat.pow_one] at h4
    omega
  · rintro ⟨h1, h2, h3⟩
    obtain ⟨b, hb⟩ := Option.isSome_iff_exists.1 (encodeRanges_isSome rs h1)
    obtain ⟨l1, _, _⟩ := encodeRanges_some hb
    rw [← ents_length] at h3
    have e : b.length / 10 = (rs.flatMap ents).length := by omega
    have e1 : ∃ x, packU 1 ((b.length / 10 : Nat) : Int) = some x := by
      unfold packU; rw [e, if_pos (by simp only [Nat.pow_one]; omega)]; exact ⟨_, rfl⟩
    have e2 : ∃ x, packU 2 (getRefId dflt) = some x := by
      unfold packU; rw [if_pos (by simp only [Nat.reducePow]; omega)]; exact ⟨_, rfl⟩
    obtain ⟨x, e1⟩ := e1
    obtain ⟨y, e2⟩ := e2
    simp only [encodeTable, hb, e1, e2, Option.bind_eq_bind, Option.bind_some, Option.isSome_some]

/-- Non-vacuity: a table with a backwards range, and values on both sides of it. -/
example : (encodeTable [⟨5, -3, .action 1⟩, ⟨-10, 10, .num 2⟩] (.action 9)).isSome = true ∧
    caught ([⟨5, -3, .action 1⟩, ⟨-10, 10, .num 2⟩].map SRange.user) 9 7 = 1 ∧
    caught ([⟨5, -3, .action 1⟩, ⟨-10, 10, .num 2⟩].map SRange.user) 9 0 = 0x8002 ∧
    choose ([⟨5, -3, .action 1⟩, ⟨-10, 10, .num 2⟩].map SRange.user) 9 7 = 0x8002 := by decide

end Grf
