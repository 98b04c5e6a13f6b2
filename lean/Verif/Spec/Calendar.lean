/-!
# Specification: the proleptic Gregorian calendar with a year 0

Independent of the model: calendar days are enumerated one by one starting at 0000-01-01.
-/
namespace Spec

/-- A calendar date. -/
structure CDate where
  year : Nat
  month : Nat
  day : Nat
deriving DecidableEq, Repr

/-- Gregorian leap years: divisible by 4, except centuries, except every fourth century. -/
def Leap (y : Nat) : Prop := (4 ∣ y ∧ ¬ 100 ∣ y) ∨ 400 ∣ y

instance (y : Nat) : Decidable (Leap y) := by unfold Leap; infer_instance

/-- Length of a month. -/
def monthLength (y m : Nat) : Nat :=
  if m = 2 then (if Leap y then 29 else 28)
  else if m = 4 ∨ m = 6 ∨ m = 9 ∨ m = 11 then 30 else 31

/-- Dates that exist. -/
def CDate.Valid (d : CDate) : Prop :=
  1 ≤ d.month ∧ d.month ≤ 12 ∧ 1 ≤ d.day ∧ d.day ≤ monthLength d.year d.month

instance (d : CDate) : Decidable d.Valid := by unfold CDate.Valid; infer_instance

/-- The next calendar day. -/
def CDate.next (d : CDate) : CDate :=
  if d.day < monthLength d.year d.month then { d with day := d.day + 1 }
  else if d.month < 12 then { d with month := d.month + 1, day := 1 }
  else { year := d.year + 1, month := 1, day := 1 }

/-- The `n`-th calendar day, counting 0000-01-01 as day 0. -/
def nthDay : Nat → CDate
  | 0 => ⟨0, 1, 1⟩
  | n + 1 => (nthDay n).next

/-- Calendar order. -/
def CDate.Before (a b : CDate) : Prop :=
  a.year < b.year ∨ (a.year = b.year ∧ (a.month < b.month ∨ (a.month = b.month ∧ a.day < b.day)))

end Spec
