/-!
# What the game makes of the numbers of a vehicle

The meaning of the Action 0 properties of vehicles which the library computes from the arguments of its classes. Nothing here uses the
model.
-/
namespace Spec

/-- The top speed of a road vehicle, in units of half a km/h-ish: property 08 counts single units, property 15 counts four units and goes
before property 08 unless it is 0, and an answer of the callback for property 15 goes before both, unless it is 0. -/
def roadSpeed (prop08 prop15 : Nat) (callback : Option Nat) : Nat :=
  match callback with
  | some c => if c ≠ 0 then 4 * c else if prop15 ≠ 0 then 4 * prop15 else prop08
  | none => if prop15 ≠ 0 then 4 * prop15 else prop08

/-- The weight of a train in tonnes: property 16 is the low byte, property 24 the high byte. -/
def trainWeight (prop16 prop24 : Nat) : Nat := prop16 + 256 * prop24

/-- The visual effect of a vehicle: bits 0-3 the position, bits 4-5 the effect, bit 6 set to disable it; the value 0 leaves everything to the
game. -/
structure Effect where
  position : Nat
  effect : Nat
  disabled : Bool
  /-- bit 7 of the property: wagons get no power -/
  noWagonPower : Bool
deriving DecidableEq, Repr

/-- The four fields of the byte of the property `visual effect and powered`. -/
def effectOf (b : Nat) : Effect := ⟨b % 16, b / 16 % 4, b / 64 % 2 = 1, b / 128 % 2 = 1⟩

/-- The size of an object in tiles: the low nibble in one direction, the high nibble in the other. -/
def objectTiles (b : Nat) : Nat × Nat := (b % 16, b / 16)

end Spec
