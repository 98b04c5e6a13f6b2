import Verif.Model.PropTables
import Verif.Model.PropCodec
/-!
# Model of the numbers the vehicle classes compute (`grf/lib/rv.py`, `grf/lib/ship.py`, `grf/lib/train.py`, `grf/lib/object.py`)

All numbers are integers (Python would also take fractions).
-/
namespace Grf.Numbers

/-- `RoadVehicle.Speed(precise)` (`grf/lib/rv.py:8-11`): the value in the coarser unit. A `Speed` is represented by `precise_value`. -/
def speedValue (precise : Int) : Int := (precise + 2).fdiv 4

/-- `RoadVehicle.kmhish` (`grf/lib/rv.py:22-24`). -/
def rvKmhish (speed : Int) : Int := speed * 2

/-- `RoadVehicle.mph` (`grf/lib/rv.py:26-29`). -/
def rvMph (speed : Int) : Int := (speed * 16 + 4).fdiv 5

/-- A `max_speed` which is not a `Speed` (`grf/lib/rv.py:44-47`). -/
def rvPlain (speed : Int) : Int := speed * 4

/-- The speed properties of a road vehicle (`grf/lib/rv.py:106-110`): `precise_max_speed` and `max_speed`. -/
def rvProps (precise : Int) : Int × Int := (min precise 0xff, min (speedValue precise) 0xff)

/-- The answer of the `change_properties` callback for the speed, if the vehicle has one because of it (`grf/lib/rv.py:55-63`). -/
def rvCallback (precise : Int) : Option Int := if 0x400 ≤ precise then some (speedValue precise) else none

/-- The length argument of a road vehicle (`grf/lib/rv.py:33-38,49-50`): the property `shorten_by`; `given` is a `shorten_by` among the
other properties. -/
def rvShorten (length given : Option Int) : Option (Option Int) :=
  match length with
  | none => some given
  | some l => if 1 ≤ l ∧ l ≤ 8 then (if given.isSome then none else some (some (8 - l))) else none

/-- `SHIP_KMH_TO_NFO` (`grf/lib/ship.py:5`). -/
def shipKmhTable : List Nat :=
  [0, 2, 4, 6, 8, 10, 12, 14, 16, 18, 20, 22, 24, 26, 28, 30, 32, 34, 36, 38, 40, 42, 44, 46, 48, 50, 52, 54, 56, 58, 60, 62, 64, 66,
   68, 70, 72, 74, 76, 78, 80, 82, 84, 86, 88, 90, 92, 94, 96, 98, 100, 102, 104, 106, 108, 110, 112, 114, 116, 118, 120, 122, 124,
   126, 128, 130, 132, 134, 136, 138, 140, 142, 144, 146, 148, 150, 152, 154, 156, 158, 160, 162, 164, 166, 168, 170, 172, 174, 176,
   178, 180, 182, 184, 186, 188, 190, 192, 194, 196, 198, 200, 202, 204, 206, 208, 210, 212, 214, 216, 218, 220, 222, 224, 226, 228,
   230, 232, 234, 236, 238, 240, 242, 244, 246, 248, 250, 252, 254, 256, 258, 260, 262, 264, 266, 268, 270, 272, 274, 276, 278, 280,
   282, 284, 286, 288, 290, 292, 294, 296, 298, 300, 302, 304, 306, 308, 310, 312, 314, 316, 318, 320, 322, 324, 326, 328, 330, 332,
   334, 336, 338, 340, 342, 342, 344, 346, 348, 350, 352, 354, 356, 358, 360, 362, 364, 366, 368, 370, 372, 374, 376, 378, 380, 382,
   384, 386, 388, 390, 392, 394, 396, 398, 400, 402, 404, 406, 408, 410, 412, 414, 416, 418, 420, 422, 424, 426, 428, 430, 432, 434,
   436, 438, 440, 442, 444, 446, 448, 450, 452, 454, 456, 458, 460, 462, 464, 466, 468, 470, 472, 474, 476, 478, 480, 482, 484, 486,
   488, 490, 492, 494, 496, 498, 500, 502, 504, 506, 508]

/-- `SHIP_MPH_TO_NFO` (`grf/lib/ship.py:6`). -/
def shipMphTable : List Nat :=
  [0, 4, 8, 10, 14, 16, 20, 24, 26, 30, 32, 36, 40, 42, 46, 48, 52, 56, 58, 62, 64, 68, 72, 74, 78, 80, 84, 88, 90, 94, 96, 100, 104,
   106, 110, 112, 116, 120, 122, 126, 128, 132, 136, 138, 142, 144, 148, 152, 154, 158, 160, 164, 168, 170, 174, 176, 180, 184, 186,
   190, 192, 196, 200, 202, 206, 208, 212, 216, 218, 222, 224, 228, 232, 234, 238, 240, 244, 248, 250, 254, 256, 260, 264, 266, 270,
   272, 276, 280, 282, 286, 288, 292, 296, 298, 302, 304, 308, 312, 314, 318, 320, 324, 328, 330, 334, 336, 340, 344, 346, 350, 352,
   356, 360, 362, 366, 368, 372, 376, 378, 382, 384, 388, 392, 394, 398, 400, 404, 408, 410, 414, 416, 420, 424, 426, 430, 432, 436,
   440, 442, 446, 448, 452, 456, 458, 462, 464, 468, 472, 474, 478, 480, 484, 488, 490, 494, 496, 500, 504, 506, 510, 512, 516, 520,
   522, 526, 528, 532, 536, 538, 542, 544, 548, 552, 554, 558, 560, 564, 568, 570, 574, 576, 580, 584, 586, 590, 592, 596, 600, 602,
   606, 608, 612, 616, 618, 622, 624, 628, 632, 634, 638, 640, 644, 648, 650, 654, 656, 660, 664, 666, 670, 672, 676, 680, 682, 686,
   688, 692, 696, 698, 702, 704, 708, 712, 714, 718, 720, 724, 728, 730, 734, 736, 740, 744, 746, 750, 752, 756, 760, 762, 766, 768,
   772, 776, 778, 782, 784, 788, 792, 794, 798, 800, 804, 808, 810, 814, 816]

/-- `_check_speed` (`grf/lib/ship.py:8-13`). The speed equal to the length of the table passes both tests and raises `IndexError`. -/
def checkSpeed (table : List Nat) (speed : Int) : Option Int :=
  if speed < 0 then none
  else if (table.length : Int) < speed then none
  else (table[speed.toNat]?).map Int.ofNat

/-- `Ship.kmh` (`grf/lib/ship.py:19-21`). -/
def shipKmh (speed : Int) : Option Int := checkSpeed shipKmhTable speed

/-- `Ship.kmhish` (`grf/lib/ship.py:23-25`). -/
def shipKmhish (speed : Int) : Int := speed.fdiv 2

/-- `Ship.mph` (`grf/lib/ship.py:27-30`). -/
def shipMph (speed : Int) : Option Int := checkSpeed shipMphTable speed

/-- `Train.mph` (`grf/lib/train.py:23-26`). -/
def trainMph (speed : Int) : Int := (speed * 16 + 4).fdiv 10

/-- `Train.visual_effect_and_powered` (`grf/lib/train.py:36-38`). -/
def visualEffect (effect position : Int) (wagonPower : Bool) : Int :=
  pyOr (pyOr effect position) ((if wagonPower then 1 else 0) * 0x7f)

/-- `weight_low` and `weight_high` (`grf/lib/train.py:269-270`). -/
def weightProps (weight : Int) : Int × Int := (weight.fmod 256, weight.fdiv 256)

/-- `weight_low` and `weight_high` of an articulated part added with a weight (`grf/lib/train.py:161-163`): the code writes the weight of
the train (`self.weight`), not the weight given. -/
def partWeight (train : Int) (given : Option Int) : Option (Int × Int) := given.map fun _ => weightProps train

/-- The size of an `Object` (`grf/lib/object.py:23-25`). -/
def objectSize (x y : Int) : Int := pyOr (y * 16) x

end Grf.Numbers
