import Verif.Model.SpriteData
/-!
# Model of palette remaps (`grf/sprites.py`)

A remap is the list of its entries. Numbers put into a `uint8` array are reduced modulo 256 (numpy 1.25, the version required by
`setup.py:11`; they are assumed to fit a C long).
-/
namespace Grf.Remap
open SpriteData

/-- What a range is mapped to: a colour for the whole range, or a list of colours. For `grf/sprites.py:265`. -/
inductive Value where
  | one (v : Int)
  | list (l : List Int)
deriving DecidableEq, Repr

/-- A range `(f, t, v)` (`grf/sprites.py:265`). -/
structure Range where
  first : Int
  last : Int
  value : Value
deriving DecidableEq, Repr

/-- Storing a number in a `uint8` array. For `grf/sprites.py:250-255`. -/
def toByte (v : Int) : UInt8 := UInt8.ofNat (v % 256).toNat

/-- `PaletteRemap()` without ranges (`grf/sprites.py:235`). -/
def identity : Bytes := (List.range 256).map UInt8.ofNat

/-- numpy's broadcasting of a value to a slice of a length. A list has to have the length of the slice, or one item. For `grf/sprites.py:266`. -/
def Value.broadcast (n : Nat) : Value → Option Bytes
  | .one v => some (List.replicate n (toByte v))
  | .list l =>
    if l.length = n then some (l.map toByte)
    else match l with
      | [v] => some (List.replicate n (toByte v))
      | _ => none

/-- `self.remap[f: t + 1] = v` (`grf/sprites.py:266`). -/
def assign (a : Bytes) (r : Range) : Option Bytes :=
  let i := pyIndex a.length r.first
  let j := pyIndex a.length (r.last + 1)
  (r.value.broadcast (j - i)).map fun vs => a.take i ++ vs ++ a.drop (i + vs.length)

/-- `PaletteRemap.set_ranges` (`grf/sprites.py:263-266`). -/
def setRanges : Bytes → List Range → Option Bytes
  | a, [] => some a
  | a, r :: rs => (assign a r).bind (setRanges · rs)

/-- `PaletteRemap(ranges)` (`grf/sprites.py:234-237`). -/
def make (ranges : List Range) : Option Bytes := setRanges identity ranges

/-- `PaletteRemap.from_array` (`grf/sprites.py:250-255`). -/
def fromArray (l : List Int) : Option Bytes := if l.length = 256 then some (l.map toByte) else none

/-- `PaletteRemap.from_buffer` (`grf/sprites.py:257-261`): any length. -/
def fromBuffer (b : Bytes) : Bytes := b

/-- `PaletteRemap.get_data` (`grf/sprites.py:239-240`). -/
def getData (remap : Bytes) : Bytes := 0 :: remap

/-- `PaletteRemap.remap_array` and `remap_image` (`grf/sprites.py:268-277`) on the pixels of a picture in rows. A pixel without entry is
an `IndexError`. -/
def remapArray (remap : Bytes) (a : List (List UInt8)) : Option (List (List UInt8)) :=
  a.mapM (fun row => row.mapM (fun p => remap[p.toNat]?))

/-- `oklab_from_function` (`grf/sprites.py:242-248`): the entry of every colour of the range is chosen by a function (the colour function
followed by the search for the nearest colour), the others stay. -/
def fromFunction (best : Nat → UInt8) (range : List Nat) : Option Bytes :=
  range.foldlM (fun a i => if i < a.length then some (a.set i (best i)) else none) identity

end Grf.Remap
