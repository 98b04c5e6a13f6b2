/-!
# Model of `AlternativeSprites` (`grf/sprites.py:158-181`)
-/
namespace Grf.Alternatives

/-- What is used of a sprite: its zoom, and its depth if it was given (`grf/sprites.py:290-302`). -/
structure Spr where
  zoom : Nat
  bpp : Option Nat
deriving DecidableEq

/-- `len(set(...))` of the pairs of zoom and depth: how many different ones. For `grf/sprites.py:159-167`. -/
def distinct : List Spr → List Spr
  | [] => []
  | s :: r => if s ∈ distinct r then distinct r else s :: distinct r

/-- The constructor (`grf/sprites.py:159-167`), `none` is `ValueError`. -/
def make (l : List Spr) : Option (List Spr) := if (distinct l).length ≠ l.length then none else some l

/-- `get_sprite` (`grf/sprites.py:169-173`): the number of the sprite returned. -/
def getSprite (l : List Spr) (zoom : Option Nat) (bpp : Option Nat) : Option Nat :=
  l.findIdx? fun s => (zoom.isNone || zoom == some s.zoom) && (bpp.isNone || bpp == s.bpp)

end Grf.Alternatives
