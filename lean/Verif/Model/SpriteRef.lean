import Verif.Model.Common
/-!
# Model of `SpriteRef` (`grf/actions.py:156-185`)
-/
namespace Grf

/-- A `SpriteRef` object (`grf/actions.py:157-166`). -/
structure SpriteRef where
  id : Int
  pal : Int := 0
  isGlobal : Bool := true
  useRecolour : Bool := false
  alwaysTransparent : Bool := false
  noTransparent : Bool := false
deriving DecidableEq, Repr

namespace SpriteRef

/-- The assertions of the constructor (`grf/actions.py:158-159`): only upper limits are checked. -/
def accepted (r : SpriteRef) : Bool := r.id ≤ 0x3fff && r.pal ≤ 0x3fff

/-- `b << n` for a Python `bool`. For `grf/actions.py:181-185`. -/
def flag (b : Bool) (n : Nat) : Int := if b then 2 ^ n else 0

/-- `to_grf(global_if_flagged=g)` (`grf/actions.py:181-185`). -/
def toGrf (g : Bool) (r : SpriteRef) : Int :=
  pyOr (pyOr (pyOr r.id (flag r.alwaysTransparent 14)) (flag r.useRecolour 15))
    (pyOr (pyOr r.pal (flag r.noTransparent 14)) (flag (r.isGlobal == g) 15) * 65536)

/-- `from_grf(data, global_if_flagged=g)` (`grf/actions.py:168-179`). -/
def fromGrf (g : Bool) (data : Int) : SpriteRef :=
  let pal := data >>> (16 : Nat)
  let sprite := pyAnd data 0xffff
  { id := pyAnd sprite 0x3fff
    pal := pyAnd pal 0x3fff
    isGlobal := (pyAnd pal 0x8000 != 0) == g
    useRecolour := pyAnd sprite 0x8000 != 0
    alwaysTransparent := pyAnd sprite 0x4000 != 0
    noTransparent := pyAnd pal 0x4000 != 0 }

/-- `struct.pack('<I', r.to_grf(..))` as the callers do it (`grf/actions.py:619-623`, `764`, `1583`, `1619`). -/
def encode (g : Bool) (r : SpriteRef) : Option Bytes := packU 4 (toGrf g r)

/-- `SpriteRef.from_grf(d.get_dword(), ..)` as the callers do it (`grf/actions.py:555-556`, `755`). -/
def read (g : Bool) (bs : Bytes) : Option (SpriteRef × Bytes) := do
  let (v, r) ← readU 4 bs
  some (fromGrf g v, r)

end SpriteRef

end Grf
