import Verif.Model.Actions
import Verif.Model.Define
/-!
# Model of the generators of global settings (`grf/lib/train.py:304-346`, `grf/lib/vehicle.py:210-228`)
-/
namespace Grf.Globals
open Acts (Compute)
open PropC (Def0 Lab)

/-- `SetGlobalTrainDepotYOffset(offset).get_sprites` (`grf/lib/train.py:304-318`). -/
def depotOffset (offset : Int) : Compute := ⟨0x8e, 0x00, false, 0xff, 0xff, .int offset⟩

/-- `SetGlobalTrainMiscFlag(flag).get_sprites` (`grf/lib/train.py:332-346`); a negative shift raises. -/
def miscFlag (flag : Int) : Option Compute :=
  if flag < 0 then none else some ⟨0x9e, 0x08, false, 0x9e, 0xff, .int (2 ^ flag.toNat)⟩

/-- `EngineOverride(target, source=..).get_sprites` (`grf/lib/vehicle.py:210-228`) in a grf with the given id. -/
def engineOverride (grfid : Bytes) (target : Lab) (source : Option Lab) : Def0 :=
  ⟨8, 0, 1, [("grfid_overrides", [.labels [source.getD (.bytes grfid), target]])]⟩

/-- A setting of a file. For `grf/lib/vehicle.py:210-228`. -/
inductive Setting where
  | depotOffset (offset : Int)
  | miscFlag (flag : Int)
  | engineOverride (target : Lab) (source : Option Lab)

/-- The bytes of the action a setting adds. For `grf/lib/vehicle.py:210-228`. -/
def Setting.getData (grfid : Bytes) : Setting → Option Bytes
  | .depotOffset n => (Globals.depotOffset n).getData
  | .miscFlag n => (Globals.miscFlag n).bind (·.getData)
  | .engineOverride t s => (Globals.engineOverride grfid t s).getData

end Grf.Globals
