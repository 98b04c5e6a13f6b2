import Verif.Model.Props14
/-!
# Model of what `NewGRF` says about itself (`grf/grf.py:868-996`, `1047-1083`)
-/
namespace Grf.Info14
open Acts

/-- A text given by the user: a `str` (its UTF-8 bytes) or a `StringRef`, whose `get_pairs()` begin with the default
(`grf/strings.py:400-407`). -/
inductive Text where
  | str (b : Bytes)
  | ref (default : Bytes) (others : List (Int × Bytes))

/-- The text as a value of `SetProperties`. For `grf/grf.py:875-908`. -/
def Text.value : Text → PV
  | .str b => .str b
  | .ref d o => .strings ((0x7f, d) :: o)

/-- `name.get_default() if isinstance(name, StringRef) else str(name)` (`grf/grf.py:979-980`). -/
def Text.default : Text → Bytes
  | .str b => b
  | .ref d _ => d

/-- The arguments of `NewGRF` that are about itself (`grf/grf.py:872`). -/
structure Args where
  grfid : Bytes
  name : Text
  description : Text
  version : Option Int := none
  minVersion : Option Int := none
  formatVersion : Int := 8
  url : Option Bytes := none
  blitter : Option Bytes := none

/-- A dictionary key `'NAME'` etc. For `grf/grf.py:875-908`. -/
def key (a b c d : UInt8) : Key := .str [a, b, c, d]

/-- `if value is not None: props[..][key] = value` (`grf/grf.py:890-906`). -/
def optional (k : Key) : Option PV → List (Key × PV)
  | some v => [(k, v)]
  | none => []

/-- `NewGRF.__init__` (`grf/grf.py:875-908`): the entries of `props['INFO']`; `none` is the `ValueError`. -/
def newGrf (a : Args) : Option (List (Key × PV)) :=
  if a.grfid.length ≠ 4 then none
  else if a.blitter.any (fun b => b ≠ [0x38] ∧ b ≠ [0x33]) then none
  else some ([(key 0x50 0x41 0x4c 0x53, .bytes [0x44]),
      (key 0x4e 0x41 0x4d 0x45, a.name.value),
      (key 0x44 0x45 0x53 0x43, a.description.value)] ++
    optional (key 0x42 0x4c 0x54 0x52) (a.blitter.map .bytes) ++
    optional (key 0x56 0x52 0x53 0x4e) (a.version.map .int) ++
    optional (key 0x4d 0x49 0x4e 0x56) (a.minVersion.map .int) ++
    optional (key 0x55 0x52 0x4c 0x5f) (a.url.map .str))

/-- Arguments of `add_bool_parameter` and `add_int_parameter` (`grf/grf.py:1047`, `1059`), of the types these functions ask for. -/
inductive Param where
  | bool (name description : Text) (default : Option Bool)
  | int (name description : Text) (default : Option Int) (limits : Option (Int × Int)) (enum : Option (List (Int × Text)))

/-- `struct.pack('<II', *limits)` (`grf/grf.py:1074`). -/
def packLimits (l : Int × Int) : Option Bytes := do
  let a ← packU 4 l.1
  let b ← packU 4 l.2
  some (a ++ b)

/-- The beginning of `data` (`grf/grf.py:1048-1052`, `1060-1064`). -/
def paramHead (name description : Text) (type : UInt8) : List (Key × PV) :=
  [(key 0x4e 0x41 0x4d 0x45, name.value), (key 0x44 0x45 0x53 0x43, description.value), (key 0x54 0x59 0x50 0x45, .bytes [type])]

/-- `data['DFLT']` (`grf/grf.py:1056`, `1069`). -/
def defaultEntry (v : Int) : Key × PV := (key 0x44 0x46 0x4c 0x54, .int v)

/-- `data['LIMI']` (`grf/grf.py:1071-1074`). -/
def limitsEntry : Option (Int × Int) → Option (List (Key × PV))
  | some l => (packLimits l).map fun b => [(key 0x4c 0x49 0x4d 0x49, PV.bytes b)]
  | none => some []

/-- `data['VALU']` (`grf/grf.py:1076-1080`). -/
def enumEntry : Option (List (Int × Text)) → List (Key × PV)
  | some e => [(key 0x56 0x41 0x4c 0x55, PV.dict (e.map fun p => (.int p.1, p.2.value)))]
  | none => []

/-- `data['DFLT']`, if there is a default (`grf/grf.py:1066-1069`). -/
def defaultEntries : Option Int → List (Key × PV)
  | some v => [defaultEntry v]
  | none => []

/-- `data` of a parameter (`grf/grf.py:1047-1083`); `none` is the `struct.error` of the limits. -/
def paramData : Param → Option (List (Key × PV))
  | .bool n d dflt => some (paramHead n d 1 ++ defaultEntries (dflt.map fun b => if b then 1 else 0))
  | .int n d dflt limits enum => do
    let l ← limitsEntry limits
    some (paramHead n d 0 ++ defaultEntries dflt ++ l ++ enumEntry enum)

/-- `enumerate(self._params)` as entries of `PARA` (`grf/grf.py:971-972`). -/
def numbered : Nat → List (List (Key × PV)) → List (Key × PV)
  | _, [] => []
  | i, p :: r => (.int i, .dict p) :: numbered (i + 1) r

/-- `NPAR` and `PARA` (`grf/grf.py:968-972`): nothing without parameters; `bytes((len(..),))` refuses 256 of them. -/
def paramEntries (ps : List (List (Key × PV))) : Option (List (Key × PV)) :=
  if ps.isEmpty then some []
  else do
    let n ← packU 1 ps.length
    some [(key 0x4e 0x50 0x41 0x52, .bytes n), (key 0x50 0x41 0x52 0x41, .dict (numbered 0 ps))]

/-- The first action of every NewGRF, `SetProperties(self._props)` (`grf/grf.py:967-975`), as bytes. -/
def infoBytes (a : Args) (params : List Param) : Option Bytes := do
  let entries ← newGrf a
  let ps ← params.mapM paramData
  let more ← paramEntries ps
  propsData [(key 0x49 0x4e 0x46 0x4f, .dict (entries ++ more))]

/-- The second action, `SetDescription(..)` (`grf/grf.py:976-981`), as bytes. -/
def descriptionBytes (a : Args) : Option Bytes :=
  (newGrf a).bind fun _ => (⟨a.formatVersion, a.grfid, a.name.default, a.description.default⟩ : Description).getData

end Grf.Info14
