import Verif.Model.Switch
import Verif.Model.Refs
import Verif.Model.Actions
import Verif.Model.Container
/-!
# From the user's objects to the items of the file (`grf/actions.py:1531-2003`, `grf/grf.py:336-470`)

Objects are numbered; `O : Nat → Obj` is the store. The bytes are computed after `resolve_refs` has set ids and features.
-/
namespace Grf.Chain

/-- What a range, a default or a map entry points to: an `int` (a callback result), a `CB` object, a `Sound` with its id, or an object
(`grf/actions.py:50-57`). Raw `Ref` objects are left out. -/
inductive Tgt where
  | result (n : Int)
  | cb (n : Int)
  | sound (id : Int)
  | obj (k : Nat)
deriving DecidableEq, Repr

/-- `Switch` (`grf/actions.py:1703-1728`) with its code parsed; `subs` is the dict `subroutines`. -/
structure Sw where
  feature : Option Nat := none
  related : Bool := false
  code : List Node
  subs : List (String × Nat) := []
  ranges : List (Int × Int × Tgt)
  default : Tgt

/-- The objects of a file. For `grf/actions.py:1730-1734`. -/
inductive Obj where
  /-- `Switch` -/
  | switch (s : Sw)
  /-- `GenericSpriteLayout`, `BasicSpriteLayout`, `AdvancedSpriteLayout` (`grf/actions.py:1531-1657`): `data` is what `get_data` writes
  after `02 feature ref_id` (these classes are modelled in `Model/Actions.lean`) -/
  | sprites (feature : Option Nat) (data : Bytes)
  /-- `RandomSwitch` (`grf/actions.py:1834-1848`) with scope `'parent'` or `'self'` (`'relative'` is left out, see C19) -/
  | random (feature : Option Nat) (parent : Bool) (triggers : Int) (cmpAll : Bool) (lowest : Int) (groups : List Tgt)
  /-- `Action3` (`grf/actions.py:1935-1943`), also `Map` -/
  | map (feature : Nat) (ids : List Int) (maps : List (Int × Tgt)) (default : Tgt)
  /-- anything that takes no part in reference resolution -/
  | other (it : Item)

/-- A target among the values of `get_refs()`. A `CB` is a `Ref` with `is_callback` (`grf/actions.py:26-29`, `75-77`). -/
def Tgt.arg : Tgt → RefArg
  | .result _ => .other
  | .cb n => .ref true (pyAnd (pyOr n 0x8000) 0x7fff)
  | .sound _ => .other
  | .obj k => .obj k

/-- What `resolve_refs` looks at: `Switch.get_refs` (`grf/actions.py:1730-1734`), `RandomSwitch.get_refs`
(`grf/actions.py:1850-1851`), `Action3.get_refs` (`grf/actions.py:1945-1947`) and the base classes; the user sets no `ref_id`. -/
def Obj.act : Obj → Act
  | .switch s => { referencing := true, referenceable := true, feature := s.feature,
                   refs := s.subs.map (fun p => .obj p.2) ++ s.ranges.map (fun r => r.2.2.arg) ++ [s.default.arg] }
  | .sprites f _ => { referenceable := true, feature := f }
  | .random f _ _ _ _ gs => { referencing := true, referenceable := true, feature := f, refs := gs.map Tgt.arg }
  | .map f _ maps d => { referencing := true, feature := some f, refs := maps.map (fun p => p.2.arg) ++ [d.arg] }
  | .other _ => {}

/-- The store as `resolve_refs` sees it (`grf/grf.py:336-470`). -/
def world (O : Nat → Obj) : World := fun k => (O k).act

/-- `k.ref_id` after resolution (`grf/actions.py:128-141`); objects that are not referenceable have no such attribute. -/
def idOf (O : Nat → Obj) (res : Resolved) (k : Nat) : Option Int :=
  if (world O k).referenceable then res.refId k else none

/-- The target with its id (`get_ref_id`, `grf/actions.py:50-57`). -/
def Tgt.toTarget (id : Nat → Option Int) : Tgt → Option Target
  | .result n => some (.num n)
  | .cb n => some (mkCB n)
  | .sound i => some (.sound i)
  | .obj k => (id k).map .action

/-- A range with its id (`grf/actions.py:1786-1787`). -/
def toRange (id : Nat → Option Int) (r : Int × Int × Tgt) : Option SRange := (r.2.2.toTarget id).map fun t => ⟨r.1, r.2.1, t⟩

/-- The tables of the compiler: `vt` gives the variables of the feature and scope (`Switch.parsed_code`, `grf/actions.py:1748-1764`),
the subroutines are those of the switch (`grf/actions.py:1774`, `grf/parser.py:449-467`). -/
def Sw.tables (vt : Nat → Bool → String → Option VarData) (id : Nat → Option Int) (f : Nat) (s : Sw) : Tables :=
  ⟨vt f s.related, fun n => (s.subs.lookup n).bind id⟩

/-- `Switch.get_data` (`grf/actions.py:1773-1798`) with feature `f` and id `i`. -/
def Sw.bytes (vt : Nat → Bool → String → Option VarData) (id : Nat → Option Int) (f : Nat) (i : Int) (s : Sw) : Option Bytes := do
  let rs ← s.ranges.mapM (toRange id)
  let d ← s.default.toTarget id
  Switch.getData (s.tables vt id f) ⟨f, i, s.related, s.code, rs, d⟩

/-- `get_data` of the layouts (`grf/actions.py:1551-1560`, `1583-1588`, `1644-1650`): header and data. -/
def layoutBytes (f : Nat) (i : Int) (data : Bytes) : Option Bytes := cat [packU 1 2, packU 1 f, packU 1 i, some data]

/-- `RandomSwitch.get_data` (`grf/actions.py:1856-1869`). -/
def randomBytes (id : Nat → Option Int) (f : Nat) (i : Int) (parent : Bool) (triggers : Int) (cmpAll : Bool) (lowest : Int)
    (groups : List Tgt) : Option Bytes := do
  let gs ← groups.mapM (Tgt.toTarget id)
  Acts.Random.getData ⟨f, i, if parent then .parent else .self, none, triggers, cmpAll, lowest, gs⟩

/-- An entry of the map with its id (`grf/actions.py:1970`). -/
def toEntry (id : Nat → Option Int) (p : Int × Tgt) : Option (Int × Target) := (p.2.toTarget id).map fun t => (p.1, t)

/-- `Action3.get_data` (`grf/actions.py:1954-1971`). -/
def mapBytes (id : Nat → Option Int) (f : Nat) (ids : List Int) (maps : List (Int × Tgt)) (d : Tgt) : Option Bytes := do
  let ms ← maps.mapM (toEntry id)
  let t ← d.toTarget id
  Acts.GMap.getData ⟨f, ids, ms, t, false⟩

/-- The bytes of the object `k` (`get_data`, called by `BaseNewGRF.write`, `grf/grf.py:534-560`) after resolution. -/
def bytesOf (vt : Nat → Bool → String → Option VarData) (O : Nat → Obj) (res : Resolved) (k : Nat) : Obj → Option Bytes
  | .switch s => (res.feature k).bind fun f => (idOf O res k).bind fun i => s.bytes vt (idOf O res) f i
  | .sprites _ d => (res.feature k).bind fun f => (idOf O res k).bind fun i => layoutBytes f i d
  | .random _ p t c l gs => (res.feature k).bind fun f => (idOf O res k).bind fun i => randomBytes (idOf O res) f i p t c l gs
  | .map f ids maps d => mapBytes (idOf O res) f ids maps d
  | .other _ => none

/-- The item of the object `k` in the file (`grf/grf.py:534-560`). -/
def itemOf (vt : Nat → Bool → String → Option VarData) (O : Nat → Obj) (res : Resolved) (k : Nat) : Item :=
  match O k with
  | .other it => it
  | o => .action (bytesOf vt O res k o)

/-- The items of the file in order (`grf/grf.py:464-470`). -/
def items (vt : Nat → Bool → String → Option VarData) (O : Nat → Obj) (res : Resolved) : List Item := res.out.map (itemOf vt O res)

end Grf.Chain
