import Verif.Model.Refs
import Verif.Model.Bytes
/-!
# Model of the cargo and railtype tables (`grf/grf.py:919-965`, `984-1045`)

Labels are given as bytes (`to_bytes`, `grf/common.py:94-97`, is applied to every label before anything else). A table is a
Python `dict`: an association list in insertion order.
-/
namespace Grf.Tables

/-- For `grf/grf.py:909`. -/
abbrev Label := Bytes

/-- `_railtype_table`: first label to id and fallback list (`grf/grf.py:909`). Inside `add_railtype` the argument list is
always a tuple or list (`*railtype_list`, or its first element), so the `else` branch storing `None` is never taken. -/
abbrev RtTable := List (Label × (Nat × List Label))

/-- `add_railtype` (`grf/grf.py:919-935`) for the given list of labels: the new table and the id; `none` is the `IndexError`
of an empty list. -/
def addRailtype (t : RtTable) (labels : List Label) : Option (RtTable × Nat) :=
  match labels with
  | [] => none
  | l :: _ => some (dictSet t l (t.length, labels), t.length)

/-- `set_railtype_table` (`grf/grf.py:937-942`). -/
def setRailtypeTable (ls : List (List Label)) : Option (RtTable × List Nat) :=
  ls.foldlM (fun (s : RtTable × List Nat) l => (addRailtype s.1 l).map fun r => (r.1, s.2 ++ [r.2])) ([], [])

/-- `get_railtype_id` (`grf/grf.py:944-948`); `none` is the `ValueError`. -/
def getRailtypeId (t : RtTable) (l : Label) : Option Nat := (t.lookup l).map (·.1)

/-- The labels of the table as written into the GRF (`grf/grf.py:1037-1044`). -/
def writtenRailtypes (t : RtTable) : List Label := t.map (·.1)

/-- Body of the loop of `set_cargo_table` (`grf/grf.py:952-953`). -/
def cargoDict : Nat → List (Label × Nat) → List Label → List (Label × Nat)
  | _, d, [] => d
  | i, d, c :: cs => cargoDict (i + 1) (dictSet d c i) cs

/-- `set_cargo_table` (`grf/grf.py:950-954`): the table and the ids returned. -/
def setCargoTable (cs : List Label) : List (Label × Nat) × List Nat :=
  (cargoDict 0 [] cs, List.range cs.length)

/-- `get_cargo_id` (`grf/grf.py:956-960`); `none` is the failed assertion. -/
def getCargoId (t : List (Label × Nat)) (c : Label) : Option Nat := t.lookup c

/-- `map_cargo_labels` (`grf/grf.py:962-965`): `none` is `KeyError`, or the `ValueError` of `bytes` for an id over 255. -/
def mapCargoLabels (t : List (Label × Nat)) (ls : List Label) : Option Bytes :=
  ls.mapM fun l => match t.lookup l with
    | some i => if i < 256 then some (UInt8.ofNat i) else none
    | none => none

/-- The labels of the cargo table as written into the GRF (`grf/grf.py:984-992`). -/
def writtenCargos (t : List (Label × Nat)) : List Label := t.map (·.1)

/-- The actions of the generated railtype table. For `grf/grf.py:1010-1031`. -/
inductive Act where
  /-- `ComputeParameters(target=.., operation=0, if_undefined=False, source1=255, source2=255, value=..)` -/
  | setParam (target : Int) (value : Label)
  /-- `If(is_static=True, variable=0, condition=0xe, value=.., skip=..)` -/
  | skipIfDefined (label : Label) (skip : Nat)
  /-- `ModifySprites` with entries of size 4: parameter number and offset -/
  | modify (mods : List (Int × Nat))
  /-- `DefineMultiple(feature=GLOBAL_VAR, first_id=0, count=.., props={'railtype_table': ..})` -/
  | defineTable (labels : List Label)
deriving DecidableEq, Repr

/-- Inner loop for one fallback list (`grf/grf.py:1010-1031`); `n` is its length and `j` the position reached. -/
def fallback (param : Int) (n : Nat) : Nat → List Label → List Act
  | _, [] => []
  | j, rt :: r =>
    let skip : Int := 2 * ((n : Int) - j - 1) - 1
    Act.setParam param rt :: (if skip > 0 then [Act.skipIfDefined rt skip.toNat] else []) ++ fallback param n (j + 1) r

/-- Outer loop (`grf/grf.py:1004-1033`): actions and modifications so far. -/
def railLoop : List (Nat × List Label) → List Act → List (Int × Nat) → List Act × List (Int × Nat)
  | [], res, mods => (res, mods)
  | (i, rtlist) :: r, res, mods =>
    if rtlist.length = 1 then railLoop r res mods
    else
      let param : Int := 0x7f - mods.length
      railLoop r (res ++ fallback param rtlist.length 0 rtlist) (mods ++ [(param, 8 + i * 4)])

/-- `_generate_railtype_table` (`grf/grf.py:998-1045`); the table is `none` when it was never set. -/
def generateRailtypeTable : Option RtTable → List Act
  | none => []
  | some t =>
    let (res, mods) := railLoop (t.map (·.2)) [] []
    res ++ (if mods.isEmpty then [] else [.modify mods]) ++ [.defineTable (writtenRailtypes t)]

/-- `DefineMultiple.get_data` for the railtype table (`grf/actions.py:1423-1436` with `GLOBAL_VAR` = 8 and property 0x12 of
format `L`, `grf/actions.py:902`): `none` when a label is not four bytes long or there are more than 255. -/
def tableBytes (labels : List Label) : Option Bytes :=
  if labels.length < 256 ∧ labels.all (fun l => l.length = 4) then
    some ([0, 8, 1, UInt8.ofNat labels.length, 255, 0, 0, 0x12] ++ labels.flatten)
  else none

end Grf.Tables
