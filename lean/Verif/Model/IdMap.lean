import Verif.Model.Refs
/-!
# Model of the automatic id map (`grf/grf.py:774-865`)

Python's `dict`s are association lists in insertion order (`dictSet`), its `set`s lists. JSON text is not modelled: the file
holds the nested dictionary that `json.dumps`/`json.load` exchange.
-/
namespace Grf.IdMap

/-- Second component of the keys: Python sees integers and strings (`resolve` accepts both, `grf/grf.py:846-855`). -/
inductive Value where
  | int (i : Int)
  | str (s : String)
deriving DecidableEq, Repr

/-- Features and their names (`grf/common.py:148-174`): the id of a feature is its position. -/
def featureNames : List String :=
  ["train", "rv", "ship", "aircraft", "station", "canal", "bridge", "house", "global_var", "industry_tile", "industry",
   "cargo", "sound_effect", "airport", "signal", "object", "railtype", "airport_tile", "roadtype", "tramtype", "road_stop"]

/-- A `Feature` object (`grf/common.py:126-133`). -/
abbrev Feat := Fin 21

/-- `feature.name` (`grf/common.py:131`). -/
def Feat.name (f : Feat) : String := featureNames.getD f.val ""

/-- `Feature.from_name` (`grf/common.py:138-140`); `none` is `KeyError`. -/
def fromName (s : String) : Option Feat :=
  (List.finRange 21).find? fun f => f.name = s

/-- The JSON document: `{'version': .., 'index': {feature name: {name: id}}}` (`grf/grf.py:825-831`). -/
structure Doc where
  version : Int
  index : List (String × List (String × Int))
deriving DecidableEq, Repr

/-- The attributes of `IDMap` (`grf/grf.py:777-783`), the path aside. -/
structure St where
  loaded : Bool := false
  index : List ((Feat × String) × Int) := []
  nextId : List (Feat × Int) := []
  autoIds : List (Feat × Value) := []
  manualIds : List (Feat × Value) := []
deriving DecidableEq, Repr

/-- The temporaries of `_load` (`grf/grf.py:806-808`). -/
structure Tmp where
  index : List ((Feat × String) × Int) := []
  nextId : List (Feat × Int) := []
  used : List (Feat × Value) := []

/-- Body of the inner loop of `_load` (`grf/grf.py:812-815`). Note that what goes into `used_ids` is `(feature, name)`. -/
def loadEntry (f : Feat) (t : Tmp) (e : String × Int) : Tmp :=
  { index := dictSet t.index (f, e.1) e.2
    nextId := dictSet t.nextId f (max ((t.nextId.lookup f).getD 0) (e.2 + 1))
    used := t.used ++ [(f, .str e.1)] }

/-- The loops of `_load` (`grf/grf.py:809-815`); `none` when a feature name is unknown. -/
def loadIndex : List (String × List (String × Int)) → Tmp → Option Tmp
  | [], t => some t
  | (fname, entries) :: r, t => do
    let f ← fromName fname
    loadIndex r (entries.foldl (loadEntry f) t)

/-- `_load` (`grf/grf.py:792-819`). `none` is an exception: no file, wrong version, unknown feature. -/
def load (file : Option Doc) (s : St) : Option St :=
  if s.loaded then some s
  else do
    let d ← file
    if d.version ≠ 1 then none
    else
      let t ← loadIndex d.index {}
      some { s with loaded := true, index := t.index, nextId := t.nextId, autoIds := t.used }

/-- `index.setdefault(feature.name, {})[name] = value` (`grf/grf.py:827`). -/
def saveEntry (acc : List (String × List (String × Int))) (e : (Feat × String) × Int) :
    List (String × List (String × Int)) :=
  dictSet acc e.1.1.name (dictSet ((acc.lookup e.1.1.name).getD []) e.1.2 e.2)

/-- `save` (`grf/grf.py:821-834`): the new content of the file. -/
def save (s : St) (file : Option Doc) : Option Doc :=
  if s.index.isEmpty then file
  else some { version := 1, index := s.index.foldl saveEntry [] }

/-- `reserve_ids` (`grf/grf.py:836-837`): whatever keys are passed are marked. -/
def reserve (s : St) (ids : List (Feat × Value)) : St :=
  { s with manualIds := s.manualIds ++ ids }

/-- `_get_min_id` (`grf/grf.py:839-844`): `INDUSTRY_TILE` is feature 9, `INDUSTRY` feature 10. -/
def minId (f : Feat) : Int :=
  if f.val = 9 then 0 else if f.val = 10 then 37 else 300

/-- The `while` loop of `resolve` (`grf/grf.py:860-861`). Each turn passes one more manual id, so `manualIds.length` turns
are enough: `IdMap.skip_free` proves that the loop has really ended. -/
def skip (manual : List (Feat × Value)) (f : Feat) : Nat → Int → Int
  | 0, i => i
  | n + 1, i => if (f, Value.int i) ∈ manual then skip manual f n (i + 1) else i

/-- `resolve` after `_load` (`grf/grf.py:848-865`): new state and the id, `none` for an exception. -/
def resolveLoaded (s : St) (f : Feat) : Value → St × Option Int
  | .int v =>
    if (f, .int v) ∈ s.autoIds then (s, none)
    else ({ s with manualIds := s.manualIds ++ [(f, .int v)] }, some v)
  | .str n =>
    match s.index.lookup (f, n) with
    | some i => (s, some i)
    | none =>
      let i := skip s.manualIds f s.manualIds.length ((s.nextId.lookup f).getD (minId f))
      ({ s with
          nextId := dictSet s.nextId f (i + 1)
          index := dictSet s.index (f, n) i
          autoIds := s.autoIds ++ [(f, .int i)] }, some i)

/-- `resolve` (`grf/grf.py:846-865`). -/
def resolve (file : Option Doc) (s : St) (f : Feat) (v : Value) : St × Option Int :=
  match load file s with
  | none => (s, none)
  | some s' => resolveLoaded s' f v

/-- `BaseNewGRF.reserve_ids(feature, ids)` (`grf/grf.py:226-227`): it passes two arguments to a method taking one, which is
a `TypeError`. -/
def baseReserveIds (_s : St) (_f : Feat) (_ids : List Int) : Option St := none

/-- What a build script does with the map. For `grf/grf.py:223`. -/
inductive Call where
  | resolve (f : Feat) (v : Value)
  | reserve (ids : List (Feat × Value))
deriving DecidableEq, Repr

/-- One answered call to `resolve`. For `grf/grf.py:223`. -/
structure Answer where
  feature : Feat
  value : Value
  result : Option Int
deriving DecidableEq, Repr

/-- The calls of one build, in order; the caller may go on after an exception. For `grf/grf.py:223`. -/
def runCalls (file : Option Doc) : St → List Call → St × List Answer
  | s, [] => (s, [])
  | s, .resolve f v :: cs =>
    let (s', r) := resolve file s f v
    let (s'', as) := runCalls file s' cs
    (s'', ⟨f, v, r⟩ :: as)
  | s, .reserve ids :: cs => runCalls file (reserve s ids) cs

/-- One build: a new `IDMap` (`grf/grf.py:223`), the calls, then `save` (`grf/grf.py:720`). -/
def runBuild (file : Option Doc) (cs : List Call) : Option Doc × List Answer :=
  let (s, as) := runCalls file {} cs
  (save s file, as)

/-- Successive builds over the same file; the answers of each. For `grf/grf.py:223`. -/
def runBuilds : Option Doc → List (List Call) → List (List Answer)
  | _, [] => []
  | file, cs :: r =>
    let (file', as) := runBuild file cs
    as :: runBuilds file' r

end Grf.IdMap
