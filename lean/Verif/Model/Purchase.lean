import Verif.Model.Define
/-!
# Model of `grf/lib/vehicle.py`: `VariantGroup` and `SetPurchaseOrder`

Vehicles are numbers standing for Python objects (`id(x)`); their feature and their id in the file are functions of them.
-/
namespace Grf.Purchase

open Grf.PropC

/-- What `SetPurchaseOrder` is given: vehicles and `VariantGroup(name, *items)` objects (`grf/lib/vehicle.py:114-121`). -/
inductive Item where
  | veh (v : Nat)
  | group (name : Option String) (items : List Item)

mutual
/-- `VariantGroup.first` (`grf/lib/vehicle.py:123-128`); a vehicle is its own first. -/
def Item.first : Item → Option Nat
  | .veh v => some v
  | .group _ items => firstOf items
/-- `self.items[0]` (`grf/lib/vehicle.py:125`). -/
def firstOf : List Item → Option Nat
  | [] => none
  | i :: _ => i.first
end

/-- `isinstance(items[0], VariantGroup)` is false (`grf/lib/vehicle.py:119`). -/
def startsWithVehicle : List Item → Bool
  | .veh _ :: _ => true
  | _ => false

mutual
/-- The checks of the constructor of `VariantGroup` (`grf/lib/vehicle.py:117-120`), of this group and those in it. -/
def Item.accepted : Item → Bool
  | .veh _ => true
  | .group _ items => decide (2 ≤ items.length) && startsWithVehicle items && acceptedAll items
/-- All items are accepted (`grf/lib/vehicle.py:115-121`). -/
def acceptedAll : List Item → Bool
  | [] => true
  | i :: l => i.accepted && acceptedAll l
end

/-- The attributes `SetPurchaseOrder.__init__` fills (`grf/lib/vehicle.py:134-136`). The dictionaries are only looked up by key. -/
structure PState where
  flat : List Nat
  variantGroup : Nat → Option Nat
  callbacks : Nat → Option (List (Nat × String))

/-- A vehicle in `process` (`grf/lib/vehicle.py:158-162`); the feature is found by `feature`. -/
def addVehicle (grp : Option Nat) (cbs : List (Nat × String)) (v : Nat) (s : PState) : PState :=
  { flat := s.flat ++ [v]
    variantGroup := match grp with
      | some g => upd s.variantGroup v (some g)
      | none => s.variantGroup
    callbacks := if cbs.isEmpty then s.callbacks else upd s.callbacks v (some cbs) }

/-- After the items of a group (`grf/lib/vehicle.py:153-156`): `pop` of a missing key is a `KeyError`. -/
def closeGroup (grp : Option Nat) (x : Nat) (s : PState) : Option PState :=
  match grp with
  | some g => some { s with variantGroup := upd s.variantGroup x (some g) }
  | none => if (s.variantGroup x).isSome then some { s with variantGroup := upd s.variantGroup x none } else none

/-- The names inside a group (`grf/lib/vehicle.py:144-150`). -/
def withName (cbs : List (Nat × String)) (level : Nat) : Option String → List (Nat × String)
  | some n => dictSet cbs level n
  | none => cbs

mutual
/-- The body of the loop of `process` (`grf/lib/vehicle.py:141-164`). -/
def processItem (grp : Option Nat) (level : Nat) (cbs : List (Nat × String)) : Item → PState → Option PState
  | .veh v, s => some (addVehicle grp cbs v s)
  | .group name items, s => do
    let x ← firstOf items
    let s ← processItems (some x) (level + 1) (withName cbs level name) items s
    closeGroup grp x s
/-- `process(order, group, level, callbacks)` (`grf/lib/vehicle.py:140-164`). -/
def processItems (grp : Option Nat) (level : Nat) (cbs : List (Nat × String)) : List Item → PState → Option PState
  | [], s => some s
  | i :: l, s => do
    let s ← processItem grp level cbs i s
    processItems grp level cbs l s
end

/-- `SetPurchaseOrder(*order)` (`grf/lib/vehicle.py:132-168`): `none` when no vehicle is given. -/
def setPurchaseOrder (order : List Item) : Option PState := do
  let s ← processItems none 0 [] order ⟨[], fun _ => none, fun _ => none⟩
  if s.flat.isEmpty then none else some s

/-- `self._feature` (`grf/lib/vehicle.py:163-164`): that of the first vehicle. -/
def feature (featureOf : Nat → Nat) (s : PState) : Nat := (s.flat.head?.map featureOf).getD 0

/-- The ranges of the name callback of a vehicle (`grf/lib/vehicle.py:170-179`): what `extra_callback_info1` has to be for which text; the
default is 0x400. The text stands for its global string id. -/
def nameRanges (s : PState) (v : Nat) : List (Nat × String) :=
  match s.callbacks v with
  | none => []
  | some names => names.foldl (fun d p => dictSet d (0x20 ||| (p.1 <<< 8)) p.2) []

/-- One round of the loop of `get_sprites` (`grf/lib/vehicle.py:191-206`). -/
def defineFor (f : Nat) (rid : Nat → Int) (vg : Nat → Option Nat) (prev : Option Nat) (v : Nat) : List Def0 :=
  let sort : List (String × List PVal) := match prev with
    | some p => [("sort_purchase_list", [.int (rid p)])]
    | none => []
  let var : List (String × List PVal) := match vg v with
    | some p => [("variant_group", [.int (rid p)])]
    | none => []
  if (sort ++ var).isEmpty then [] else [⟨f, rid v, 1, sort ++ var⟩]

/-- The loop of `get_sprites` (`grf/lib/vehicle.py:188-207`) over the reversed list. -/
def spritesLoop (f : Nat) (rid : Nat → Int) (vg : Nat → Option Nat) : Option Nat → List Nat → List Def0
  | _, [] => []
  | prev, v :: l => defineFor f rid vg prev v ++ spritesLoop f rid vg (some v) l

/-- `SetPurchaseOrder.get_sprites` (`grf/lib/vehicle.py:183-207`); `none` is the `RuntimeError` when `set_variant_callbacks` has not been
called. `rid v` is `g.resolve_id(feature, v.id)`, which does not change during a build (C34). -/
def getSprites (featureOf : Nat → Nat) (rid : Nat → Int) (callbacksSet : Bool) (s : PState) : Option (List Def0) :=
  if callbacksSet then some (spritesLoop (feature featureOf s) rid s.variantGroup none s.flat.reverse) else none

end Grf.Purchase
