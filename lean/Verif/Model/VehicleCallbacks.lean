import Verif.Model.Callbacks
/-!
# Model of the callbacks the vehicle classes register (`grf/lib/vehicle.py:96-111`, `grf/lib/train.py:208-232,245-301`,
`grf/lib/rv.py:52-97`, `grf/lib/ship.py:55-84`)

Features are those of `grf/common.py`: 0 trains, 1 road vehicles, 2 ships. Switches are objects with an identity, as everywhere in the
model of the callback manager; their contents are kept beside them.
-/
namespace Grf.VehicleCallbacks

open Grf.Callbacks

/-- `self.callbacks.graphics.default = ..` and `self.callbacks.graphics.purchase = ..`, each only if there is something to assign
(`grf/lib/vehicle.py:99-105`, `grf/lib/train.py:252-254,286-288`, `grf/lib/rv.py:70-87`, `grf/lib/ship.py:58-75`). `graphics` is the
`GraphicsCallback` stored at 0. -/
def setGraphics (m : Mgr) (default purchase : Option Handler) : Mgr :=
  match m.cbs.lookup 0 with
  | some (.graphics d p) => { m with cbs := dictSet m.cbs 0 (.graphics (default.or d) (purchase.or p)) }
  | _ => m

/-- `self.callbacks.<name> = ..` one after the other (`grf/lib/callback.py:474-480`). -/
def setAttrs (m : Mgr) (sets : List (String × Val)) : Option Mgr :=
  (assignAll (setCallback m.feature) m.cbs sets).map fun d => { m with cbs := d }

/-- What the classes look at when they register callbacks. For `grf/lib/vehicle.py:108-111`. -/
structure Veh where
  /-- The layout of the purchase sprite, if there is one (`grf/lib/vehicle.py:99-105`). -/
  purchase : Option Handler := none
  /-- The layout or switch made of the liveries that are drawn, if there are any (`grf/lib/train.py:252-253`, `grf/lib/rv.py:70-87`). -/
  graphics : Option Handler := none
  /-- The text id of `additional_text` (`grf/lib/vehicle.py:109-110`). -/
  additional : Option Nat := none
  /-- The text ids of the names of the liveries (`grf/lib/train.py:213-214`). -/
  names : List Nat := []
  /-- `sound_effects` of a train, with single numbers as keys (`grf/lib/train.py:219-221`). -/
  sounds : List (Nat × Handler) := []
  /-- The ids of the articulated parts of a train (`grf/lib/train.py:226-228`). -/
  parts : List Nat := []
  /-- `max_speed.value` of a road vehicle whose `precise_value` is at least 0x400 (`grf/lib/rv.py:55-59`). -/
  speed : Option Nat := none

/-- The identities of the switches the classes make. For `grf/lib/rv.py:52-65`. -/
structure Objs where
  speed : Nat
  liveries : Nat
  sounds : Nat
  parts : Nat

/-- `additional_text` (`grf/lib/vehicle.py:108-111`). An empty text is left out by the caller. -/
def textSet (v : Veh) : List (String × Val) :=
  match v.additional with
  | some n => [("additional_text", .raw (some (.int n)))]
  | none => []

/-- The speed of fast road vehicles (`grf/lib/rv.py:52-65`). -/
def speedSet (v : Veh) (o : Objs) : List (String × Val) :=
  match v.speed with
  | some _ => [("change_properties", .raw (some (.obj o.speed none)))]
  | none => []

/-- The names of the liveries, if there are at least two (`grf/lib/train.py:211-217`, `grf/lib/rv.py:91-97`, `grf/lib/ship.py:79-84`). -/
def liverySet (v : Veh) (o : Objs) : List (String × Val) :=
  if 1 < v.names.length then [("cargo_subtype_text", .raw (some (.obj o.liveries none)))] else []

/-- The sounds of trains (`grf/lib/train.py:219-224`). -/
def soundSet (v : Veh) (o : Objs) : List (String × Val) :=
  if v.sounds.isEmpty then [] else [("sound_effect", .raw (some (.obj o.sounds none)))]

/-- The articulated parts of trains (`grf/lib/train.py:226-231`). -/
def partSet (v : Veh) (o : Objs) : List (String × Val) :=
  if v.parts.isEmpty then [] else [("articulated_part", .raw (some (.obj o.parts none)))]

/-- The assignments of a class in their order: `Train._set_callbacks` (`grf/lib/train.py:208-232`), `RoadVehicle._set_callbacks` and
`get_sprites` (`grf/lib/rv.py:52-97`), `Ship.get_sprites` (`grf/lib/ship.py:77-84`). -/
def sets (f : Nat) (v : Veh) (o : Objs) : List (String × Val) :=
  textSet v ++ (if f = 1 then speedSet v o else []) ++ liverySet v o ++ (if f = 0 then soundSet v o ++ partSet v o else [])

/-- `get_sprites` of the classes, as far as the manager is concerned (`grf/lib/train.py:250-256`, `grf/lib/rv.py:67-97`,
`grf/lib/ship.py:55-84`). -/
def setup (f : Nat) (v : Veh) (o : Objs) (m : Mgr) : Option Mgr := setAttrs (setGraphics m v.graphics v.purchase) (sets f v o)

/-- A variable the switches of the classes depend on: `cargo_subtype` or `extra_callback_info1_byte`; both are one byte
(`grf/va2vars.py:84`, `grf/lib/train.py:216,223,230`). -/
inductive Var where
  | subtype
  | info
deriving DecidableEq, Repr

/-- A switch made by a class: single values only. For `grf/lib/train.py:213-231`. -/
structure Sw where
  var : Var
  cases : List (Nat × Handler)
  default : Handler
deriving DecidableEq, Repr

/-- `{i: x for i, x in enumerate(l)}`, from `k` on. For `grf/lib/train.py:213-231`. -/
def numbered (k : Nat) (l : List Nat) : List (Nat × Handler) := l.zipIdx.map fun p => (p.2 + k, .int p.1)

/-- The switches (`grf/lib/train.py:213-231`, `grf/lib/rv.py:57-63`, `grf/lib/ship.py:80-84`); `g` is `callbacks.graphics.default` at that
moment. -/
def switches (v : Veh) (o : Objs) (g : Handler) : List (Nat × Sw) :=
  [(o.speed, ⟨.info, [(0x15, .int (v.speed.getD 0))], g⟩), (o.liveries, ⟨.subtype, numbered 0 v.names, .int 0x400⟩),
   (o.sounds, ⟨.info, v.sounds, g⟩), (o.parts, ⟨.info, numbered 1 v.parts, .int 0x7fff⟩)]

end Grf.VehicleCallbacks
