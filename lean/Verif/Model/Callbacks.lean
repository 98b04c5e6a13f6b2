import Verif.Model.Define
/-!
# Model of the callback manager (`grf/lib/callback.py`)

What a callback is answered with (a number, a layout, a switch) is a `Handler`; the generated switches are kept as trees of
ranges, their encoding is the subject of C03 and C11.
-/
namespace Grf.Callbacks

open Grf.PropC

/-- The classes of callbacks (`grf/lib/callback.py:155-206`) used in the tables. -/
inductive Cls where
  | default
  | purchase
  | dual
  | graphics
deriving DecidableEq, Repr

/-- A row of the tables (`grf/lib/callback.py:213-433`); properties have no flag. -/
structure Row where
  id : Nat
  name : String
  flag : Nat
  cls : Cls
deriving DecidableEq, Repr

/-- `PROPERTIES` (`grf/lib/callback.py:213-258`): the rows of the properties table of a feature. A key written twice has its last value. -/
def propRows : Nat → List Row
  | 0 =>
  [⟨0x7, "loading_speed", 0x0, .default⟩,
   ⟨0x9, "max_speed", 0x0, .dual⟩,
   ⟨0xb, "power", 0x0, .dual⟩,
   ⟨0xd, "running_cost_factor", 0x0, .dual⟩,
   ⟨0x14, "cargo_capacity", 0x0, .dual⟩,
   ⟨0x16, "weight", 0x0, .dual⟩,
   ⟨0x17, "cost_factor", 0x0, .dual⟩,
   ⟨0x1f, "tractive_effort_coefficient", 0x0, .dual⟩,
   ⟨0x21, "shorten_by", 0x0, .default⟩,
   ⟨0x25, "bitmask_vehicle_info", 0x0, .default⟩,
   ⟨0x2b, "cargo_age_period", 0x0, .default⟩,
   ⟨0x2e, "curve_speed_mod", 0x0, .default⟩]
  | 1 =>
  [⟨0x7, "loading_speed", 0x0, .default⟩,
   ⟨0x9, "running_cost_factor", 0x0, .dual⟩,
   ⟨0xf, "cargo_capacity", 0x0, .dual⟩,
   ⟨0x11, "cost_factor", 0x0, .dual⟩,
   ⟨0x13, "power", 0x0, .dual⟩,
   ⟨0x14, "weight", 0x0, .dual⟩,
   ⟨0x15, "max_speed", 0x0, .dual⟩,
   ⟨0x18, "tractive_effort_coefficient", 0x0, .dual⟩,
   ⟨0x22, "cargo_age_period", 0x0, .default⟩,
   ⟨0x23, "shorten_by", 0x0, .default⟩]
  | 2 =>
  [⟨0x7, "loading_speed", 0x0, .default⟩,
   ⟨0xa, "cost_factor", 0x0, .dual⟩,
   ⟨0xb, "max_speed", 0x0, .dual⟩,
   ⟨0xd, "cargo_capacity", 0x0, .dual⟩,
   ⟨0xf, "running_cost_factor", 0x0, .dual⟩,
   ⟨0x1d, "cargo_age_period", 0x0, .default⟩]
  | 3 =>
  [⟨0x7, "loading_speed", 0x0, .default⟩,
   ⟨0xa, "cost_factor", 0x0, .dual⟩,
   ⟨0xb, "max_speed", 0x0, .dual⟩,
   ⟨0xf, "running_cost_factor", 0x0, .dual⟩,
   ⟨0xd, "secondary_cargo_capacity", 0x0, .dual⟩,
   ⟨0x1d, "range", 0x0, .dual⟩]
  | _ => []

/-- `CALLBACKS` (`grf/lib/callback.py:260-433`): the rows of the callbacks table of a feature. A key written twice has its last value. -/
def cbRows : Nat → List Row
  | 0 =>
  [⟨0x1, "random_trigger", 0x0, .default⟩,
   ⟨0x15, "cargo_capacity", 0x8, .dual⟩,
   ⟨0x19, "cargo_subtype_text", 0x20, .default⟩,
   ⟨0x23, "additional_text", 0x0, .purchase⟩,
   ⟨0x2d, "colour_mapping", 0x40, .dual⟩,
   ⟨0x31, "start_stop", 0x0, .default⟩,
   ⟨0x32, "every_32_days", 0x0, .default⟩,
   ⟨0x33, "sound_effect", 0x80, .default⟩,
   ⟨0x15e, "refit_cost", 0x0, .dual⟩,
   ⟨0x161, "name", 0x100, .purchase⟩,
   ⟨0x162, "reverse_build_probability", 0x0, .default⟩,
   ⟨0x36, "change_properties", 0x0, .dual⟩,
   ⟨0x10, "visual_effect_and_powered", 0x1, .default⟩,
   ⟨0x16, "articulated_part", 0x10, .dual⟩,
   ⟨0x1d, "can_attach_wagon", 0x0, .default⟩,
   ⟨0x160, "create_effect", 0x0, .default⟩]
  | 1 =>
  [⟨0x1, "random_trigger", 0x0, .default⟩,
   ⟨0x15, "cargo_capacity", 0x8, .dual⟩,
   ⟨0x19, "cargo_subtype_text", 0x20, .default⟩,
   ⟨0x23, "additional_text", 0x0, .purchase⟩,
   ⟨0x2d, "colour_mapping", 0x40, .dual⟩,
   ⟨0x31, "start_stop", 0x0, .default⟩,
   ⟨0x32, "every_32_days", 0x0, .default⟩,
   ⟨0x33, "sound_effect", 0x80, .default⟩,
   ⟨0x15e, "refit_cost", 0x0, .dual⟩,
   ⟨0x161, "name", 0x100, .purchase⟩,
   ⟨0x162, "reverse_build_probability", 0x0, .default⟩,
   ⟨0x36, "change_properties", 0x0, .dual⟩,
   ⟨0x10, "visual_effect", 0x0, .default⟩,
   ⟨0x16, "articulated_part", 0x10, .dual⟩,
   ⟨0x160, "create_effect", 0x0, .default⟩]
  | 2 =>
  [⟨0x1, "random_trigger", 0x0, .default⟩,
   ⟨0x15, "cargo_capacity", 0x8, .dual⟩,
   ⟨0x19, "cargo_subtype_text", 0x20, .default⟩,
   ⟨0x23, "additional_text", 0x0, .purchase⟩,
   ⟨0x2d, "colour_mapping", 0x40, .dual⟩,
   ⟨0x31, "start_stop", 0x0, .default⟩,
   ⟨0x32, "every_32_days", 0x0, .default⟩,
   ⟨0x33, "sound_effect", 0x80, .default⟩,
   ⟨0x15e, "refit_cost", 0x0, .dual⟩,
   ⟨0x161, "name", 0x100, .purchase⟩,
   ⟨0x162, "reverse_build_probability", 0x0, .default⟩,
   ⟨0x36, "change_properties", 0x0, .dual⟩,
   ⟨0x10, "visual_effect", 0x0, .default⟩]
  | 3 =>
  [⟨0x1, "random_trigger", 0x0, .default⟩,
   ⟨0x15, "cargo_capacity", 0x8, .dual⟩,
   ⟨0x19, "cargo_subtype_text", 0x20, .default⟩,
   ⟨0x23, "additional_text", 0x0, .purchase⟩,
   ⟨0x2d, "colour_mapping", 0x40, .dual⟩,
   ⟨0x31, "start_stop", 0x0, .default⟩,
   ⟨0x32, "every_32_days", 0x0, .default⟩,
   ⟨0x33, "sound_effect", 0x80, .default⟩,
   ⟨0x15e, "refit_cost", 0x0, .dual⟩,
   ⟨0x161, "name", 0x100, .purchase⟩,
   ⟨0x162, "reverse_build_probability", 0x0, .default⟩,
   ⟨0x36, "change_properties", 0x0, .dual⟩]
  | 4 =>
  [⟨0x13, "availability", 0x1, .purchase⟩,
   ⟨0x14, "select_sprite_layout", 0x2, .dual⟩,
   ⟨0x24, "select_tile_layout", 0x0, .purchase⟩,
   ⟨0x140, "anim_control", 0x0, .default⟩,
   ⟨0x141, "anim_next_frame", 0x4, .default⟩,
   ⟨0x142, "anim_speed", 0x8, .default⟩,
   ⟨0x149, "tile_check", 0x10, .purchase⟩]
  | 5 =>
  [⟨0x147, "sprite_offset", 0x0, .default⟩]
  | 7 =>
  [⟨0x1, "random_trigger", 0x0, .default⟩,
   ⟨0x17, "construction_check", 0x1, .default⟩,
   ⟨0x1a, "anim_next_frame", 0x2, .default⟩,
   ⟨0x1b, "anim_control", 0x4, .default⟩,
   ⟨0x1c, "construction_anim", 0x8, .default⟩,
   ⟨0x1e, "colour", 0x10, .default⟩,
   ⟨0x1f, "cargo_amount_accept", 0x20, .default⟩,
   ⟨0x20, "anim_speed", 0x40, .default⟩,
   ⟨0x21, "destruction", 0x80, .default⟩,
   ⟨0x2a, "cargo_type_accept", 0x100, .default⟩,
   ⟨0x2e, "cargo_production", 0x200, .default⟩,
   ⟨0x143, "protection", 0x400, .default⟩,
   ⟨0x148, "watched_cargo_accepted", 0x0, .default⟩,
   ⟨0x14d, "name", 0x0, .default⟩,
   ⟨0x14e, "foundations", 0x800, .default⟩,
   ⟨0x14f, "autoslope", 0x1000, .default⟩]
  | 9 =>
  [⟨0x1, "random_trigger", 0x0, .default⟩,
   ⟨0x25, "anim_control", 0x0, .default⟩,
   ⟨0x26, "anim_next_frame", 0x1, .default⟩,
   ⟨0x27, "anim_speed", 0x2, .default⟩,
   ⟨0x2b, "cargo_amount_accept", 0x4, .default⟩,
   ⟨0x2c, "cargo_type_accept", 0x8, .default⟩,
   ⟨0x2f, "tile_check", 0x10, .default⟩,
   ⟨0x30, "foundations", 0x20, .default⟩,
   ⟨0x3c, "autoslope", 0x40, .default⟩]
  | 10 =>
  [⟨0x22, "construction_probability", 0x1, .default⟩,
   ⟨0x28, "location_check", 0x8, .default⟩,
   ⟨0x29, "random_prod_change", 0x10, .default⟩,
   ⟨0x35, "monthly_prod_change", 0x20, .default⟩,
   ⟨0x37, "cargo_subtype_display", 0x40, .default⟩,
   ⟨0x38, "extra_text_fund", 0x80, .default⟩,
   ⟨0x3a, "extra_text_industry", 0x100, .default⟩,
   ⟨0x3b, "control_special", 0x200, .default⟩,
   ⟨0x3d, "stop_accept_cargo", 0x400, .default⟩,
   ⟨0x14a, "colour", 0x800, .default⟩,
   ⟨0x14b, "input_cargo", 0x1000, .default⟩,
   ⟨0x14c, "output_cargo", 0x2000, .default⟩,
   ⟨0x15f, "init_production", 0x4000, .default⟩]
  | 11 =>
  [⟨0x39, "profit", 0x1, .default⟩,
   ⟨0x145, "station_rating", 0x145, .default⟩]
  | 13 =>
  [⟨0x155, "additional_text", 0x0, .default⟩,
   ⟨0x156, "layout_name", 0x0, .default⟩]
  | 15 =>
  [⟨0x157, "tile_check", 0x1, .purchase⟩,
   ⟨0x158, "anim_next_frame", 0x2, .default⟩,
   ⟨0x159, "anim_control", 0x0, .default⟩,
   ⟨0x15a, "anim_speed", 0x4, .default⟩,
   ⟨0x15b, "colour", 0x8, .default⟩,
   ⟨0x15c, "additional_text", 0x10, .purchase⟩,
   ⟨0x15d, "autoslope", 0x20, .default⟩]
  | 16 =>
  [⟨0x0, "gui", 0x0, .default⟩,
   ⟨0x1, "track_overlay", 0x0, .default⟩,
   ⟨0x2, "underlay", 0x0, .default⟩,
   ⟨0x3, "tunnels", 0x0, .default⟩,
   ⟨0x4, "catenary_wire", 0x0, .default⟩,
   ⟨0x5, "catenary_pylons", 0x0, .default⟩,
   ⟨0x6, "bridge_surfaces", 0x0, .default⟩,
   ⟨0x7, "level_crossings", 0x0, .default⟩,
   ⟨0x8, "depots", 0x0, .default⟩,
   ⟨0x9, "fences", 0x0, .default⟩,
   ⟨0xa, "tunnel_overlay", 0x0, .default⟩,
   ⟨0xb, "signals", 0x0, .default⟩,
   ⟨0xc, "precombined", 0x0, .default⟩]
  | 17 =>
  [⟨0x150, "foundations", 0x20, .default⟩,
   ⟨0x152, "anim_control", 0x0, .default⟩,
   ⟨0x153, "anim_next_frame", 0x1, .default⟩,
   ⟨0x154, "anim_speed", 0x2, .default⟩]
  | 18 =>
  [⟨0x0, "gui", 0x0, .default⟩,
   ⟨0x1, "track_overlay", 0x0, .default⟩,
   ⟨0x2, "underlay", 0x0, .default⟩,
   ⟨0x3, "tunnels", 0x0, .default⟩,
   ⟨0x4, "catenary_front", 0x0, .default⟩,
   ⟨0x5, "catenary_back", 0x0, .default⟩,
   ⟨0x6, "bridge_surfaces", 0x0, .default⟩,
   ⟨0x8, "depots", 0x0, .default⟩,
   ⟨0xa, "roadstops", 0x0, .default⟩,
   ⟨0xb, "direction_markings", 0x0, .default⟩]
  | 19 =>
  [⟨0x0, "gui", 0x0, .default⟩,
   ⟨0x1, "track_overlay", 0x0, .default⟩,
   ⟨0x2, "underlay", 0x0, .default⟩,
   ⟨0x3, "tunnels", 0x0, .default⟩,
   ⟨0x4, "catenary_front", 0x0, .default⟩,
   ⟨0x5, "catenary_back", 0x0, .default⟩,
   ⟨0x6, "bridge_surfaces", 0x0, .default⟩,
   ⟨0x8, "depots", 0x0, .default⟩]
  | 20 =>
  [⟨0x13, "availability", 0x1, .default⟩,
   ⟨0x140, "anim_control", 0x0, .default⟩,
   ⟨0x141, "anim_next_frame", 0x2, .default⟩,
   ⟨0x142, "anim_speed", 0x3, .default⟩]
  | _ => []

/-- What the user registers: a number (the callback result) or an action; `refId` is the action's `ref_id`, usually `None` at this
point, since ids are given when the file is written (`grf/actions.py:1703-1706`). -/
inductive Handler where
  | int (n : Nat)
  | obj (o : Nat) (refId : Option Nat)
deriving DecidableEq, Repr

/-- `get_ref_id` (`grf/actions.py:50-57`). -/
def Handler.ref : Handler → Option Nat
  | .int n => some (n ||| 0x8000)
  | .obj _ r => r

/-- Callback objects with their attributes (`grf/lib/callback.py:155-206`). -/
inductive CB where
  | default (d : Option Handler)
  | purchase (p : Option Handler)
  | dual (d p : Option Handler)
  | graphics (d p : Option Handler)
deriving DecidableEq, Repr

/-- `getattr(c, 'default', None)` (`grf/lib/callback.py:599`). -/
def CB.dflt : CB → Option Handler
  | .default d => d
  | .purchase _ => none
  | .dual d _ => d
  | .graphics d _ => d

/-- `getattr(c, 'purchase', None)` (`grf/lib/callback.py:602`). -/
def CB.purch : CB → Option Handler
  | .default _ => none
  | .purchase p => p
  | .dual _ p => p
  | .graphics _ p => p

/-- `is_set()` (`grf/lib/callback.py:161-162,174-175,188-189,203-204`). -/
def CB.isSet : CB → Bool
  | .default d => d.isSome
  | .purchase p => p.isSome
  | .dual d p => d.isSome || p.isSome
  | .graphics d p => d.isSome || p.isSome

/-- `type(c)` (`grf/lib/callback.py:476`). -/
def CB.cls : CB → Cls
  | .default _ => .default
  | .purchase _ => .purchase
  | .dual _ _ => .dual
  | .graphics _ _ => .graphics

/-- `DualCallback(default, purchase)` (`grf/lib/callback.py:184-186`): the purchase handler is the other one if not given. -/
def mkDual (d p : Option Handler) : CB := .dual d (match p with | none => d | some x => some x)

/-- What is assigned to a callback: a handler (or `None`) or a callback object. For `grf/lib/callback.py:474-480`. -/
inductive Val where
  | raw (h : Option Handler)
  | cb (c : CB)
deriving DecidableEq, Repr

/-- `self._class(value)` (`grf/lib/callback.py:479`). -/
def construct : Cls → Option Handler → CB
  | .default, h => .default h
  | .purchase, h => .purchase h
  | .dual, h => mkDual h none
  | .graphics, h => .graphics h none

/-- `CallbackDescriptor.__set__` (`grf/lib/callback.py:474-480`): the value stored; a callback object of another class is a `ValueError`. -/
def wrap (cls : Cls) : Val → Option CB
  | .raw h => some (construct cls h)
  | .cb c => if c.cls = cls then some c else none

/-- A manager: `_callbacks` (with the graphics at 0) and, for vehicles, `properties._callbacks` (`grf/lib/callback.py:490-562`). -/
structure Mgr where
  feature : Nat
  cbs : List (Nat × CB)
  props : List (Nat × CB)
deriving DecidableEq, Repr

/-- `setattr(self, k, v)` for callbacks (`grf/lib/callback.py:561-562`): the classes have slots only, so an unknown name is an
`AttributeError`. -/
def setCallback (f : Nat) (d : List (Nat × CB)) (kv : String × Val) : Option (List (Nat × CB)) := do
  let row ← (cbRows f).find? fun r => r.name == kv.1
  let c ← wrap row.cls kv.2
  some (dictSet d row.id c)

/-- `setattr(self, k, v)` for properties (`grf/lib/callback.py:500-501`): the generated classes (`grf/lib/callback.py:646-653`) have a
`__dict__`, so an unknown name is stored there and has no effect. -/
def setProperty (f : Nat) (d : List (Nat × CB)) (kv : String × Val) : Option (List (Nat × CB)) :=
  match (propRows f).find? fun r => r.name == kv.1 with
  | none => some d
  | some row => (wrap row.cls kv.2).map fun c => dictSet d row.id c

/-- A loop of assignments, which stops at the first exception (`grf/lib/callback.py:500-501,561-562`). -/
def assignAll (set : List (Nat × CB) → String × Val → Option (List (Nat × CB))) : List (Nat × CB) → List (String × Val) → Option (List (Nat × CB))
  | d, [] => some d
  | d, kv :: l => do
    let d ← set d kv
    assignAll set d l

/-- `make_callback_manager(feature, {'graphics': .., 'properties': {..}, **callbacks})` (`grf/lib/callback.py:552-562,656-683`). Features
other than vehicles have no `properties`; giving them is an `AttributeError`. Features not in the table are a `KeyError`. -/
def make (f : Nat) (graphics : Val) (properties : Option (List (String × Val))) (callbacks : List (String × Val)) : Option Mgr := do
  let g ← wrap .graphics graphics
  if (cbRows f).isEmpty ∨ (3 < f ∧ properties.isSome) then none
  else
    let ps ← assignAll (setProperty f) [] (properties.getD [])
    let cs ← assignAll (setCallback f) [(0, g)] callbacks
    some ⟨f, cs, ps⟩

/-- What a callback id is mapped to: a handler, or the switch on `extra_callback_info1_byte` of the property callback. For `grf/lib/callback.py:506-550`. -/
inductive Node where
  | handler (h : Handler)
  | props (ranges : List (Nat × Handler)) (default : Handler)
deriving DecidableEq, Repr

/-- What an item is mapped to: the graphics, or a switch on `current_callback`. For `grf/lib/callback.py:579-632`. -/
inductive Tree where
  | plain (h : Handler)
  | switch (ranges : List (Nat × Node)) (default : Handler)
deriving DecidableEq, Repr

/-- `{**a, **b}` (`grf/lib/callback.py:531-534`). -/
def mergeDict {β : Type} (a b : List (Nat × β)) : List (Nat × β) := b.foldl (fun d kv => dictSet d kv.1 kv.2) a

/-- A property callback with different handlers on the map and in the purchase list (`grf/lib/callback.py:519`). -/
def differs : CB → Bool
  | .dual (some d) (some p) => d.ref != p.ref
  | .dual _ _ => true
  | _ => false

/-- `Properties.make_switches` (`grf/lib/callback.py:506-550`): switches for the map and for the purchase list. -/
def makeSwitches (props : List (Nat × CB)) (default : Handler) : Option Node × Option Node :=
  let set := props.filter fun kv => kv.2.isSet
  let d := set.filterMap fun kv => kv.2.dflt.map fun h => (kv.1, h)
  let p := set.filterMap fun kv => kv.2.purch.map fun h => (kv.1, h)
  if set.any fun kv => differs kv.2 then
    (if d.isEmpty then none else some (.props d default), if p.isEmpty then none else some (.props p default))
  else (some (.props (mergeDict d p) default), some (.props (mergeDict d p) default))

/-- `has_graphics` (`grf/lib/callback.py:580`). -/
def hasGraphics (f : Nat) : Bool := f < 4 || f == 4 || f == 15 || f == 7 || f == 9 || f == 20

/-- `has_purchase` (`grf/lib/callback.py:581`). -/
def hasPurchase (f : Nat) : Bool := f < 4 || f == 4 || f == 15 || f == 20

/-- Adding the handlers of the callbacks other than 0 (`grf/lib/callback.py:596-604`). -/
def collect (get : CB → Option Handler) (d : List (Nat × Node)) (cbs : List (Nat × CB)) : List (Nat × Node) :=
  cbs.foldl (fun d kv => if kv.1 = 0 then d else match get kv.2 with | some h => dictSet d kv.1 (.handler h) | none => d) d

/-- `callbacks[CHANGE_PROPERTIES] = switch` if there is one (`grf/lib/callback.py:591-594`); the number is 0x36. -/
def start (n : Option Node) : List (Nat × Node) := match n with | some x => [(0x36, x)] | none => []

/-- The switches of the properties (`grf/lib/callback.py:587-590`): `none` is the `RuntimeError` when `change_properties` is set too. -/
def propertySwitches (m : Mgr) (g : Handler) : Option (Option Node × Option Node) :=
  if m.props.any fun kv => kv.2.isSet then
    if ((m.cbs.lookup 0x36).map CB.isSet).getD false then none else some (makeSwitches m.props g)
  else some (none, none)

/-- `make_switch` (`grf/lib/callback.py:579-632`): what the item is mapped to by default and the specific maps (255 is the purchase list);
`none` is an exception. -/
def makeSwitch (m : Mgr) : Option (Option Tree × List (Nat × Tree)) :=
  match m.cbs.lookup 0 with
  | none => none
  | some gcb =>
    if hasGraphics m.feature && gcb.dflt.isNone then none
    else
      -- only vehicles have properties, and they have graphics
      match propertySwitches m (gcb.dflt.getD (.int 0)) with
      | none => none
      | some (ds, ps) =>
        let d := collect CB.dflt (start ds) m.cbs
        let p := collect CB.purch (start ps) m.cbs
        let maps : List (Nat × Tree) :=
          if hasPurchase m.feature then
            if !p.isEmpty then
              [(255, .switch p ((match gcb.purch with | none => gcb.dflt | some x => some x).getD (.int 0)))]
            else match gcb.purch with
              | some x => [(255, .plain x)]
              | none => []
          else []
        let default : Option Tree :=
          if !d.isEmpty then some (.switch d (gcb.dflt.getD (.int 0)))
          else if hasGraphics m.feature then gcb.dflt.map .plain else none
        some (default, maps)

/-- `make_map_action` (`grf/lib/callback.py:634-643`): nothing is generated without a default. -/
def makeMap (m : Mgr) : Option (Option (Tree × List (Nat × Tree))) := do
  let (d, maps) ← makeSwitch m
  some (d.map fun t => (t, maps))

/-- The flags of the registered callbacks (`grf/lib/callback.py:570-573`). -/
def flagsOf (m : Mgr) : Nat :=
  m.cbs.foldl (fun res kv => if kv.1 ≠ 0 ∧ kv.2.isSet then
    res ||| ((((cbRows m.feature).find? fun r => r.id == kv.1).map Row.flag).getD 0) else res) 0

/-- `set_flag_props` (`grf/lib/callback.py:569-577`) on the values of `cb_flags` and `extra_cb_flags` (`none`: not in `props`). -/
def setFlagProps (m : Mgr) (cb extra : Option Nat) : Option Nat × Option Nat :=
  let res := flagsOf m
  (if res &&& 0xff > 0 then some (cb.getD 0 ||| (res &&& 0xff)) else cb,
   if res &&& 0xff00 > 0 then some (extra.getD 0 ||| (res >>> 8)) else extra)

end Grf.Callbacks
