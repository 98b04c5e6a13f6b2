/-!
# The callbacks the game has (specification for C42)

Independent of the manager's tables: the numbers of properties and callbacks are those of the public constants `grf.lib.Callback.*`
(`grf/lib/callback.py:5-153`), under the names the manager uses; where there is no such constant, the numbers are those of the NewGRF
documentation.
-/
namespace Grf.Spec

/-- The features whose items are bought from a list: vehicles, stations, objects and road stops. -/
def Buyable (f : Nat) : Prop := f ∈ [0, 1, 2, 3, 4, 15, 20]

/-- The features whose items are drawn with graphics: those which are bought, houses and industry tiles. -/
def Drawn (f : Nat) : Prop := f ∈ [0, 1, 2, 3, 4, 7, 9, 15, 20]

instance (f : Nat) : Decidable (Buyable f) := inferInstanceAs (Decidable (f ∈ _))
instance (f : Nat) : Decidable (Drawn f) := inferInstanceAs (Decidable (f ∈ _))

/-- The numbers of the vehicle properties a callback can change (`Callback.Train.Properties` and so on). -/
def propertyNumbers : Nat → List (String × Nat)
  | 0 => [("loading_speed", 0x07), ("max_speed", 0x09), ("power", 0x0B), ("running_cost_factor", 0x0D), ("cargo_capacity", 0x14),
      ("weight", 0x16), ("cost_factor", 0x17), ("tractive_effort_coefficient", 0x1F), ("shorten_by", 0x21), ("bitmask_vehicle_info", 0x25),
      ("cargo_age_period", 0x2B), ("curve_speed_mod", 0x2E)]
  | 1 => [("loading_speed", 0x07), ("running_cost_factor", 0x09), ("cargo_capacity", 0x0F), ("cost_factor", 0x11), ("power", 0x13),
      ("weight", 0x14), ("max_speed", 0x15), ("tractive_effort_coefficient", 0x18), ("cargo_age_period", 0x22), ("shorten_by", 0x23)]
  | 2 => [("loading_speed", 0x07), ("cost_factor", 0x0A), ("max_speed", 0x0B), ("cargo_capacity", 0x0D), ("running_cost_factor", 0x0F),
      ("cargo_age_period", 0x1D)]
  | 3 => [("loading_speed", 0x07), ("cost_factor", 0x0B), ("max_speed", 0x0C), ("running_cost_factor", 0x0E),
      ("primary_cargo_capacity", 0x0F), ("secondary_cargo_capacity", 0x11), ("cargo_age_period", 0x1C), ("range", 0x1F)]
  | _ => []

/-- The callbacks all vehicles have. -/
def vehicleCallbacks : List (String × Nat) :=
  [("random_trigger", 0x01), ("cargo_capacity", 0x15), ("cargo_subtype_text", 0x19), ("additional_text", 0x23), ("colour_mapping", 0x2D),
   ("start_stop", 0x31), ("every_32_days", 0x32), ("sound_effect", 0x33), ("change_properties", 0x36), ("refit_cost", 0x15E),
   ("name", 0x161), ("reverse_build_probability", 0x162)]

/-- The sprites a road type or tram type can have. -/
def roadSprites : List (String × Nat) :=
  [("gui", 0), ("track_overlay", 1), ("underlay", 2), ("tunnels", 3), ("catenary_front", 4), ("catenary_back", 5), ("bridge_surfaces", 6),
   ("depots", 8)]

/-- The numbers of the callbacks (and, for rail, road and tram types, of the sprite types). -/
def callbackNumbers : Nat → List (String × Nat)
  | 0 => vehicleCallbacks ++ [("visual_effect_and_powered", 0x10), ("articulated_part", 0x16), ("can_attach_wagon", 0x1D),
      ("create_effect", 0x160)]
  | 1 => vehicleCallbacks ++ [("visual_effect", 0x10), ("articulated_part", 0x16), ("create_effect", 0x160)]
  | 2 => vehicleCallbacks ++ [("visual_effect", 0x10)]
  | 3 => vehicleCallbacks
  | 4 => [("availability", 0x13), ("select_sprite_layout", 0x14), ("select_tile_layout", 0x24), ("anim_control", 0x140),
      ("anim_next_frame", 0x141), ("anim_speed", 0x142), ("tile_check", 0x149)]
  | 5 => [("sprite_offset", 0x147)]
  | 7 => [("random_trigger", 0x01), ("construction_check", 0x17), ("anim_next_frame", 0x1A), ("anim_control", 0x1B), ("construction_anim", 0x1C),
      ("colour", 0x1E), ("cargo_amount_accept", 0x1F), ("anim_speed", 0x20), ("destruction", 0x21), ("cargo_type_accept", 0x2A),
      ("cargo_production", 0x2E), ("protection", 0x143), ("watched_cargo_accepted", 0x148), ("name", 0x14D), ("foundations", 0x14E),
      ("autoslope", 0x14F)]
  | 9 => [("random_trigger", 0x01), ("anim_control", 0x25), ("anim_next_frame", 0x26), ("anim_speed", 0x27), ("cargo_amount_accept", 0x2B),
      ("cargo_type_accept", 0x2C), ("tile_check", 0x2F), ("foundations", 0x30), ("autoslope", 0x3C)]
  | 10 => [("construction_probability", 0x22), ("location_check", 0x28), ("random_prod_change", 0x29), ("monthly_prod_change", 0x35),
      ("cargo_subtype_display", 0x37), ("extra_text_fund", 0x38), ("extra_text_industry", 0x3A), ("control_special", 0x3B),
      ("stop_accept_cargo", 0x3D), ("colour", 0x14A), ("input_cargo", 0x14B), ("output_cargo", 0x14C), ("init_production", 0x15F)]
  | 11 => [("profit", 0x39), ("station_rating", 0x145)]
  | 13 => [("additional_text", 0x155), ("layout_name", 0x156)]
  | 15 => [("tile_check", 0x157), ("anim_next_frame", 0x158), ("anim_control", 0x159), ("anim_speed", 0x15A), ("colour", 0x15B),
      ("additional_text", 0x15C), ("autoslope", 0x15D)]
  | 16 => [("gui", 0), ("track_overlay", 1), ("underlay", 2), ("tunnels", 3), ("catenary_wire", 4), ("catenary_pylons", 5),
      ("bridge_surfaces", 6), ("level_crossings", 7), ("depots", 8), ("fences", 9), ("tunnel_overlay", 10), ("signals", 11), ("precombined", 12)]
  | 17 => [("foundations", 0x150), ("anim_control", 0x152), ("anim_next_frame", 0x153), ("anim_speed", 0x154)]
  | 18 => roadSprites ++ [("roadstops", 10), ("direction_markings", 11)]
  | 19 => roadSprites
  | 20 => [("availability", 0x13), ("anim_control", 0x140), ("anim_next_frame", 0x141), ("anim_speed", 0x142)]
  | _ => []

end Grf.Spec
