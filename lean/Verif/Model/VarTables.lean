import Verif.Model.Decode
import Verif.Model.Compile
import Verif.Model.Syntax
/-!
# The variables that code of switches can name

`grf/va2vars.py`, and the choice of the table for a switch (`grf/actions.py:1745-1765`). Of an entry only what the code uses is kept: `var`,
`start`, `size` and `param`; the keys `value_function`, `param_function` and `replaced_by` are read nowhere in the code.
-/
namespace Grf

/-- For `grf/va2vars.py:5-25`. -/
abbrev VarTable := List (String × VarData)

/-- `d[k] = v` of a dictionary: a known key keeps its place. For `grf/va2vars.py:92-101`. -/
def putVar (t : VarTable) (p : String × VarData) : VarTable :=
  if t.any (fun q => q.1 == p.1) then t.map (fun q => if q.1 == p.1 then p else q) else t ++ [p]

/-- `{**a, **b}`. For `grf/va2vars.py:92-101`. -/
def overlay (a b : VarTable) : VarTable := b.foldl putVar a

/-- `NML_VA2_GLOBALVARS`, `grf/va2vars.py:5-25`. -/
def globalVars : VarTable := [
  ("current_month", ⟨0x02, 0, 8, none⟩),
  ("current_day_of_month", ⟨0x02, 8, 5, none⟩),
  ("is_leapyear", ⟨0x02, 15, 1, none⟩),
  ("current_day_of_year", ⟨0x02, 16, 9, none⟩),
  ("traffic_side", ⟨0x06, 4, 1, none⟩),
  ("animation_counter", ⟨0x0a, 0, 16, none⟩),
  ("current_callback_byte", ⟨0x0c, 0, 8, none⟩),
  ("current_callback", ⟨0x0c, 0, 16, none⟩),
  ("extra_callback_info1", ⟨0x10, 0, 32, none⟩),
  ("extra_callback_info1_byte", ⟨0x10, 0, 8, none⟩),
  ("extra_callback_info1_byte_2", ⟨0x10, 8, 8, none⟩),
  ("game_mode", ⟨0x12, 0, 8, none⟩),
  ("extra_callback_info2", ⟨0x18, 0, 32, none⟩),
  ("display_options", ⟨0x1b, 0, 6, none⟩),
  ("last_computed_result", ⟨0x1c, 0, 32, none⟩),
  ("snowline_height", ⟨0x20, 0, 8, none⟩),
  ("difficulty_level", ⟨0x22, 0, 8, none⟩),
  ("current_date", ⟨0x23, 0, 32, none⟩),
  ("current_year", ⟨0x24, 0, 32, none⟩)]

/-- `NML_VA2_VEHICLES`, `grf/va2vars.py:33-90`. -/
def vehicleVars : VarTable := [
  ("grfid", ⟨0x25, 0, 32, none⟩),
  ("position_in_consist", ⟨0x40, 0, 8, none⟩),
  ("position_in_consist_from_end", ⟨0x40, 8, 8, none⟩),
  ("num_vehs_in_consist", ⟨0x40, 16, 8, none⟩),
  ("position_in_vehid_chain", ⟨0x41, 0, 8, none⟩),
  ("position_in_vehid_chain_from_end", ⟨0x41, 8, 8, none⟩),
  ("num_vehs_in_vehid_chain", ⟨0x41, 16, 8, none⟩),
  ("cargo_classes_in_consist", ⟨0x42, 0, 8, none⟩),
  ("most_common_cargo_type", ⟨0x42, 8, 8, none⟩),
  ("most_common_cargo_subtype", ⟨0x42, 16, 8, none⟩),
  ("bitmask_consist_info", ⟨0x42, 24, 8, none⟩),
  ("company_num", ⟨0x43, 0, 8, none⟩),
  ("company_type", ⟨0x43, 16, 2, none⟩),
  ("company_colour1", ⟨0x43, 24, 4, none⟩),
  ("company_colour2", ⟨0x43, 28, 4, none⟩),
  ("aircraft_height", ⟨0x44, 8, 8, none⟩),
  ("airport_type", ⟨0x44, 0, 8, none⟩),
  ("curv_info_prev_cur", ⟨0x45, 0, 4, none⟩),
  ("curv_info_cur_next", ⟨0x45, 8, 4, none⟩),
  ("curv_info_prev_next", ⟨0x45, 16, 4, none⟩),
  ("curv_info", ⟨0x45, 0, 12, none⟩),
  ("motion_counter", ⟨0x46, 8, 24, none⟩),
  ("cargo_type_in_veh", ⟨0x47, 0, 8, none⟩),
  ("cargo_unit_weight", ⟨0x47, 8, 8, none⟩),
  ("cargo_classes", ⟨0x47, 16, 16, none⟩),
  ("vehicle_is_available", ⟨0x48, 0, 1, none⟩),
  ("vehicle_is_testing", ⟨0x48, 1, 1, none⟩),
  ("vehicle_is_offered", ⟨0x48, 2, 1, none⟩),
  ("build_year", ⟨0x49, 0, 32, none⟩),
  ("vehicle_is_potentially_powered", ⟨0x4a, 8, 1, none⟩),
  ("tile_has_catenary", ⟨0x4a, 9, 1, none⟩),
  ("date_of_last_service", ⟨0x4b, 0, 32, none⟩),
  ("position_in_articulated_veh", ⟨0x4d, 0, 8, none⟩),
  ("position_in_articulated_veh_from_end", ⟨0x4d, 8, 8, none⟩),
  ("waiting_triggers", ⟨0x5f, 0, 8, none⟩),
  ("random_bits", ⟨0x5f, 8, 8, none⟩),
  ("direction", ⟨0x9f, 0, 8, none⟩),
  ("vehicle_is_hidden", ⟨0xb2, 0, 1, none⟩),
  ("vehicle_is_stopped", ⟨0xb2, 1, 1, none⟩),
  ("vehicle_is_crashed", ⟨0xb2, 7, 1, none⟩),
  ("cargo_capacity", ⟨0xba, 0, 16, none⟩),
  ("cargo_count", ⟨0xbc, 0, 16, none⟩),
  ("age_in_days", ⟨0xc0, 0, 16, none⟩),
  ("max_age_in_days", ⟨0xc2, 0, 16, none⟩),
  ("vehicle_type_id", ⟨0xc6, 0, 16, none⟩),
  ("vehicle_is_flipped", ⟨0xc8, 1, 1, none⟩),
  ("breakdowns_since_last_service", ⟨0xca, 0, 8, none⟩),
  ("vehicle_is_broken", ⟨0xcb, 0, 8, none⟩),
  ("reliability", ⟨0xce, 0, 16, none⟩),
  ("cargo_subtype", ⟨0xf2, 0, 8, none⟩),
  ("vehicle_is_unloading", ⟨0xfe, 1, 1, none⟩),
  ("vehicle_is_powered", ⟨0xfe, 5, 1, none⟩),
  ("vehicle_is_not_powered", ⟨0xfe, 6, 1, none⟩),
  ("vehicle_is_reversed", ⟨0xfe, 8, 1, none⟩),
  ("built_during_preview", ⟨0xfe, 10, 1, none⟩)]

/-- `NML_VA2_TRAIN`, `grf/va2vars.py:92-101` (`**` of the base table first). -/
def trainVars : VarTable := overlay vehicleVars [
  ("max_speed", ⟨0x98, 0, 16, none⟩),
  ("current_speed", ⟨0xb4, 0, 16, none⟩),
  ("current_railtype", ⟨0x4a, 0, 8, none⟩),
  ("current_max_speed", ⟨0x4c, 0, 16, none⟩),
  ("vehicle_is_in_depot", ⟨0xe2, 7, 1, none⟩)]

/-- `NML_VA2_RV`, `grf/va2vars.py:103-113` (`**` of the base table first). -/
def rvVars : VarTable := overlay vehicleVars [
  ("max_speed", ⟨0x98, 0, 16, none⟩),
  ("current_speed", ⟨0xb4, 0, 16, none⟩),
  ("current_roadtype", ⟨0x4a, 0, 8, none⟩),
  ("current_tramtype", ⟨0x4a, 0, 8, none⟩),
  ("current_max_speed", ⟨0x4c, 0, 16, none⟩),
  ("vehicle_is_in_depot", ⟨0xe2, 0, 8, none⟩)]

/-- `NML_VA2_SHIP`, `grf/va2vars.py:115-123` (`**` of the base table first). -/
def shipVars : VarTable := overlay vehicleVars [
  ("max_speed", ⟨0x98, 0, 16, none⟩),
  ("current_speed", ⟨0xb4, 0, 16, none⟩),
  ("current_max_speed", ⟨0x4c, 0, 16, none⟩),
  ("vehicle_is_in_depot", ⟨0xe2, 7, 1, none⟩)]

/-- `NML_VA2_AIRCRAFT`, `grf/va2vars.py:125-134` (`**` of the base table first). -/
def aircraftVars : VarTable := overlay vehicleVars [
  ("max_speed", ⟨0x98, 0, 16, none⟩),
  ("current_speed", ⟨0xb4, 0, 16, none⟩),
  ("current_max_speed", ⟨0x4c, 0, 16, none⟩),
  ("vehicle_is_in_depot", ⟨0xe6, 0, 8, none⟩)]

/-- `NML_VA2_BASE_STATIONS`, `grf/va2vars.py:137-158`. -/
def baseStationVars : VarTable := [
  ("had_vehicle_of_type", ⟨0x8a, 1, 5, none⟩),
  ("is_waypoint", ⟨0x8a, 6, 1, none⟩),
  ("facilities", ⟨0xf0, 0, 8, none⟩),
  ("airport_type", ⟨0xf1, 0, 8, none⟩),
  ("build_date", ⟨0xfa, 0, 16, none⟩),
  ("cargo_amount_waiting", ⟨0x60, 0, 32, none⟩),
  ("cargo_time_since_pickup", ⟨0x61, 0, 32, none⟩),
  ("cargo_rating", ⟨0x62, 0, 32, none⟩),
  ("cargo_time_en_route", ⟨0x63, 0, 32, none⟩),
  ("cargo_last_vehicle_speed", ⟨0x64, 0, 8, none⟩),
  ("cargo_last_vehicle_age", ⟨0x64, 8, 8, none⟩),
  ("cargo_accepted", ⟨0x65, 3, 1, none⟩),
  ("cargo_accepted_ever", ⟨0x69, 0, 1, none⟩),
  ("cargo_accepted_last_month", ⟨0x69, 1, 1, none⟩),
  ("cargo_accepted_this_month", ⟨0x69, 2, 1, none⟩),
  ("cargo_accepted_bigtick", ⟨0x69, 3, 1, none⟩)]

/-- `NML_VA2_STATIONS`, `grf/va2vars.py:161-178` (`**` of the base table first). -/
def stationVars : VarTable := overlay baseStationVars [
  ("tile_type", ⟨0x40, 24, 4, none⟩),
  ("terrain_type", ⟨0x42, 0, 8, none⟩),
  ("track_type", ⟨0x42, 8, 8, none⟩),
  ("company_num", ⟨0x43, 0, 8, none⟩),
  ("company_type", ⟨0x43, 16, 2, none⟩),
  ("company_colour1", ⟨0x43, 24, 4, none⟩),
  ("company_colour2", ⟨0x43, 28, 4, none⟩),
  ("pbs_reserved", ⟨0x44, 0, 1, none⟩),
  ("pbs_reserved_or_disabled", ⟨0x44, 1, 1, none⟩),
  ("pbs_enabled", ⟨0x44, 2, 1, none⟩),
  ("rail_continuation", ⟨0x45, 0, 8, none⟩),
  ("rail_present", ⟨0x45, 8, 8, none⟩),
  ("animation_frame", ⟨0x4a, 0, 8, none⟩)]

/-- `NML_VA2_OBJECTS`, `grf/va2vars.py:181-222`. -/
def objectVars : VarTable := [
  ("relative_x", ⟨0x40, 0, 8, none⟩),
  ("relative_y", ⟨0x40, 8, 8, none⟩),
  ("relative_pos", ⟨0x40, 0, 16, none⟩),
  ("terrain_type", ⟨0x41, 0, 3, none⟩),
  ("tile_slope", ⟨0x41, 8, 5, none⟩),
  ("build_date", ⟨0x42, 0, 32, none⟩),
  ("animation_frame", ⟨0x43, 0, 8, none⟩),
  ("company_colour", ⟨0x43, 0, 8, none⟩),
  ("owner", ⟨0x44, 0, 8, none⟩),
  ("town_manhattan_dist", ⟨0x45, 0, 16, none⟩),
  ("town_zone", ⟨0x45, 16, 8, none⟩),
  ("town_euclidean_dist", ⟨0x46, 0, 16, none⟩),
  ("view", ⟨0x48, 0, 8, none⟩),
  ("random_bits", ⟨0x5f, 8, 8, none⟩),
  ("tile_height", ⟨0x62, 16, 8, some 0⟩),
  ("nearby_tile_object_type", ⟨0x60, 0, 16, none⟩),
  ("nearby_tile_object_view", ⟨0x60, 16, 4, none⟩),
  ("nearby_tile_random_bits", ⟨0x61, 0, 8, none⟩),
  ("nearby_tile_slope", ⟨0x62, 0, 5, none⟩),
  ("nearby_tile_is_same_object", ⟨0x62, 8, 1, none⟩),
  ("nearby_tile_is_water", ⟨0x62, 9, 1, none⟩),
  ("nearby_tile_terrain_type", ⟨0x62, 10, 3, none⟩),
  ("nearby_tile_water_class", ⟨0x62, 13, 2, none⟩),
  ("nearby_tile_height", ⟨0x62, 16, 8, none⟩),
  ("nearby_tile_class", ⟨0x62, 24, 4, none⟩),
  ("nearby_tile_animation_frame", ⟨0x63, 0, 8, none⟩),
  ("object_count", ⟨0x64, 16, 8, none⟩),
  ("object_distance", ⟨0x64, 0, 16, none⟩)]

/-- `NML_VA2_HOUSES`, `grf/va2vars.py:224-245`. -/
def houseVars : VarTable := [
  ("construction_state", ⟨0x40, 0, 2, none⟩),
  ("pseudo_random_bits", ⟨0x40, 2, 2, none⟩),
  ("age", ⟨0x41, 0, 8, none⟩),
  ("town_zone", ⟨0x42, 0, 8, none⟩),
  ("terrain_type", ⟨0x43, 0, 8, none⟩),
  ("same_house_count_town", ⟨0x44, 0, 8, none⟩),
  ("same_house_count_map", ⟨0x44, 8, 8, none⟩),
  ("generating_town", ⟨0x45, 0, 1, none⟩),
  ("animation_frame", ⟨0x46, 0, 8, none⟩),
  ("x_coordinate", ⟨0x47, 0, 16, none⟩),
  ("y_coordinate", ⟨0x47, 16, 16, none⟩),
  ("random_bits", ⟨0x5f, 8, 8, none⟩)]

/-- `NML_VA2_INDUSTRY_TILES`, `grf/va2vars.py:247-265`. -/
def industryTileVars : VarTable := [
  ("construction_state", ⟨0x40, 0, 2, none⟩),
  ("terrain_type", ⟨0x41, 0, 8, none⟩),
  ("town_zone", ⟨0x42, 0, 3, none⟩),
  ("relative_x", ⟨0x43, 0, 8, none⟩),
  ("relative_y", ⟨0x43, 8, 8, none⟩),
  ("relative_pos", ⟨0x43, 0, 16, none⟩),
  ("animation_frame", ⟨0x44, 0, 8, none⟩),
  ("random_bits", ⟨0x5f, 8, 8, none⟩),
  ("nearby_tile_slope", ⟨0x60, 0, 5, none⟩),
  ("nearby_tile_is_same_industry", ⟨0x60, 8, 1, none⟩),
  ("nearby_tile_is_water", ⟨0x60, 9, 1, none⟩),
  ("nearby_tile_terrain_type", ⟨0x60, 10, 3, none⟩),
  ("nearby_tile_water_class", ⟨0x60, 13, 2, none⟩),
  ("nearby_tile_height", ⟨0x60, 16, 8, none⟩),
  ("nearby_tile_class", ⟨0x60, 24, 4, none⟩),
  ("nearby_tile_animation_frame", ⟨0x61, 0, 8, none⟩),
  ("nearby_tile_industrytile_id", ⟨0x62, 0, 16, none⟩)]

/-- `NML_VA2_INDUSTRIES`, `grf/va2vars.py:267-299`. -/
def industryVars : VarTable := [
  ("waiting_cargo_1", ⟨0x40, 0, 16, none⟩),
  ("waiting_cargo_2", ⟨0x41, 0, 16, none⟩),
  ("waiting_cargo_3", ⟨0x42, 0, 16, none⟩),
  ("water_distance", ⟨0x43, 0, 32, none⟩),
  ("layout_num", ⟨0x44, 0, 8, none⟩),
  ("founder_type", ⟨0x45, 16, 2, none⟩),
  ("founder_colour1", ⟨0x45, 24, 4, none⟩),
  ("founder_colour2", ⟨0x45, 28, 4, none⟩),
  ("build_date", ⟨0x46, 0, 32, none⟩),
  ("random_bits", ⟨0x5f, 8, 16, none⟩),
  ("produced_cargo_waiting_1", ⟨0x8a, 0, 16, none⟩),
  ("produced_cargo_waiting_2", ⟨0x8c, 0, 16, none⟩),
  ("production_rate_1", ⟨0x8e, 0, 8, none⟩),
  ("production_rate_2", ⟨0x8f, 0, 8, none⟩),
  ("production_level", ⟨0x93, 0, 8, none⟩),
  ("produced_this_month_1", ⟨0x94, 0, 16, none⟩),
  ("produced_this_month_2", ⟨0x96, 0, 16, none⟩),
  ("transported_this_month_1", ⟨0x98, 0, 16, none⟩),
  ("transported_this_month_2", ⟨0x9a, 0, 16, none⟩),
  ("transported_last_month_pct_1", ⟨0x9c, 0, 8, none⟩),
  ("transported_last_month_pct_2", ⟨0x9d, 0, 8, none⟩),
  ("produced_last_month_1", ⟨0x9e, 0, 16, none⟩),
  ("produced_last_month_2", ⟨0xa0, 0, 16, none⟩),
  ("transported_last_month_1", ⟨0xa2, 0, 16, none⟩),
  ("transported_last_month_2", ⟨0xa4, 0, 16, none⟩),
  ("founder", ⟨0xa7, 0, 8, none⟩),
  ("colour", ⟨0xa8, 0, 8, none⟩),
  ("counter", ⟨0xaa, 0, 16, none⟩),
  ("build_type", ⟨0xb3, 0, 2, none⟩),
  ("last_accept_date", ⟨0xb4, 0, 16, none⟩)]

/-- `NML_VA2_RAILTYPES`, `grf/va2vars.py:301-308`. -/
def railtypeVars : VarTable := [
  ("terrain_type", ⟨0x40, 0, 8, none⟩),
  ("enhanced_tunnels", ⟨0x41, 0, 8, none⟩),
  ("level_crossing_status", ⟨0x42, 0, 8, none⟩),
  ("build_date", ⟨0x43, 0, 32, none⟩),
  ("town_zone", ⟨0x44, 0, 8, none⟩),
  ("random_bits", ⟨0x5f, 8, 2, none⟩)]

/-- `NML_VA2_ROAD_STOPS`, `grf/va2vars.py:312-331` (`**` of the base table first). -/
def roadStopVars : VarTable := overlay baseStationVars [
  ("view", ⟨0x40, 0, 8, none⟩),
  ("stop_type", ⟨0x41, 0, 8, none⟩),
  ("terrain_type", ⟨0x42, 0, 8, none⟩),
  ("tile_slope", ⟨0x42, 8, 5, none⟩),
  ("road_type", ⟨0x43, 8, 8, none⟩),
  ("tram_type", ⟨0x44, 8, 8, none⟩),
  ("town_manhattan_dist", ⟨0x45, 0, 16, none⟩),
  ("town_zone", ⟨0x45, 16, 8, none⟩),
  ("town_euclidean_dist", ⟨0x46, 0, 32, none⟩),
  ("company_num", ⟨0x47, 0, 8, none⟩),
  ("company_type", ⟨0x47, 16, 2, none⟩),
  ("company_colour1", ⟨0x47, 24, 4, none⟩),
  ("company_colour2", ⟨0x47, 28, 4, none⟩),
  ("animation_frame", ⟨0x49, 0, 8, none⟩),
  ("drawn_in_gui", ⟨0x50, 4, 1, none⟩),
  ("waiting_triggers", ⟨0x5f, 0, 8, none⟩),
  ("random_bits_tile", ⟨0x5f, 24, 8, none⟩)]

/-- `VA2_VARS`, `grf/va2vars.py:335-351`, by the number of the feature (`grf/common.py:148-171`). The empty table stands for a feature which is not
in the dictionary. -/
def vaVars (feature : Nat) : VarTable :=
  match feature with
  | 0x09 => overlay globalVars industryTileVars
  | 0x00 => overlay globalVars trainVars
  | 0x01 => overlay globalVars rvVars
  | 0x02 => overlay globalVars shipVars
  | 0x03 => overlay globalVars aircraftVars
  | 0x04 => overlay globalVars stationVars
  | 0x07 => overlay globalVars houseVars
  | 0x0a => overlay globalVars industryVars
  | 0x0f => overlay globalVars objectVars
  | 0x10 => overlay globalVars railtypeVars
  | 0x14 => overlay globalVars roadStopVars
  | _ => []

/-- The feature whose variables the code of a switch names, `Switch.parsed_code`, `grf/actions.py:1745-1765`; `none` is the `KeyError`, `0xff` is
`TOWN` (`grf/common.py:178`), which has no table. -/
def scopeFeature (feature : Nat) (related : Bool) : Option Nat :=
  if related then
    match feature with
    | 0x00 => some 0x00
    | 0x01 => some 0x01
    | 0x02 => some 0x02
    | 0x03 => some 0x03
    | 0x06 => some 0xff
    | 0x07 => some 0xff
    | 0x09 => some 0x0a
    | 0x0a => some 0xff
    | 0x0d => some 0xff
    | 0x0f => some 0xff
    | 0x11 => some 0x0d
    | _ => none
  else some feature

/-- The names that a tree reads, i.e. its `Var` nodes (`grf/parser.py:752-754`). -/
def Node.names : Node → List String
  | .var n => [n]
  | .gvarP _ _ _ p => p.names
  | .gvarDivP _ _ _ _ _ _ p => p.names
  | .temp r => r.names
  | .perm r => r.names
  | .expr _ a b => a.names ++ b.names
  | .assign _ e => e.names
  | _ => []

/-- The code bytes of a switch from its text: `parsed_code` (`grf/actions.py:1744-1771`) and the first half of `get_data`
(`grf/actions.py:1774-1783`). `Var.__init__` (`grf/parser.py:269`) refuses every name if the feature has no table. `subs` are the ids of the
subroutines. -/
def switchCode (feature : Nat) (related : Bool) (subs : String → Option Int) (text : List Char) : Option Bytes := do
  let g ← scopeFeature feature related
  let nodes ← Syntax.parse text
  if (vaVars g).isEmpty ∧ nodes.flatMap Node.names ≠ [] then none else do
  let (code, _) ← compileLines ⟨fun n => (vaVars g).lookup n, subs⟩ nodes Ctx.init
  markEnd code

end Grf
