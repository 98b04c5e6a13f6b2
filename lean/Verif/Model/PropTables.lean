/-!
# The property tables of Action 0 (`grf/actions.py:330-1257`), generated from the source text by `tools/proptab.py`
-/
namespace Grf.PropC

/-- Property formats: the format strings of the tables and the `Property` objects. For `grf/actions.py:1382-1421`. -/
inductive Fmt where
  | B | b | W | D | L | Bx | nB | B8 | L2 | nL | B3 | B4 | nmW | V | zE | snow
  | date | id | idx | climate | byteList | oldStation | newStation | bridge | accept | multiDict | layouts | size
deriving DecidableEq, Repr

/-- One property: code, name, format. For `grf/actions.py:340-380`. -/
structure Entry where
  code : Nat
  name : String
  fmt : Fmt
deriving DecidableEq, Repr

/-- `ACTION0_TRAIN_PROPS`, `grf/actions.py:340-380`. -/
def trainProps : List Entry :=
  [⟨0x00, "introduction_days_since_1920", .W⟩,
   ⟨0x02, "reliability_decay", .B⟩,
   ⟨0x03, "vehicle_life", .B⟩,
   ⟨0x04, "model_life", .B⟩,
   ⟨0x06, "climates_available", .climate⟩,
   ⟨0x07, "loading_speed", .B⟩,
   ⟨0x05, "track_type", .B⟩,
   ⟨0x08, "ai_special_flag", .B⟩,
   ⟨0x09, "max_speed", .W⟩,
   ⟨0x0b, "power", .W⟩,
   ⟨0x0d, "running_cost_factor", .B⟩,
   ⟨0x0e, "running_cost_base", .D⟩,
   ⟨0x12, "sprite_id", .B⟩,
   ⟨0x13, "dual_headed", .B⟩,
   ⟨0x14, "cargo_capacity", .B⟩,
   ⟨0x15, "default_cargo_type", .B⟩,
   ⟨0x16, "weight_low", .B⟩,
   ⟨0x17, "cost_factor", .B⟩,
   ⟨0x18, "ai_engine_rank", .B⟩,
   ⟨0x19, "engine_class", .B⟩,
   ⟨0x1a, "sort_purchase_list", .idx⟩,
   ⟨0x1b, "extra_power_per_wagon", .W⟩,
   ⟨0x1c, "refit_cost", .B⟩,
   ⟨0x1d, "refittable_cargo_types", .D⟩,
   ⟨0x1e, "cb_flags", .B⟩,
   ⟨0x1f, "tractive_effort_coefficient", .B⟩,
   ⟨0x20, "air_drag_coefficient", .B⟩,
   ⟨0x21, "shorten_by", .B⟩,
   ⟨0x22, "visual_effect_and_powered", .B⟩,
   ⟨0x23, "extra_weight_per_wagon", .B⟩,
   ⟨0x24, "weight_high", .B⟩,
   ⟨0x25, "bitmask_vehicle_info", .B⟩,
   ⟨0x26, "retire_early", .b⟩,
   ⟨0x27, "misc_flags", .B⟩,
   ⟨0x28, "refittable_cargo_classes", .W⟩,
   ⟨0x29, "non_refittable_cargo_classes", .W⟩,
   ⟨0x2a, "introduction_date", .date⟩,
   ⟨0x2b, "cargo_age_period", .W⟩,
   ⟨0x2c, "cargo_allow_refit", .byteList⟩,
   ⟨0x2d, "cargo_disallow_refit", .byteList⟩,
   ⟨0x2e, "curve_speed_mod", .W⟩,
   ⟨0x2f, "variant_group", .id⟩,
   ⟨0x30, "extra_flags", .D⟩,
   ⟨0x31, "extra_cb_flags", .B⟩]

/-- `ACTION0_RV_PROPS`, `grf/actions.py:382-415`. -/
def rvProps : List Entry :=
  [⟨0x00, "introduction_days_since_1920", .W⟩,
   ⟨0x02, "reliability_decay", .B⟩,
   ⟨0x03, "vehicle_life", .B⟩,
   ⟨0x04, "model_life", .B⟩,
   ⟨0x06, "climates_available", .climate⟩,
   ⟨0x07, "loading_speed", .B⟩,
   ⟨0x05, "road_type", .B⟩,
   ⟨0x08, "precise_max_speed", .B⟩,
   ⟨0x09, "running_cost_factor", .B⟩,
   ⟨0x0a, "running_cost_base", .D⟩,
   ⟨0x0e, "sprite_id", .B⟩,
   ⟨0x0f, "cargo_capacity", .B⟩,
   ⟨0x10, "default_cargo_type", .B⟩,
   ⟨0x11, "cost_factor", .B⟩,
   ⟨0x12, "sound_effect", .B⟩,
   ⟨0x13, "power", .B⟩,
   ⟨0x14, "weight", .B⟩,
   ⟨0x15, "max_speed", .B⟩,
   ⟨0x16, "refittable_cargo_types", .D⟩,
   ⟨0x17, "cb_flags", .B⟩,
   ⟨0x18, "tractive_effort_coefficient", .B⟩,
   ⟨0x19, "air_drag_coefficient", .B⟩,
   ⟨0x1a, "refit_cost", .B⟩,
   ⟨0x1b, "retire_early", .b⟩,
   ⟨0x1c, "misc_flags", .B⟩,
   ⟨0x1d, "refittable_cargo_classes", .W⟩,
   ⟨0x1e, "non_refittable_cargo_classes", .W⟩,
   ⟨0x1f, "introduction_date", .date⟩,
   ⟨0x20, "sort_purchase_list", .idx⟩,
   ⟨0x21, "visual_effect", .B⟩,
   ⟨0x22, "cargo_age_period", .W⟩,
   ⟨0x23, "shorten_by", .B⟩,
   ⟨0x24, "cargo_allow_refit", .byteList⟩,
   ⟨0x25, "cargo_disallow_refit", .byteList⟩,
   ⟨0x26, "variant_group", .id⟩,
   ⟨0x27, "extra_flags", .D⟩,
   ⟨0x28, "extra_cb_flags", .B⟩]

/-- `ACTION0_SHIP_PROPS`, `grf/actions.py:417-445`. -/
def shipProps : List Entry :=
  [⟨0x00, "introduction_days_since_1920", .W⟩,
   ⟨0x02, "reliability_decay", .B⟩,
   ⟨0x03, "vehicle_life", .B⟩,
   ⟨0x04, "model_life", .B⟩,
   ⟨0x06, "climates_available", .climate⟩,
   ⟨0x07, "loading_speed", .B⟩,
   ⟨0x08, "sprite_id", .B⟩,
   ⟨0x09, "is_refittable", .B⟩,
   ⟨0x0a, "cost_factor", .B⟩,
   ⟨0x0b, "max_speed", .B⟩,
   ⟨0x0c, "default_cargo_type", .B⟩,
   ⟨0x0d, "cargo_capacity", .W⟩,
   ⟨0x0f, "running_cost_factor", .B⟩,
   ⟨0x10, "sound_effect", .B⟩,
   ⟨0x11, "refittable_cargo_types", .D⟩,
   ⟨0x12, "cb_flags", .B⟩,
   ⟨0x13, "refit_cost", .B⟩,
   ⟨0x14, "ocean_speed_fraction", .B⟩,
   ⟨0x15, "canal_speed_fraction", .B⟩,
   ⟨0x16, "retire_early", .b⟩,
   ⟨0x17, "misc_flags", .B⟩,
   ⟨0x18, "refittable_cargo_classes", .W⟩,
   ⟨0x19, "non_refittable_cargo_classes", .W⟩,
   ⟨0x1a, "introduction_date", .date⟩,
   ⟨0x1b, "sort_purchase_list", .idx⟩,
   ⟨0x1c, "visual_effect", .B⟩,
   ⟨0x1d, "cargo_age_period", .W⟩,
   ⟨0x1e, "cargo_allow_refit", .byteList⟩,
   ⟨0x1f, "cargo_disallow_refit", .byteList⟩,
   ⟨0x20, "variant_group", .id⟩,
   ⟨0x21, "extra_flags", .D⟩,
   ⟨0x22, "extra_cb_flags", .B⟩]

/-- `ACTION0_AIRCRAFT_PROPS`, `grf/actions.py:447-475`. -/
def aircraftProps : List Entry :=
  [⟨0x00, "introduction_days_since_1920", .W⟩,
   ⟨0x02, "reliability_decay", .B⟩,
   ⟨0x03, "vehicle_life", .B⟩,
   ⟨0x04, "model_life", .B⟩,
   ⟨0x06, "climates_available", .climate⟩,
   ⟨0x07, "loading_speed", .B⟩,
   ⟨0x08, "sprite_id", .B⟩,
   ⟨0x09, "is_helicopter", .B⟩,
   ⟨0x0a, "is_large", .B⟩,
   ⟨0x0b, "cost_factor", .B⟩,
   ⟨0x0c, "max_speed", .B⟩,
   ⟨0x0d, "acceleration", .B⟩,
   ⟨0x0e, "running_cost_factor", .B⟩,
   ⟨0x0f, "passenger_capacity", .W⟩,
   ⟨0x11, "mail_capacity", .B⟩,
   ⟨0x12, "sound_effect", .B⟩,
   ⟨0x13, "refittable_cargo_types", .D⟩,
   ⟨0x14, "cb_flags", .B⟩,
   ⟨0x15, "refit_cost", .B⟩,
   ⟨0x16, "retire_early", .b⟩,
   ⟨0x17, "misc_flags", .B⟩,
   ⟨0x18, "refittable_cargo_classes", .W⟩,
   ⟨0x19, "non_refittable_cargo_classes", .W⟩,
   ⟨0x1a, "introduction_date", .date⟩,
   ⟨0x1b, "sort_purchase_list", .idx⟩,
   ⟨0x1c, "cargo_age_period", .W⟩,
   ⟨0x1d, "cargo_allow_refit", .byteList⟩,
   ⟨0x1e, "cargo_disallow_refit", .byteList⟩,
   ⟨0x1f, "range", .W⟩,
   ⟨0x20, "variant_group", .id⟩,
   ⟨0x21, "extra_flags", .D⟩,
   ⟨0x22, "extra_cb_flags", .B⟩]

/-- `ACTION0_STATION_PROPS`, `grf/actions.py:717-740`. -/
def stationProps : List Entry :=
  [⟨0x08, "class_label", .L⟩,
   ⟨0x09, "layout", .oldStation⟩,
   ⟨0x0a, "copy_layout", .B⟩,
   ⟨0x0b, "cb_flags", .B⟩,
   ⟨0x0c, "disabled_platforms", .B⟩,
   ⟨0x0d, "disabled_length", .B⟩,
   ⟨0x0e, "custom_layout", .V⟩,
   ⟨0x0f, "copy_custom_layout", .B⟩,
   ⟨0x10, "cargo_threshold", .W⟩,
   ⟨0x11, "draw_pylon_tiles", .B⟩,
   ⟨0x12, "cargo_random_triggers", .D⟩,
   ⟨0x13, "general_flags", .B⟩,
   ⟨0x14, "hide_wire_tiles", .B⟩,
   ⟨0x15, "non_traversable_tiles", .B⟩,
   ⟨0x16, "animation_info", .W⟩,
   ⟨0x17, "animation_speed", .B⟩,
   ⟨0x18, "animation_triggers", .W⟩,
   ⟨0x19, "road_routing", .V⟩,
   ⟨0x1a, "advanced_layout", .newStation⟩,
   ⟨0x1b, "min_bridge_height", .B8⟩,
   ⟨0x1c, "station_name", .W⟩,
   ⟨0x1d, "station_class_name", .W⟩]

/-- `ACTION0_BRIDGE_PROPS`, `grf/actions.py:782-796`. -/
def bridgeProps : List Entry :=
  [⟨0x00, "fallback_type", .B⟩,
   ⟨0x08, "intro_year_since_1920", .B⟩,
   ⟨0x09, "min_length", .B⟩,
   ⟨0x0a, "max_length", .B⟩,
   ⟨0x0b, "cost_factor_byte", .B⟩,
   ⟨0x0c, "max_speed", .W⟩,
   ⟨0x0d, "layout", .bridge⟩,
   ⟨0x0e, "flags", .B⟩,
   ⟨0x0f, "intro_year", .D⟩,
   ⟨0x10, "purchase_text", .W⟩,
   ⟨0x11, "description_rail", .W⟩,
   ⟨0x12, "description_road", .W⟩,
   ⟨0x13, "cost_factor", .W⟩]

/-- `ACTION0_HOUSE_PROPS`, `grf/actions.py:823-852`. -/
def houseProps : List Entry :=
  [⟨0x08, "substitute", .B⟩,
   ⟨0x09, "flags", .B⟩,
   ⟨0x0a, "availability_years", .W⟩,
   ⟨0x0b, "population", .B⟩,
   ⟨0x0c, "mail_mult", .B⟩,
   ⟨0x0d, "passengers_acceptance", .B⟩,
   ⟨0x0e, "mail_acceptance", .B⟩,
   ⟨0x0f, "goods_acceptance", .B⟩,
   ⟨0x10, "authority_impact", .W⟩,
   ⟨0x11, "removal_cost_mult", .B⟩,
   ⟨0x12, "name", .W⟩,
   ⟨0x13, "availability_mask", .W⟩,
   ⟨0x14, "cb_flags1", .B⟩,
   ⟨0x15, "override", .B⟩,
   ⟨0x16, "refresh_multiplier", .B⟩,
   ⟨0x17, "random_colours", .B4⟩,
   ⟨0x18, "probability", .B⟩,
   ⟨0x19, "extra_flags", .B⟩,
   ⟨0x1a, "animation_frames", .B⟩,
   ⟨0x1b, "animation_speed", .B⟩,
   ⟨0x1c, "building_class", .B⟩,
   ⟨0x1d, "cb_flags2", .B⟩,
   ⟨0x1e, "accepted_cargo", .D⟩,
   ⟨0x1f, "min_life", .B⟩,
   ⟨0x20, "watched_cargo_types", .W⟩,
   ⟨0x21, "min_year", .W⟩,
   ⟨0x22, "max_year", .W⟩,
   ⟨0x23, "tile_acceptance", .accept⟩]

/-- `ACTION0_GLOBAL_PROPS`, `grf/actions.py:892-908`. -/
def globalProps : List Entry :=
  [⟨0x08, "basecost", .B⟩,
   ⟨0x09, "cargo_table", .L⟩,
   ⟨0x0a, "currency_name", .W⟩,
   ⟨0x0b, "currency_mult", .D⟩,
   ⟨0x0c, "currency_options", .W⟩,
   ⟨0x0d, "currency_symbols", .zE⟩,
   ⟨0x0f, "currency_euro_date", .W⟩,
   ⟨0x10, "snowline_table", .snow⟩,
   ⟨0x11, "grfid_overrides", .L2⟩,
   ⟨0x12, "railtype_table", .L⟩,
   ⟨0x13, "lang_genders", .multiDict⟩,
   ⟨0x14, "lang_cases", .multiDict⟩,
   ⟨0x15, "lang_plural", .B⟩,
   ⟨0x16, "roadtype_table1", .B⟩,
   ⟨0x17, "roadtype_table2", .D⟩]

/-- `ACTION0_INDUSTRY_TILE_PROPS`, `grf/actions.py:910-923`. -/
def industrytileProps : List Entry :=
  [⟨0x08, "substitute_type", .B⟩,
   ⟨0x09, "override_type", .B⟩,
   ⟨0x0a, "tile_acceptance_1", .W⟩,
   ⟨0x0b, "tile_acceptance_2", .W⟩,
   ⟨0x0c, "tile_acceptance_3", .W⟩,
   ⟨0x0d, "land_shape_flags", .B⟩,
   ⟨0x0e, "cb_flags", .B⟩,
   ⟨0x0f, "anim_info", .W⟩,
   ⟨0x10, "anim_speed", .B⟩,
   ⟨0x11, "cb25_triggers", .B⟩,
   ⟨0x12, "flags", .B⟩,
   ⟨0x13, "tile_acceptance_list", .accept⟩]

/-- `ACTION0_INDUSTRY_PROPS`, `grf/actions.py:1057-1091`. -/
def industryProps : List Entry :=
  [⟨0x08, "substitute_type", .B⟩,
   ⟨0x09, "override_type", .B⟩,
   ⟨0x0a, "layouts", .layouts⟩,
   ⟨0x0b, "production_flags", .B⟩,
   ⟨0x0c, "closure_message", .W⟩,
   ⟨0x0d, "production_increase_message", .W⟩,
   ⟨0x0e, "production_decrease_message", .W⟩,
   ⟨0x0f, "fund_cost", .B⟩,
   ⟨0x10, "production_cargo", .W⟩,
   ⟨0x11, "acceptance_cargo", .D⟩,
   ⟨0x12, "produciton_multipliers", .B⟩,
   ⟨0x13, "acceptance_multipliers", .B⟩,
   ⟨0x14, "minimal_distributed", .B⟩,
   ⟨0x15, "random_sound", .nB⟩,
   ⟨0x16, "conflicting_indtypes", .B3⟩,
   ⟨0x17, "mapgen_probability", .B⟩,
   ⟨0x18, "ingame_probability", .B⟩,
   ⟨0x19, "map_colour", .B⟩,
   ⟨0x1a, "special_flags", .D⟩,
   ⟨0x1b, "text_id", .W⟩,
   ⟨0x1c, "input_mult1", .D⟩,
   ⟨0x1d, "input_mult2", .D⟩,
   ⟨0x1e, "input_mult3", .D⟩,
   ⟨0x1f, "name", .W⟩,
   ⟨0x20, "prospecting_chance", .D⟩,
   ⟨0x21, "cb_flags", .B⟩,
   ⟨0x22, "extra_cb_flags", .B⟩,
   ⟨0x23, "destruction_cost", .D⟩,
   ⟨0x24, "station_text", .W⟩,
   ⟨0x25, "production_types", .nB⟩,
   ⟨0x26, "acceptance_types", .nB⟩,
   ⟨0x27, "produciton_multipliers", .nB⟩,
   ⟨0x28, "input_multipliers", .nmW⟩]

/-- `ACTION0_CARGO_PROPS`, `grf/actions.py:1104-1127`. -/
def cargoProps : List Entry :=
  [⟨0x08, "bit_number", .B⟩,
   ⟨0x09, "type_name", .W⟩,
   ⟨0x0a, "unit_name", .W⟩,
   ⟨0x0b, "one_text", .W⟩,
   ⟨0x0c, "many_text", .W⟩,
   ⟨0x0d, "type_abbreviation", .W⟩,
   ⟨0x0e, "icon_sprite", .W⟩,
   ⟨0x0f, "weight", .B⟩,
   ⟨0x10, "penalty_lowerbound", .B⟩,
   ⟨0x11, "single_penalty_length", .B⟩,
   ⟨0x12, "base_price", .D⟩,
   ⟨0x13, "station_list_colour", .B⟩,
   ⟨0x14, "cargo_payment_list_colour", .B⟩,
   ⟨0x15, "is_freight", .B⟩,
   ⟨0x16, "cargo_classes", .W⟩,
   ⟨0x17, "label", .L⟩,
   ⟨0x18, "town_growth_effect", .B⟩,
   ⟨0x19, "town_growth_multiplier", .W⟩,
   ⟨0x1a, "cb_flags", .B⟩,
   ⟨0x1b, "units_of_cargo", .W⟩,
   ⟨0x1c, "items_of_cargo", .W⟩,
   ⟨0x1d, "capacity_multiplier", .W⟩]

/-- `ACTION0_SOUND_EFFECT_PROPS`, `grf/actions.py:1129-1133`. -/
def soundeffectProps : List Entry :=
  [⟨0x08, "relative_volume", .B⟩,
   ⟨0x09, "priority", .B⟩,
   ⟨0x0a, "override", .B⟩]

/-- `ACTION0_OBJECT_PROPS`, `grf/actions.py:1155-1173`. -/
def objectProps : List Entry :=
  [⟨0x08, "class_label", .L⟩,
   ⟨0x09, "class_name_id", .W⟩,
   ⟨0x0a, "name_id", .W⟩,
   ⟨0x0b, "climates_available", .climate⟩,
   ⟨0x0c, "size", .size⟩,
   ⟨0x0d, "build_cost_multiplier", .B⟩,
   ⟨0x0e, "introduction_date", .date⟩,
   ⟨0x0f, "end_of_life_date", .date⟩,
   ⟨0x10, "flags", .W⟩,
   ⟨0x11, "animation_info", .W⟩,
   ⟨0x12, "animation_speed", .B⟩,
   ⟨0x13, "animation_triggers", .W⟩,
   ⟨0x14, "remove_cost_multiplier", .B⟩,
   ⟨0x15, "cb_flags", .W⟩,
   ⟨0x16, "height", .B⟩,
   ⟨0x17, "num_views", .B⟩,
   ⟨0x18, "count_per_map256", .B⟩]

/-- `ACTION0_RAILTYPE_PROPS`, `grf/actions.py:1175-1201`. -/
def railtypeProps : List Entry :=
  [⟨0x08, "label", .L⟩,
   ⟨0x09, "toolbar_caption", .W⟩,
   ⟨0x0a, "menu_text", .W⟩,
   ⟨0x0b, "build_window_caption", .W⟩,
   ⟨0x0c, "autoreplace_text", .W⟩,
   ⟨0x0d, "new_engine_text", .W⟩,
   ⟨0x13, "construction_cost", .W⟩,
   ⟨0x16, "map_colour", .B⟩,
   ⟨0x17, "introduction_date", .date⟩,
   ⟨0x1a, "sort_order", .B⟩,
   ⟨0x1b, "name", .W⟩,
   ⟨0x1c, "maintenance_cost", .W⟩,
   ⟨0x0e, "compatible_railtype_list", .nL⟩,
   ⟨0x0f, "powered_railtype_list", .nL⟩,
   ⟨0x10, "railtype_flags", .B⟩,
   ⟨0x11, "curve_speed_multiplier", .B⟩,
   ⟨0x12, "station_graphics", .B⟩,
   ⟨0x14, "speed_limit", .W⟩,
   ⟨0x15, "acceleration_model", .B⟩,
   ⟨0x18, "requires_railtype_list", .nL⟩,
   ⟨0x19, "introduces_railtype_list", .nL⟩,
   ⟨0x1d, "alternative_railtype_list", .nL⟩]

/-- `ACTION0_ROADTYPE_PROPS`, `grf/actions.py:1203-1222`. -/
def roadtypeProps : List Entry :=
  [⟨0x08, "label", .L⟩,
   ⟨0x09, "toolbar_caption", .W⟩,
   ⟨0x0a, "menu_text", .W⟩,
   ⟨0x0b, "build_window_caption", .W⟩,
   ⟨0x0c, "autoreplace_text", .W⟩,
   ⟨0x0d, "new_engine_text", .W⟩,
   ⟨0x0f, "powered_roadtype_list", .nL⟩,
   ⟨0x10, "roadtype_flags", .B⟩,
   ⟨0x13, "construction_cost", .W⟩,
   ⟨0x14, "speed_limit", .W⟩,
   ⟨0x16, "map_colour", .B⟩,
   ⟨0x17, "introduction_date", .date⟩,
   ⟨0x18, "requires_roadtype_list", .nL⟩,
   ⟨0x19, "introduces_roadtype_list", .nL⟩,
   ⟨0x1a, "sort_order", .B⟩,
   ⟨0x1b, "name", .W⟩,
   ⟨0x1c, "maintenance_cost", .W⟩,
   ⟨0x1d, "alternative_roadtype_list", .nL⟩]

/-- `ACTION0_ROAD_STOP_PROPS`, `grf/actions.py:1224-1237`. -/
def roadstopProps : List Entry :=
  [⟨0x08, "class_label", .L⟩,
   ⟨0x09, "availability_type", .B⟩,
   ⟨0x0a, "name_id", .W⟩,
   ⟨0x0b, "class_name_id", .W⟩,
   ⟨0x0c, "draw_mode", .B⟩,
   ⟨0x0d, "cargo_random_triggers", .D⟩,
   ⟨0x0e, "animation_info", .W⟩,
   ⟨0x0f, "animation_speed", .B⟩,
   ⟨0x10, "animation_triggers", .B⟩,
   ⟨0x11, "cb_flags", .B⟩,
   ⟨0x12, "general_flags", .D⟩,
   ⟨0x15, "cost_multipliers", .W⟩]

/-- `ACTION0_PROPS[feature]` (`grf/actions.py:1241-1259`), by feature id; `none` is `KeyError`. -/
def table : Nat → Option (List Entry)
  | 0 => some trainProps
  | 1 => some rvProps
  | 2 => some shipProps
  | 3 => some aircraftProps
  | 4 => some stationProps
  | 6 => some bridgeProps
  | 7 => some houseProps
  | 8 => some globalProps
  | 9 => some industrytileProps
  | 10 => some industryProps
  | 11 => some cargoProps
  | 12 => some soundeffectProps
  | 15 => some objectProps
  | 16 => some railtypeProps
  | 18 => some roadtypeProps
  | 19 => some roadtypeProps
  | 20 => some roadstopProps
  | _ => none

/-- `ACTION0_PROPS[feature][code]`. For `grf/actions.py:1241-1259`. -/
def byCode (f code : Nat) : Option Entry := (table f).bind fun t => t.find? fun e => e.code == code

/-- `ACTION0_PROP_DICT[feature][name]` (`grf/actions.py:1261-1264`): a dictionary comprehension keeps the last entry with a
name. -/
def byName (f : Nat) (name : String) : Option Entry := (table f).bind fun t => t.reverse.find? fun e => e.name == name

end Grf.PropC
