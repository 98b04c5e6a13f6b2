{
 "claims": [
  {
   "property": "C01",
   "status": "proved",
   "theorems": [
    "Grf.extended_byte_roundtrip",
    "Grf.extended_byte_form",
    "Grf.extended_byte_accepts"
   ],
   "note": ""
  },
  {
   "property": "C02",
   "status": "proved",
   "theorems": [
    "Grf.utoi8_spec",
    "Grf.utoi32_spec",
    "Grf.signedRep_unique"
   ],
   "note": ""
  },
  {
   "property": "C03",
   "status": "proved",
   "theorems": [
    "Grf.to_days_next",
    "Grf.to_days_strict_mono",
    "Grf.to_days_injective",
    "Grf.nthDay_to_days"
   ],
   "note": ""
  },
  {
   "property": "C04",
   "status": "proved",
   "theorems": [
    "Grf.hex_limited_iff",
    "Grf.hex_roundtrip_iff",
    "Grf.hex_roundtrip",
    "Grf.hex_roundtrip_fails_on_empty",
    "Grf.hexStr_injective",
    "Grf.hexStr_text",
    "Grf.hexVal_iff",
    "Grf.hex_capitals"
   ],
   "note": "exact; the empty string is refused"
  },
  {
   "property": "C06",
   "status": "proved",
   "theorems": [
    "Grf.action_word_roundtrip",
    "Grf.number_word_roundtrip",
    "Grf.action_and_number_words_differ",
    "Grf.large_number_word_truncated"
   ],
   "note": ""
  },
  {
   "property": "C21",
   "status": "proved",
   "theorems": [
    "Grf.compiled_program_computes_source",
    "Grf.compiled_program_meaning",
    "Grf.switch_runs_source",
    "Grf.switch_runs_code",
    "Grf.dynamic_parameter_operand_meaning",
    "Grf.compile_accepts",
    "Grf.evalS_eval",
    "Grf.miscompiles_dynamic_parameter_operand",
    "Grf.miscompiles_call_clobbers_spill",
    "Grf.miscompiles_parametrised_table_variable",
    "Grf.miscompiles_user_register_80",
    "Grf.miscompiles_assignment_before_parameter"
   ],
   "note": "each condition of the statement has a proved counterexample (miscompiles_*)"
  },
  {
   "property": "C22",
   "status": "proved",
   "theorems": [
    "Grf.reserved_register_is_fresh",
    "Grf.reserve_refused_iff_exhausted",
    "Grf.live_registers_distinct",
    "Grf.variable_register_stable",
    "Grf.compile_returns_its_registers",
    "Grf.compiled_code_keeps_live_registers",
    "Grf.miscompiles_call_clobbers_spill",
    "Grf.miscompiles_assignment_before_parameter"
   ],
   "note": ""
  },
  {
   "property": "C23",
   "status": "proved",
   "theorems": [
    "Grf.compiled_comparison",
    "Grf.comparison_means",
    "Grf.comparison_value",
    "Grf.chain_value"
   ],
   "note": ""
  },
  {
   "property": "C24",
   "status": "proved",
   "theorems": [
    "Grf.nested_7b",
    "Grf.simplify_preserves_meaning",
    "Grf.simplify_recognises_lowering",
    "Grf.decoded_code_keeps_meaning"
   ],
   "note": "decoder itself loses accumulator in two cases, see decoder_duplicates_accumulator / decoder_drops_computed_parameter"
  },
  {
   "property": "C25",
   "status": "proved",
   "theorems": [
    "Grf.table_exact",
    "Grf.table_accepted_iff",
    "Grf.caught_eq_choose_iff",
    "Grf.catches_forward",
    "Grf.ranges_select_user_branch",
    "Grf.backwards_range_matches",
    "Grf.no_ranges_ignores_default"
   ],
   "note": "complete semantics of the emitted table and exact acceptance; caught_eq_choose_iff says when this is the signed reading"
  },
  {
   "property": "C26",
   "status": "proved",
   "theorems": [
    "Grf.switch_framed",
    "Grf.switch_decodes",
    "Grf.switch_runs_code",
    "Grf.miscompiles_parametrised_table_variable",
    "Grf.decoder_loses_parameter_of_constant",
    "Grf.decoder_refuses_computed_call",
    "Grf.decoder_duplicates_accumulator"
   ],
   "note": "the conditions are necessary: see the counterexamples"
  },
  {
   "property": "C27",
   "status": "proved",
   "theorems": [
    "Grf.emitted_exactly",
    "Grf.all_emitted_once",
    "Grf.covered_by_unreferenced",
    "Grf.features_exactly",
    "Grf.added_twice_refused",
    "Grf.raw_ref_target_dropped",
    "Grf.mutual_references_dropped"
   ],
   "note": "exact: for every acyclic graph, any order, object and raw references; Unreferenced/RawReferred are defined in Spec/RefsSpec.lean from the attributes of the actions only"
  },
  {
   "property": "C28",
   "status": "proved",
   "theorems": [
    "Grf.live_ids_distinct",
    "Grf.targets_have_different_ids",
    "Grf.out_of_ids_refused",
    "Grf.features_exactly",
    "Grf.id_clash_while_live",
    "Grf.explicit_id_handed_out"
   ],
   "note": "in every acyclic graph under the two conditions of the statement, each with a proved counterexample; features_exactly has the part that ids set by the user are kept"
  },
  {
   "property": "C29",
   "status": "proved",
   "theorems": [
    "Grf.written_file_bytes",
    "Grf.fileBytes_inj",
    "Grf.written_file_well_formed",
    "Grf.written_file_reads_back",
    "Grf.empty_action_breaks_file"
   ],
   "note": "actions must have at least one byte"
  },
  {
   "property": "C30",
   "status": "proved",
   "theorems": [
    "Grf.shown_iff_hash_distinguishes",
    "Grf.written_file_reads_back",
    "Grf.no_data_stored_twice",
    "Grf.hash_collision_shows_other_sprite"
   ],
   "note": "exact: iff no two different data lists of the file collide; collisions do show another sprite"
  },
  {
   "property": "C31",
   "status": "proved",
   "theorems": [
    "Grf.real_ids_distinct",
    "Grf.real_ids_bijective",
    "Grf.resource_added_twice"
   ],
   "note": "gap-free numbering when no resource action is added twice"
  },
  {
   "property": "C32",
   "status": "proved",
   "theorems": [
    "Grf.sortBy_stable",
    "Grf.right_schedule_iff",
    "Grf.file_events",
    "Grf.files_loaded_when_used",
    "Grf.resource_added_twice"
   ],
   "note": "exact, also for repeated resource actions (only an AlternativeSprites object can be added twice through the API)"
  },
  {
   "property": "C33",
   "status": "proved",
   "theorems": [
    "Grf.write_leaves",
    "Grf.failed_write_keeps_target_iff",
    "Grf.no_temporary_file_iff",
    "Grf.target_at_any_moment",
    "Grf.copy_is_exposed",
    "Grf.target_old_or_complete",
    "Grf.write_success",
    "Grf.cross_device_failure_corrupts_target",
    "Grf.interrupt_leaves_temporary_file"
   ],
   "note": "exact: what is left for every way each step can end, and at every moment"
  },
  {
   "property": "C51",
   "status": "proved",
   "theorems": [
    "Grf.watched_files_complete_iff",
    "Grf.watched_files_always_empty"
   ],
   "note": "exact: the returned set is always empty, so the intended claim fails for every file with source files"
  },
  {
   "property": "C34",
   "status": "proved",
   "theorems": [
    "Grf.IdMap.id_answer_exact",
    "Grf.IdMap.manual_collision_iff",
    "Grf.IdMap.ids_unique_and_stable",
    "Grf.IdMap.save_then_load_preserves",
    "Grf.IdMap.reserved_ids_avoided",
    "Grf.IdMap.loaded_id_taken_again",
    "Grf.IdMap.reserve_ids_of_grf_fails"
   ],
   "note": "exact for every call of every build; ids loaded from the file do not block numbers used by hand"
  },
  {
   "property": "C35",
   "status": "proved",
   "theorems": [
    "Grf.Sounds.sound_id_is_table_position",
    "Grf.Sounds.sound_ids_unique",
    "Grf.Sounds.sound_ids_stable",
    "Grf.Sounds.sound_refused_iff",
    "Grf.Sounds.sound_action_refused"
   ],
   "note": ""
  },
  {
   "property": "C36",
   "status": "proved",
   "theorems": [
    "Grf.Strings.item_found_iff",
    "Grf.Strings.handles_exact",
    "Grf.Strings.unnamed_handles_iff",
    "Grf.Strings.texts_stay",
    "Grf.Strings.handle_stands_for_text",
    "Grf.Strings.ids_exact",
    "Grf.Strings.same_id_iff",
    "Grf.Strings.definitions_exact",
    "Grf.Strings.defined_by_first",
    "Grf.Strings.kinds_clash_iff",
    "Grf.Strings.made_up_name_taken",
    "Grf.Strings.import_forgets_texts",
    "Grf.Strings.hash_collision_shares_id",
    "Grf.Strings.global_runs_into_persistent"
   ],
   "note": "exact for every history; nml's language tables are a dictionary, its translations and Python's hash are parameters"
  },
  {
   "property": "C37",
   "status": "proved",
   "theorems": [
    "Grf.Cache.builds_exact",
    "Grf.Cache.holds_empty",
    "Grf.Cache.lookup_returns_last_written",
    "Grf.Cache.lastWrite_undamaged",
    "Grf.Cache.lost_file_is_a_miss",
    "Grf.Cache.lost_index_is_a_miss",
    "Grf.Cache.clean_build_starts_empty",
    "Grf.Cache.unused_entries_evicted",
    "Grf.Cache.cache_never_changes_output",
    "Grf.Cache.digest_collision_serves_other_sprite",
    "Grf.Cache.failed_store_is_served",
    "Grf.Cache.damaged_file_is_served"
   ],
   "note": "exact for every sequence of builds, including failing stores and damage from outside"
  },
  {
   "property": "C38",
   "status": "proved",
   "theorems": [
    "Grf.Tables.railtype_positions_iff",
    "Grf.Tables.railtype_id_exact",
    "Grf.Tables.written_railtypes",
    "Grf.Tables.railtype_known_iff",
    "Grf.Tables.cargo_positions_iff",
    "Grf.Tables.cargo_ids_exact",
    "Grf.Tables.map_cargo_labels_iff",
    "Grf.Tables.railtype_added_twice",
    "Grf.Tables.cargo_given_twice"
   ],
   "note": "exact, including repeated labels"
  },
  {
   "property": "C39",
   "status": "proved",
   "theorems": [
    "Grf.Tables.railtype_fallback",
    "Grf.Tables.railtype_actions_encodable"
   ],
   "note": ""
  },
  {
   "property": "C52",
   "status": "proved",
   "theorems": [
    "Grf.Sounds.added_exact",
    "Grf.Sounds.generators_exact",
    "Grf.Sounds.file_exact",
    "Grf.Sounds.yields_exists",
    "Grf.Sounds.contains_exists",
    "Grf.Sounds.sounds_taken_iff",
    "Grf.Sounds.nothing_lost_iff",
    "Grf.Sounds.resource_action_lost"
   ],
   "note": "exact: everything is kept in order except SingleResourceActions, which are dropped silently"
  },
  {
   "property": "C05",
   "status": "proved",
   "theorems": [
    "Grf.SpriteRef.sprite_ref_roundtrip",
    "Grf.SpriteRef.sprite_ref_accepts",
    "Grf.SpriteRef.sprite_ref_layout",
    "Grf.SpriteRef.sprite_ref_injective",
    "Grf.SpriteRef.sprite_ref_total",
    "Grf.SpriteRef.negative_refused"
   ],
   "note": ""
  },
  {
   "property": "C07",
   "status": "proved",
   "theorems": [
    "Grf.PropC.property_value_iff",
    "Grf.PropC.property_value_accepts",
    "Grf.PropC.label_list_accepts",
    "Grf.PropC.size_pair_accepts",
    "Grf.PropC.property_value_read",
    "Grf.PropC.read_value_stable",
    "Grf.PropC.eight_bytes_unreadable",
    "Grf.PropC.size_out_of_range_accepted"
   ],
   "note": "exact: both directions, and exact acceptance of each format"
  },
  {
   "property": "C08",
   "status": "proved",
   "theorems": [
    "Grf.PropC.define_iff",
    "Grf.PropC.code_name_agree",
    "Grf.PropC.missing_value_refused",
    "Grf.PropC.industry_multiplier_not_recompilable"
   ],
   "note": "exact: both directions"
  },
  {
   "property": "C09",
   "status": "proved",
   "theorems": [
    "Grf.PropC.bridge_iff",
    "Grf.PropC.dictionary_iff",
    "Grf.PropC.station_iff",
    "Grf.PropC.property_value_iff",
    "Grf.PropC.dictionary_key_zero",
    "Grf.PropC.children_not_written"
   ],
   "note": "exact: both directions"
  },
  {
   "property": "C10",
   "status": "proved",
   "theorems": [
    "Grf.PropC.industry_layouts_iff",
    "Grf.PropC.tile_not_terminator",
    "Grf.PropC.accepted_tile_encodes",
    "Grf.PropC.layouts_declared_size",
    "Grf.PropC.special_check_unreadable"
   ],
   "note": "exact: both directions"
  },
  {
   "property": "C11",
   "status": "proved",
   "theorems": [
    "Grf.PropC.station_iff",
    "Grf.PropC.station_layouts_read",
    "Grf.PropC.property_value_read",
    "Grf.PropC.normRegs_canonical",
    "Grf.PropC.register_order_matters",
    "Grf.PropC.ground_delta_misread",
    "Grf.PropC.parent_at_128_misread",
    "Grf.PropC.children_not_written"
   ],
   "note": "exact: both directions"
  },
  {
   "property": "C12",
   "status": "proved",
   "theorems": [
    "Grf.Acts.sprite_sets_iff",
    "Grf.Acts.sprite_sets_read",
    "Grf.Acts.no_sets_unreadable"
   ],
   "note": "exact: both directions; the reading of the other headers is in sprite_sets_read and no_sets_unreadable"
  },
  {
   "property": "C13",
   "status": "proved",
   "theorems": [
    "Grf.Acts.sprite_group_iff",
    "Grf.Acts.large_group_misread"
   ],
   "note": "exact: both directions"
  },
  {
   "property": "C14",
   "status": "proved",
   "theorems": [
    "Grf.Acts.graphics_map_iff",
    "Grf.Acts.many_ids_misread",
    "Grf.Acts.no_ids_reference_refused",
    "Grf.Acts.wagon_override_lost"
   ],
   "note": "exact: both directions"
  },
  {
   "property": "C15",
   "status": "proved",
   "theorems": [
    "Grf.Acts.strings_iff",
    "Grf.Acts.no_strings_unreadable",
    "Grf.Acts.decoded_language_small"
   ],
   "note": "exact: both directions"
  },
  {
   "property": "C16",
   "status": "proved",
   "theorems": [
    "Grf.Acts.replace_new_iff",
    "Grf.Acts.modify_iff",
    "Grf.Acts.skip_iff",
    "Grf.Acts.compute_iff",
    "Grf.Acts.import_sound_iff",
    "Grf.Acts.glyphs_never",
    "Grf.Acts.glyphs_lost",
    "Grf.Acts.comment_never",
    "Grf.Acts.returns_iff_exact",
    "Grf.Acts.decoded_set_type_small",
    "Grf.Acts.modify_parameter_255_lost",
    "Grf.Acts.bit_test_misread",
    "Grf.Acts.replace_old_roundtrip",
    "Grf.Acts.compute_value_dropped",
    "Grf.Acts.compute_unknown_operation_unreadable",
    "Grf.Acts.label_roundtrip",
    "Grf.Acts.sounds_roundtrip",
    "Grf.Acts.exact_roundtrip",
    "Grf.Acts.exact_injective"
   ],
   "note": "exact: both directions for every kind"
  },
  {
   "property": "C17",
   "status": "proved",
   "theorems": [
    "Grf.Acts.description_iff",
    "Grf.Acts.error_never",
    "Grf.Acts.builtin_error_fields",
    "Grf.Acts.text_error_fields",
    "Grf.Acts.decoded_grfid_short",
    "Grf.Acts.error_message_never_returns"
   ],
   "note": "exact for the header; error messages never come back; what comes back of them is proved for NUL-free texts"
  },
  {
   "property": "C19",
   "status": "proved",
   "theorems": [
    "Grf.Acts.random_switch_iff",
    "Grf.Acts.relative_other_refused",
    "Grf.Acts.relative_vehicle_never_returns"
   ],
   "note": "exact: both directions"
  },
  {
   "property": "C18",
   "status": "proved",
   "theorems": [
    "Grf.Acts.info_iff",
    "Grf.Acts.short_key_misread",
    "Grf.Acts.same_key_bytes_lost",
    "Grf.Acts.nul_in_text_misread"
   ],
   "note": "exact for trees without dictionaries inside lists"
  },
  {
   "property": "C20",
   "status": "proved",
   "theorems": [
    "Grf.Acts.first_byte_is_number_iff",
    "Grf.Acts.different_numbers_different_bytes",
    "Grf.Acts.decoded_kind_is_first_byte",
    "Grf.Acts.comment_is_action_0",
    "Grf.Acts.comment_decoded_as_definition",
    "Grf.Acts.production_is_action_10",
    "Grf.Acts.production_never_read",
    "Grf.Acts.group_and_random_switch_collide"
   ],
   "note": "exact for the first byte"
  },
  {
   "property": "C40",
   "status": "proved",
   "theorems": [
    "Grf.Misc.combine_ranges_exact",
    "Grf.Misc.combine_ranges_ids",
    "Grf.Misc.disable_default_iff",
    "Grf.Misc.disable_table_exact",
    "Grf.Misc.disable_iterator_does_nothing",
    "Grf.Misc.base_costs_exact"
   ],
   "note": "the grouping itself is fully proved; DisableDefault given a one-shot iterator disables nothing (proved)"
  },
  {
   "property": "C41",
   "status": "proved",
   "theorems": [
    "Grf.Purchase.purchase_order_applied",
    "Grf.Purchase.purchase_order_contiguous",
    "Grf.Purchase.variants_attached",
    "Grf.Purchase.group_names_answered",
    "Grf.Purchase.purchase_order_encodable",
    "Grf.Purchase.callbacks_required",
    "Grf.Purchase.groups_accepted_iff",
    "Grf.Purchase.only_these_vehicles"
   ],
   "note": "vehicles distinct, as the property says"
  },
  {
   "property": "C42",
   "status": "proved",
   "theorems": [
    "Grf.callback_code",
    "Grf.callbacks_without_variables",
    "Grf.extra_info_codes",
    "Grf.Callbacks.map_dispatch_exact",
    "Grf.Callbacks.purchase_dispatch_exact",
    "Grf.Callbacks.property_right_iff",
    "Grf.Callbacks.property_purchase_right",
    "Grf.Callbacks.used_given",
    "Grf.Callbacks.refused_iff",
    "Grf.Callbacks.nothing_generated_iff",
    "Grf.Callbacks.make_accepted_iff",
    "Grf.Callbacks.flags_exact",
    "Grf.Callbacks.asked_by_name",
    "Grf.Callbacks.property_asked_by_name",
    "Grf.Callbacks.callback_numbers",
    "Grf.Callbacks.property_numbers",
    "Grf.Callbacks.flag_iff_registered",
    "Grf.Callbacks.aircraft_property_numbers",
    "Grf.Callbacks.aircraft_properties_mixed_up",
    "Grf.Callbacks.roadstop_anim_speed_flags",
    "Grf.Callbacks.unknown_callback_refused",
    "Grf.Callbacks.flag_properties",
    "Grf.Callbacks.extra_flag_properties",
    "Grf.Callbacks.house_flags_refused",
    "Grf.Callbacks.station_rating_flags",
    "Grf.Callbacks.purchase_handler_on_map",
    "Grf.Callbacks.railtype_gui_lost",
    "Grf.Callbacks.railtype_gui_is_graphics",
    "Grf.Callbacks.unknown_property_ignored"
   ],
   "note": "complete answer for all features and registrations; the two deviations are part of the answer and have concrete witnesses"
  },
  {
   "property": "C43",
   "status": "proved",
   "theorems": [
    "Grf.Train.add_part_by_shortening",
    "Grf.Train.new_train_accepted_iff",
    "Grf.Train.new_train_exact",
    "Grf.Train.add_part_accepted_iff",
    "Grf.Train.add_part_exact",
    "Grf.Train.new_train_length",
    "Grf.Train.new_train_refused",
    "Grf.Train.add_part_wrong_parity",
    "Grf.Train.add_part_nine_not_allowed",
    "Grf.Train.add_long_part_without_length",
    "Grf.Train.consist_is_parts",
    "Grf.Train.consist_length",
    "Grf.Train.weight_split"
   ],
   "note": "exact, for the train and for added parts"
  },
  {
   "property": "C53",
   "status": "proved",
   "theorems": [
    "Grf.Train.visual_effect_exact",
    "Grf.Train.visual_effect_never"
   ],
   "note": "exact: the choice of wagon power destroys effect and position, and wagons are always powered"
  },
  {
   "property": "C46",
   "status": "proved",
   "theorems": [
    "Grf.SpriteData.plain_iff",
    "Grf.SpriteData.wellformed_exact",
    "Grf.SpriteData.malformed_accepted_iff",
    "Grf.SpriteData.decompress_iff",
    "Grf.SpriteData.chunked_sprite_iff",
    "Grf.SpriteData.chunked_iff",
    "Grf.SpriteData.chunked_wellformed_iff",
    "Grf.SpriteData.plain_sound",
    "Grf.SpriteData.reshape_exact",
    "Grf.SpriteData.overlap_refused",
    "Grf.SpriteData.zero_offset_accepted",
    "Grf.SpriteData.chunked_overlap_lost",
    "Grf.SpriteData.chunked_exact",
    "Grf.SpriteData.chunked_shape",
    "Grf.SpriteData.chunk_past_line",
    "Grf.SpriteData.chunk_past_data"
   ],
   "note": "exact for every byte stream and every declared size"
  },
  {
   "property": "C44",
   "status": "proved",
   "theorems": [
    "Grf.RealSprite.crop_keeps_visible",
    "Grf.RealSprite.crop_same_pixels",
    "Grf.RealSprite.crop_inside",
    "Grf.RealSprite.crop_minimal",
    "Grf.RealSprite.crop_blank",
    "Grf.RealSprite.masked_pixels_cropped"
   ],
   "note": "visible = non-transparent in the layer the code looks at (alpha, else RGB, else mask); a black RGB pixel with a mask colour and no alpha layer counts as invisible and is cropped (proved as masked_pixels_cropped)"
  },
  {
   "property": "C54",
   "status": "proved",
   "theorems": [
    "Grf.RealSprite.sprite_reads_back",
    "Grf.RealSprite.sprite_accepted_iff",
    "Grf.RealSprite.store_undone"
   ],
   "note": "the LZ77 compressor belongs to nml and is a parameter; store_undone shows that the condition on it can be met"
  },
  {
   "property": "C45",
   "status": "proved",
   "theorems": [
    "Grf.Remap.remap_exact",
    "Grf.Remap.remap_accepted_iff",
    "Grf.Remap.remap_encoding",
    "Grf.Remap.remap_encoding_injective",
    "Grf.Remap.remap_picture",
    "Grf.Remap.from_array_exact",
    "Grf.Remap.from_function_exact",
    "Grf.Remap.toByte_small",
    "Grf.Remap.negative_range_empty",
    "Grf.Remap.short_buffer_written"
   ],
   "note": "colour numbers are not negative; negative ones follow Python slices (proved for one case); a table made from a buffer is written with the length of the buffer"
  },
  {
   "property": "C47",
   "status": "proved",
   "theorems": [
    "Grf.Sheet.every_sprite_has_cell",
    "Grf.Sheet.cells_inside",
    "Grf.Sheet.cells_disjoint",
    "Grf.Sheet.sheet_has_sprites"
   ],
   "note": "cells with their outlines"
  },
  {
   "property": "C48",
   "status": "proved",
   "theorems": [
    "Grf.ResNames.name_exact",
    "Grf.ResNames.name_is_new",
    "Grf.ResNames.names_unique",
    "Grf.ResNames.refused_iff_all_used",
    "Grf.ResNames.refused_only_after_tries",
    "Grf.ResNames.name_is_safe",
    "Grf.ResNames.sounds_saved"
   ],
   "note": "Unicode normalisation is a parameter"
  },
  {
   "property": "C49",
   "status": "proved",
   "theorems": [
    "Grf.Packets.packet_framed",
    "Grf.Packets.packet_refused_iff",
    "Grf.Packets.first_packet",
    "Grf.Packets.stream_splits",
    "Grf.Packets.fields_read_back",
    "Grf.Packets.extra_arguments_dropped",
    "Grf.Packets.zero_in_text_misread",
    "Grf.Packets.said_everything",
    "Grf.Packets.session_received",
    "Grf.Packets.unfinished_text_lost"
   ],
   "note": "fields read back if their number is that of the formats and no text has a zero byte (counterexamples proved)"
  },
  {
   "property": "C50",
   "status": "proved",
   "theorems": [
    "Grf.TextEsc.compile_iff",
    "Grf.TextEsc.means_unique",
    "Grf.TextEsc.byte_field_iff",
    "Grf.TextEsc.last_byte_field_iff",
    "Grf.TextEsc.text_exact",
    "Grf.TextEsc.plain_text",
    "Grf.TextEsc.malformed_refused",
    "Grf.TextEsc.python_reads_hex",
    "Grf.TextEsc.malformed_accepted",
    "Grf.textEsc_hexVal_iff"
   ],
   "note": "exact for every text; the test for ASCII belongs to nml and is a parameter"
  },
  {
   "property": "C55",
   "status": "proved",
   "theorems": [
    "Grf.Acts.layout_roundtrip_exact",
    "Grf.Acts.layout_read",
    "Grf.Acts.layout_recompile_exact",
    "Grf.Acts.seen_canonical",
    "Grf.Acts.basic_layout_read",
    "Grf.Acts.basic_layout_not_recompilable",
    "Grf.Acts.negative_offset_not_recompilable",
    "Grf.Acts.palette_offset_not_written",
    "Grf.Acts.delta_not_written",
    "Grf.Acts.palette_key_misread",
    "Grf.Acts.parent_at_height_128_misread"
   ],
   "note": "exact: which layouts come back unchanged (iff), what is read back, and when it can be written again"
  },
  {
   "property": "C56",
   "status": "proved",
   "theorems": [
    "Grf.Syntax.nameStart_iff",
    "Grf.Syntax.digit_iff",
    "Grf.Syntax.nameChar_iff",
    "Grf.Syntax.hexDig_iff",
    "Grf.Syntax.text_read_back_iff",
    "Grf.Syntax.decompiled_text_read_back_iff",
    "Grf.Syntax.decoded_made",
    "Grf.Syntax.accepted_text_same_size",
    "Grf.Syntax.format_parse",
    "Grf.Syntax.format_parse_lines",
    "Grf.Syntax.format_injective",
    "Grf.Syntax.text_loses_or_and",
    "Grf.Syntax.text_loses_shift_and",
    "Grf.Syntax.text_loses_mul_div",
    "Grf.Syntax.text_loses_comparison",
    "Grf.Syntax.text_unsigned_division",
    "Grf.Syntax.text_hasbit",
    "Grf.Syntax.text_not_hasbit",
    "Grf.Syntax.text_named_parameter",
    "Grf.Syntax.text_type_three"
   ],
   "note": "exact: read back iff every line is Faithful, for everything the decoder makes; otherwise refused or regrouped with the same number of nodes; each condition has a counterexample"
  },
  {
   "property": "C57",
   "status": "proved",
   "theorems": [
    "Grf.Syntax.recompiled_text_is_same_program",
    "Grf.Syntax.line_accepted",
    "Grf.Syntax.lines_accepted",
    "Grf.Syntax.source_meaning",
    "Grf.Syntax.decoded_linear",
    "Grf.Syntax.retext_changes_meaning",
    "Grf.Syntax.recompiled_needs_parameter_variable",
    "Grf.Syntax.recompiled_refuses_modifiers"
   ],
   "note": "acceptance and meaning exactly, under the conditions named in the statement; each condition shown necessary by a proved counterexample (also decoder_duplicates_accumulator, decoder_drops_computed_parameter of C24)"
  },
  {
   "property": "C58",
   "status": "proved",
   "theorems": [
    "Grf.targets_first",
    "Grf.added_first_needed",
    "Grf.targets_first_iff",
    "Grf.raw_target_first",
    "Grf.forward_reference_emitted_late",
    "Grf.shared_action_emitted_late"
   ],
   "note": "the order in every acyclic graph; the first condition is proved necessary, the second by a counterexample"
  },
  {
   "property": "C59",
   "status": "proved",
   "theorems": [
    "Grf.Industry.strips_show_whole",
    "Grf.Industry.strips_pairwise",
    "Grf.Industry.strips_on_tiles",
    "Grf.Industry.shows_sprite_iff",
    "Grf.Industry.building_numbers"
   ],
   "note": "all sizes and images; the pixels shown are exactly those of the building drawn in one piece"
  },
  {
   "property": "C60",
   "status": "proved",
   "theorems": [
    "Grf.industry_codes",
    "Grf.Industry.generate_refused_iff",
    "Grf.Industry.generate_refused_square",
    "Grf.Industry.layout_tiles",
    "Grf.Industry.tile_sprite",
    "Grf.Industry.industry_shows_buildings",
    "Grf.Industry.long_building_cut",
    "Grf.Industry.wide_building_grows",
    "Grf.Industry.counted_from_one"
   ],
   "note": "refusal exactly; tiles and sprites exactly; the picture under the conditions named in the statement, the boundaries by proved counterexamples"
  },
  {
   "property": "C61",
   "status": "proved",
   "theorems": [
    "Grf.Acts.sets_format",
    "Grf.Acts.generic_format",
    "Grf.Acts.random_format",
    "Grf.Acts.production_format",
    "Grf.Acts.basic_format",
    "Grf.Acts.layout_format",
    "Grf.Acts.map_format",
    "Grf.Acts.texts_format",
    "Grf.Acts.newSprites_format",
    "Grf.Acts.modify_format",
    "Grf.Acts.if_format",
    "Grf.Acts.description_format",
    "Grf.Acts.old_format",
    "Grf.Acts.error_format",
    "Grf.Acts.compute_format",
    "Grf.Acts.label_format",
    "Grf.Acts.sounds_format",
    "Grf.Acts.import_format",
    "Grf.Acts.lspr_format"
   ],
   "note": "exact for each action: accepted and written iff the fields fit, and then these bytes"
  },
  {
   "property": "C62",
   "status": "proved",
   "theorems": [
    "Grf.resolve_accepted_iff",
    "Grf.taken_id",
    "Grf.self_reference_refused",
    "Grf.too_deep_refused",
    "Grf.circle_accepted"
   ],
   "note": "acceptance exactly; the limit of 255 is needed (out_of_ids_refused of C28), as are the depth (too_deep_refused) and the absence of circles (circle_accepted)"
  },
  {
   "property": "C63",
   "status": "proved",
   "theorems": [
    "Grf.Script.script_runs",
    "Grf.Script.script_written"
   ],
   "note": "All files, by induction over the lines of the script with an invariant relating the generator's tables to the names assigned by the running script. Two ranges of a switch with the same bounds, which become one entry of a dictionary when printed, are not part of this model."
  },
  {
   "property": "C64",
   "status": "proved",
   "theorems": [
    "Grf.Acts.reads_sets",
    "Grf.Acts.reads_newSprites",
    "Grf.Acts.reads_old",
    "Grf.Acts.reads_glyphs",
    "Grf.Acts.reads_modify",
    "Grf.Acts.reads_sounds",
    "Grf.Acts.reads_comment",
    "Grf.Acts.reads_label",
    "Grf.Acts.reads_compute",
    "Grf.Acts.reads_cond",
    "Grf.Acts.reads_description",
    "Grf.Acts.reads_error",
    "Grf.Acts.reads_texts",
    "Grf.Acts.reads_import",
    "Grf.Acts.reads_map",
    "Grf.Acts.reads_generic",
    "Grf.Acts.reads_random",
    "Grf.Acts.reads_production",
    "Grf.Acts.reads_basic",
    "Grf.Acts.reads_layout"
   ],
   "note": "exact: both directions for every byte sequence; the forms are listed in Spec/ReadFormat.lean"
  },
  {
   "property": "C65",
   "status": "proved",
   "theorems": [
    "Grf.Acts.reads_define",
    "Grf.Acts.reads_value",
    "Grf.Acts.short_label",
    "Grf.Acts.old_layouts_not_written"
   ],
   "note": "equivalences for every format; the grouping of sprites into parents and children is determined by the drawing order (grouped_iff). The language table without a final zero byte is the documented limit of the model."
  },
  {
   "property": "C66",
   "status": "proved",
   "theorems": [
    "Grf.Py.printed_call_makes_it_again",
    "Grf.Py.made_again_same_bytes",
    "Grf.Py.switch_made_again",
    "Grf.Py.switch_again_chooses_same",
    "Grf.Py.written_decompiled_run_written",
    "Grf.Py.repeated_range_changes_choice",
    "Grf.Py.value_runs",
    "Grf.Py.code_runs"
   ],
   "note": "Python's own part (repr of built-in values is read back as an equal value; white space between tokens does not matter) is trusted; the two dozen constructors, signatures and py() methods are modelled. Hypotheses of the references' values are what C63 gives for a whole script."
  },
  {
   "property": "C67",
   "status": "proved",
   "theorems": [
    "Grf.table_entries",
    "Grf.has_variables_iff",
    "Grf.field_is_named",
    "Grf.name_is_field",
    "Grf.name_computes_field",
    "Grf.need_param_iff",
    "Grf.decompiled_again",
    "Grf.decompiled_again_own",
    "Grf.related_names",
    "Grf.related_random_bits_differ",
    "Grf.related_town_refused",
    "Grf.own_names_win"
   ],
   "note": "the tables of grf/va2vars.py are in the model as data; facts about them are decided over all entries of all tables, the rest is proved for all programs and states"
  },
  {
   "property": "C68",
   "status": "proved",
   "theorems": [
    "Grf.added_action_draws",
    "Grf.unadded_action_draws",
    "Grf.own_action_draws",
    "Grf.VehicleSprites.ship_livery_drawn",
    "Grf.VehicleSprites.train_livery_drawn",
    "Grf.VehicleSprites.part_livery_drawn",
    "Grf.VehicleSprites.purchase_drawn",
    "Grf.VehicleSprites.livery_chosen",
    "Grf.VehicleSprites.table_row",
    "Grf.VehicleSprites.table_row_drawn",
    "Grf.VehicleSprites.shared_layout_draws_first",
    "Grf.VehicleSprites.part_code_read",
    "Grf.VehicleSprites.part_code_meaning",
    "Grf.livery_code",
    "Grf.Chain.livery_means",
    "Grf.Chain.livery_in_game"
   ],
   "note": "for the whole resolved file, from the exact output of resolution (C28, C58); the boundary (shared layouts) by a proved counterexample"
  },
  {
   "property": "C69",
   "status": "proved",
   "theorems": [
    "Grf.Numbers.road_speed",
    "Grf.Numbers.road_speed_exact",
    "Grf.Numbers.road_plain_exact",
    "Grf.Numbers.road_kmhish",
    "Grf.Numbers.road_mph",
    "Grf.Numbers.road_length",
    "Grf.Numbers.ship_kmh",
    "Grf.Numbers.ship_mph",
    "Grf.Numbers.ship_writable",
    "Grf.Numbers.ship_kmhish_disagrees",
    "Grf.Numbers.train_mph",
    "Grf.Numbers.train_weight",
    "Grf.Numbers.part_weight",
    "Grf.Numbers.visual_effect",
    "Grf.Numbers.visual_effect_lost",
    "Grf.Numbers.object_size"
   ],
   "note": "exact for all integers; what the game makes of the properties is in Spec/VehicleNumbers.lean. Fractions as arguments are not modelled."
  },
  {
   "property": "C70",
   "status": "proved",
   "theorems": [
    "Grf.Info14.info_told",
    "Grf.Info14.info_learnt",
    "Grf.Info14.info_written_iff",
    "Grf.Info14.description_told",
    "Grf.Info14.props_nodes",
    "Grf.Info14.zero_in_name"
   ],
   "note": "exact acceptance and complete meaning; the documented format and the game's reading of it are in Spec/InfoSpec.lean; the condition on zero bytes is shown necessary by zero_in_name"
  },
  {
   "property": "C71",
   "status": "proved",
   "theorems": [
    "Grf.Tree.cache_is_invisible",
    "Grf.Tree.fingerprint_identifies",
    "Grf.Tree.dumps_injective",
    "Grf.Tree.data_congr",
    "Grf.Tree.drawn_again",
    "Grf.Tree.debug_zoom_fails",
    "Grf.Tree.changed_by_hand",
    "Grf.Tree.kept_object",
    "Grf.Tree.time_kept"
   ],
   "note": "Pillow's and numpy's operations and the digest are parameters; the conditions in the statement are shown necessary by changed_by_hand, kept_object and time_kept"
  },
  {
   "property": "C72",
   "status": "proved",
   "theorems": [
    "Grf.Tree.mask_accepted_iff",
    "Grf.Tree.mask_pixels",
    "Grf.Tree.colour_key",
    "Grf.Tree.part_of_picture",
    "Grf.Tree.part_without_height",
    "Grf.Tree.moved_picture",
    "Grf.Tree.moved_twice",
    "Grf.Tree.quantized_exact",
    "Grf.Tree.empty_exact"
   ],
   "note": "on the layers of pictures; how Pillow loads and converts a picture is a parameter"
  },
  {
   "property": "C73",
   "status": "proved",
   "theorems": [
    "Grf.Vox.reads_file",
    "Grf.Vox.reads_model",
    "Grf.Vox.nearest_voxel",
    "Grf.Vox.placed",
    "Grf.Vox.torn"
   ],
   "note": "exact; what srgb_to_oklab and oklab_find_best_colour make of colours and the depth of a voxel are parameters; files in the documented format only. placed/torn state the fault of models deeper than wide."
  },
  {
   "property": "C74",
   "status": "proved",
   "theorems": [
    "Grf.Vox.house_zooms",
    "Grf.Vox.zoom4_rows",
    "Grf.Vox.no_gaps",
    "Grf.Vox.lower_edges"
   ],
   "note": "exact for all voxels; the recolouring is a parameter. lower_edges states the fault of left walls."
  },
  {
   "property": "C75",
   "status": "proved",
   "theorems": [
    "Grf.Watch.nothing_missed",
    "Grf.Watch.build_follows",
    "Grf.Watch.build_has_reason",
    "Grf.Watch.nothing_old",
    "Grf.Watch.first_build_window",
    "Grf.Watch.new_file_window",
    "Grf.Watch.failed_build_window"
   ],
   "note": "all schedules of a transition system of the loop and the observer; the condition of being watched at the start of the build is shown necessary by first_build_window and new_file_window. That watchdog reports modifications in watched directories is assumed; paths are resolved."
  },
  {
   "property": "C76",
   "status": "proved",
   "theorems": [
    "Grf.Palette.colours_kept",
    "Grf.Palette.remap_cache_invisible",
    "Grf.Palette.hash_collision",
    "Grf.Palette.invisible",
    "Grf.Palette.best_exact",
    "Grf.Palette.win_to_dos",
    "Grf.Palette.quantize_exact"
   ],
   "note": "exact; the distance of colours, Python's hash and Pillow's quantize are parameters; the condition on hashes is shown necessary by hash_collision"
  },
  {
   "property": "C77",
   "status": "proved",
   "theorems": [
    "Grf.Palette.adjust_exact",
    "Grf.Palette.bright_range",
    "Grf.Palette.preview_exact"
   ],
   "note": "exact for all bytes; numpy 1.25 as required by setup.py (numbers as int64)"
  },
  {
   "property": "C78",
   "status": "proved",
   "theorems": [
    "Grf.Extract.kinds",
    "Grf.Extract.sound_kind",
    "Grf.Extract.groups_differ",
    "Grf.Extract.groupName_inj",
    "Grf.Extract.sound_written_iff",
    "Grf.Extract.sound_gains_byte",
    "Grf.Extract.beyond_announced"
   ],
   "note": "the conditions on parts are written in the statement and shown necessary by beyond_announced; container version 2, not a base set; sound_gains_byte states the wrong size the decompiler uses"
  },
  {
   "property": "C79",
   "status": "proved",
   "theorems": [
    "Grf.Extract.script_sprites",
    "Grf.Extract.decompiled_sprites",
    "Grf.Extract.groups_ok",
    "Grf.Extract.unchanged_iff",
    "Grf.Extract.uniform_group",
    "Grf.Extract.alternatives_apart",
    "Grf.Extract.mixed_out",
    "Grf.Extract.no_layers"
   ],
   "note": "exact; the picture files are matrices (how Pillow saves and loads them is not modelled); the assertion on the sizes of duplicates is left out"
  },
  {
   "property": "C80",
   "status": "proved",
   "theorems": [
    "Grf.Globals.written_iff",
    "Grf.Globals.setting_read",
    "Grf.Globals.settings_work",
    "Grf.Globals.negative_offset"
   ],
   "note": "exact; the specification of the game reads only the actions written here"
  },
  {
   "property": "C81",
   "status": "proved",
   "theorems": [
    "Grf.Restore.separate_exact",
    "Grf.Restore.part_exact",
    "Grf.Restore.arrangement_lost",
    "Grf.Restore.mirrored_wrong",
    "Grf.Restore.reshaped_fails",
    "Grf.Restore.buffer_fails"
   ],
   "note": "views of numpy are address, strides and shape; both layers hold bytes; the boundary is written in the statement and shown necessary by mirrored_wrong and buffer_fails"
  },
  {
   "property": "C82",
   "status": "proved",
   "theorems": [
    "Grf.Gif.saved_iff",
    "Grf.Gif.shown",
    "Grf.Gif.fizzy_wrong"
   ],
   "note": "exact; how Pillow stores frames is not modelled, Spec/Animation.lean says what a viewer does with them and what the game shows; the exception for fizzy drinks is written in the statement and shown to differ from the game by fizzy_wrong"
  },
  {
   "property": "C83",
   "status": "proved",
   "theorems": [
    "Grf.SpriteSheet.sheet_exact",
    "Grf.SpriteSheet.layout",
    "Grf.SpriteSheet.cut_out"
   ],
   "note": "padding and columns are natural numbers; drawing puts a sprite's picture into its rectangle (subclasses define draw); saving the picture is not modelled"
  },
  {
   "property": "C84",
   "status": "proved",
   "theorems": [
    "Grf.Alternatives.accepted_iff",
    "Grf.Alternatives.get_first",
    "Grf.Alternatives.get_none",
    "Grf.Alternatives.each_found",
    "Grf.Alternatives.open_depth_hidden"
   ],
   "note": "exact"
  },
  {
   "property": "C85",
   "status": "proved",
   "theorems": [
    "Grf.VehicleCallbacks.set_later",
    "Grf.VehicleCallbacks.setup_is_make",
    "Grf.VehicleCallbacks.setup_total",
    "Grf.VehicleCallbacks.map_answer",
    "Grf.VehicleCallbacks.purchase_answer",
    "Grf.VehicleCallbacks.vehicle_refused_iff",
    "Grf.VehicleCallbacks.asked_exactly",
    "Grf.VehicleCallbacks.fast_road_vehicle_properties",
    "Grf.VehicleCallbacks.own_sound_lost",
    "Grf.Chain.class_answers_in_game"
   ],
   "note": "sound_effects with single numbers as keys; text ids, part ids and the speed value are the results of C36, C34 and C69; articulated parts beyond the 255th are never asked for"
  },
  {
   "property": "C86",
   "status": "proved",
   "theorems": [
    "Grf.write_again",
    "Grf.write_twice",
    "Grf.write_repeatedly",
    "Grf.remembered_ids_clash",
    "Grf.raw_refs_change_the_second_write",
    "Grf.Sounds.generate_again",
    "Grf.Sounds.generate_twice",
    "Grf.Sounds.new_sound_stored_again",
    "Grf.Strings.texts_again"
   ],
   "note": "the conditions are shown necessary by remembered_ids_clash, raw_refs_change_the_second_write and Sounds.new_sound_stored_again"
  },
  {
   "property": "C87",
   "status": "proved",
   "theorems": [
    "Grf.Report.report_true",
    "Grf.Report.stats_exact",
    "Grf.Report.stats_written",
    "Grf.Report.stats_total",
    "Grf.Report.stats_more_than_file"
   ],
   "note": "times and the texts around the numbers are not modelled"
  },
  {
   "property": "C88",
   "status": "proved",
   "theorems": [
    "Grf.Chain.game_decides_as_meant",
    "Grf.Chain.meaning_deeper",
    "Grf.Chain.meaning_unique",
    "Grf.Chain.target_added_late",
    "Grf.Chain.three_groups_not_drawn"
   ],
   "note": "conditions written in the theorem: no cycles, the user adds maps, items that are no Action 2, and layouts each for the map he adds next (AddedOk; adding a target after its map breaks it: target_added_late; sharing with an earlier map breaks it: C90), code as in C21, no range backwards across zero (C25), subroutines called by name while no register is live (C21, C22); a random switch has a power of two of groups (of three the game draws two: three_groups_not_drawn); raw Ref targets and random switches with scope 'relative' (C19) are not among the objects of this theorem; the game's loading of groups is a specification written from the NewGRF documentation"
  },
  {
   "property": "C89",
   "status": "proved",
   "theorems": [
    "Grf.Chain.registered_answers_in_game",
    "Grf.Chain.tree_means",
    "Grf.Chain.field_switch",
    "Grf.Chain.made_ok",
    "Grf.Chain.made_full",
    "Grf.Chain.train_item"
   ],
   "note": "conditions as in C88; the switches the manager makes meet them (made_ok) and are never without ranges (made_full); which handler counts as registered is mapAnswer and purchaseAnswer of C42, with the library's deviations named there; for the features without named variables no such switch can be written (callbacks_without_variables, C42)"
  },
  {
   "property": "C90",
   "status": "proved",
   "theorems": [
    "Grf.references_select",
    "Grf.VehicleSprites.purchase_shown",
    "Grf.VehicleSprites.ship_purchase_added",
    "Grf.VehicleSprites.train_purchase_added",
    "Grf.VehicleSprites.shared_handler_hides_purchase",
    "Grf.VehicleSprites.shared_graphics_hide_purchase"
   ],
   "note": "under the boundary written in the statement (AddedFine, AddedFor), with two proved counterexamples for it and id_clash_while_live (C28) for actions added earlier than for the next; the user sets no ids (explicit_id_handed_out, C28)"
  },
  {
   "property": "C91",
   "status": "proved",
   "theorems": [
    "Grf.Chain.industry_tile_shows",
    "Grf.Chain.tile_draws_its_sprite",
    "Grf.Chain.industry_tile_means",
    "Grf.Chain.tiles_ok",
    "Grf.Chain.empty_layout_gives_position"
   ],
   "note": "on the level of what switches mean (from there to the bytes and the game is C88, whose other conditions tiles_ok shows; the id 0 the library gives get_sprite_num is not covered by C88, see explicit_id_handed_out, C28); buildings lie apart within 256 by 256 tiles (C60), the set has at most 32768 sprites, every layout has a sprite (otherwise empty_layout_gives_position); layouts are numbered as the code does, from 0 (counted_from_one, C60)"
  }
 ]
}