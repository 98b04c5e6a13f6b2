import json
claims=[]
def c(p,s,th,n=""): claims.append({"property":p,"status":s,"theorems":["Grf."+t for t in th],"note":n})
c("C01","proved",["extended_byte_roundtrip","extended_byte_form","extended_byte_accepts"])
c("C02","proved",["utoi8_spec","utoi32_spec","signedRep_unique"])
c("C03","proved",["to_days_next","to_days_strict_mono","to_days_injective","nthDay_to_days"])
c("C04","proved",["hex_limited_iff", "hex_roundtrip_iff", "hex_roundtrip", "hex_roundtrip_fails_on_empty", "hexStr_injective", "hexStr_text", "hexVal_iff", "hex_capitals"],"exact; the empty string is refused")
c("C06","proved",["action_word_roundtrip","number_word_roundtrip","action_and_number_words_differ","large_number_word_truncated"])
c("C21","proved",["compiled_program_computes_source","compiled_program_meaning","switch_runs_source","switch_runs_code","dynamic_parameter_operand_meaning","compile_accepts","evalS_eval","miscompiles_dynamic_parameter_operand","miscompiles_call_clobbers_spill","miscompiles_parametrised_table_variable","miscompiles_user_register_80","miscompiles_assignment_before_parameter"],"each condition of the statement has a proved counterexample (miscompiles_*)")
c("C22","proved",["reserved_register_is_fresh","reserve_refused_iff_exhausted","live_registers_distinct","variable_register_stable","compile_returns_its_registers","compiled_code_keeps_live_registers","miscompiles_call_clobbers_spill","miscompiles_assignment_before_parameter"])
c("C23","proved",["compiled_comparison","comparison_means","comparison_value","chain_value"])
c("C24","proved",["nested_7b", "simplify_preserves_meaning","simplify_recognises_lowering","decoded_code_keeps_meaning"],"decoder itself loses accumulator in two cases, see decoder_duplicates_accumulator / decoder_drops_computed_parameter")
c("C25","proved",["table_exact", "table_accepted_iff", "caught_eq_choose_iff", "catches_forward", "ranges_select_user_branch", "backwards_range_matches", "no_ranges_ignores_default"],"complete semantics of the emitted table and exact acceptance; caught_eq_choose_iff says when this is the signed reading")
c("C26","proved",["switch_framed","switch_decodes","switch_runs_code","miscompiles_parametrised_table_variable","decoder_loses_parameter_of_constant","decoder_refuses_computed_call","decoder_duplicates_accumulator"],"the conditions are necessary: see the counterexamples")
c("C27","proved",["emitted_exactly","all_emitted_once","covered_by_unreferenced","features_exactly","added_twice_refused","raw_ref_target_dropped","mutual_references_dropped"],"exact: for every acyclic graph, any order, object and raw references; Unreferenced/RawReferred are defined in Spec/RefsSpec.lean from the attributes of the actions only")
c("C28","proved",["live_ids_distinct","targets_have_different_ids","out_of_ids_refused","features_exactly","id_clash_while_live","explicit_id_handed_out"],"in every acyclic graph under the two conditions of the statement, each with a proved counterexample; features_exactly has the part that ids set by the user are kept")
c("C29","proved",["written_file_bytes","fileBytes_inj","written_file_well_formed","written_file_reads_back","empty_action_breaks_file"],"actions must have at least one byte")
c("C30","proved",["shown_iff_hash_distinguishes","written_file_reads_back","no_data_stored_twice","hash_collision_shows_other_sprite"],"exact: iff no two different data lists of the file collide; collisions do show another sprite")
c("C31","proved",["real_ids_distinct","real_ids_bijective","resource_added_twice"],"gap-free numbering when no resource action is added twice")
c("C32","proved",["sortBy_stable", "right_schedule_iff","file_events","files_loaded_when_used","resource_added_twice"],"exact, also for repeated resource actions (only an AlternativeSprites object can be added twice through the API)")
c("C33","proved",["write_leaves","failed_write_keeps_target_iff","no_temporary_file_iff","target_at_any_moment","copy_is_exposed","target_old_or_complete","write_success","cross_device_failure_corrupts_target","interrupt_leaves_temporary_file"],"exact: what is left for every way each step can end, and at every moment")
c("C51","proved",["watched_files_complete_iff","watched_files_always_empty"],"exact: the returned set is always empty, so the intended claim fails for every file with source files")
c("C34","proved",["IdMap.id_answer_exact","IdMap.manual_collision_iff","IdMap.ids_unique_and_stable","IdMap.save_then_load_preserves","IdMap.reserved_ids_avoided","IdMap.loaded_id_taken_again","IdMap.reserve_ids_of_grf_fails"],"exact for every call of every build; ids loaded from the file do not block numbers used by hand")
c("C35","proved",["Sounds.sound_id_is_table_position","Sounds.sound_ids_unique","Sounds.sound_ids_stable","Sounds.sound_refused_iff","Sounds.sound_action_refused"])
c("C36","proved",["Strings.item_found_iff", "Strings.handles_exact","Strings.unnamed_handles_iff","Strings.texts_stay","Strings.handle_stands_for_text","Strings.ids_exact","Strings.same_id_iff","Strings.definitions_exact","Strings.defined_by_first","Strings.kinds_clash_iff","Strings.made_up_name_taken","Strings.import_forgets_texts","Strings.hash_collision_shares_id","Strings.global_runs_into_persistent"],"exact for every history; nml's language tables are a dictionary, its translations and Python's hash are parameters")
c("C37","proved",["Cache.builds_exact","Cache.holds_empty","Cache.lookup_returns_last_written","Cache.lastWrite_undamaged","Cache.lost_file_is_a_miss","Cache.lost_index_is_a_miss","Cache.clean_build_starts_empty","Cache.unused_entries_evicted","Cache.cache_never_changes_output","Cache.digest_collision_serves_other_sprite","Cache.failed_store_is_served","Cache.damaged_file_is_served"],"exact for every sequence of builds, including failing stores and damage from outside")
c("C38","proved",["Tables.railtype_positions_iff","Tables.railtype_id_exact","Tables.written_railtypes","Tables.railtype_known_iff","Tables.cargo_positions_iff","Tables.cargo_ids_exact","Tables.map_cargo_labels_iff","Tables.railtype_added_twice","Tables.cargo_given_twice"],"exact, including repeated labels")
c("C39","proved",["Tables.railtype_fallback","Tables.railtype_actions_encodable"])
c("C52","proved",["Sounds.added_exact","Sounds.generators_exact","Sounds.file_exact","Sounds.yields_exists","Sounds.contains_exists","Sounds.sounds_taken_iff","Sounds.nothing_lost_iff","Sounds.resource_action_lost"],"exact: everything is kept in order except SingleResourceActions, which are dropped silently")
c("C05","proved",["SpriteRef.sprite_ref_roundtrip","SpriteRef.sprite_ref_accepts","SpriteRef.sprite_ref_layout","SpriteRef.sprite_ref_injective","SpriteRef.sprite_ref_total","SpriteRef.negative_refused"],"")
c("C07","proved",["PropC.property_value_iff", "PropC.property_value_accepts", "PropC.label_list_accepts", "PropC.size_pair_accepts", "PropC.property_value_read", "PropC.read_value_stable", "PropC.eight_bytes_unreadable", "PropC.size_out_of_range_accepted"],"exact: both directions, and exact acceptance of each format")
c("C08","proved",["PropC.define_iff", "PropC.code_name_agree", "PropC.missing_value_refused", "PropC.industry_multiplier_not_recompilable"],"exact: both directions")
c("C09","proved",["PropC.bridge_iff", "PropC.dictionary_iff", "PropC.station_iff", "PropC.property_value_iff", "PropC.dictionary_key_zero", "PropC.children_not_written"],"exact: both directions")
c("C10","proved",["PropC.industry_layouts_iff", "PropC.tile_not_terminator", "PropC.accepted_tile_encodes", "PropC.layouts_declared_size", "PropC.special_check_unreadable"],"exact: both directions")
c("C11","proved",["PropC.station_iff", "PropC.station_layouts_read", "PropC.property_value_read", "PropC.normRegs_canonical", "PropC.register_order_matters", "PropC.ground_delta_misread", "PropC.parent_at_128_misread", "PropC.children_not_written"],"exact: both directions")
c("C12","proved",["Acts.sprite_sets_iff", "Acts.sprite_sets_read", "Acts.no_sets_unreadable"],"exact: both directions; the reading of the other headers is in sprite_sets_read and no_sets_unreadable")
c("C13","proved",["Acts.sprite_group_iff", "Acts.large_group_misread"],"exact: both directions")
c("C14","proved",["Acts.graphics_map_iff", "Acts.many_ids_misread", "Acts.no_ids_reference_refused", "Acts.wagon_override_lost"],"exact: both directions")
c("C15","proved",["Acts.strings_iff", "Acts.no_strings_unreadable", "Acts.decoded_language_small"],"exact: both directions")
c("C16","proved",["Acts.replace_new_iff", "Acts.modify_iff", "Acts.skip_iff", "Acts.compute_iff", "Acts.import_sound_iff", "Acts.glyphs_never","Acts.glyphs_lost", "Acts.comment_never", "Acts.returns_iff_exact", "Acts.decoded_set_type_small", "Acts.modify_parameter_255_lost", "Acts.bit_test_misread", "Acts.replace_old_roundtrip", "Acts.compute_value_dropped", "Acts.compute_unknown_operation_unreadable", "Acts.label_roundtrip", "Acts.sounds_roundtrip", "Acts.exact_roundtrip", "Acts.exact_injective"],"exact: both directions for every kind")
c("C17","proved",["Acts.description_iff", "Acts.error_never", "Acts.builtin_error_fields", "Acts.text_error_fields", "Acts.decoded_grfid_short", "Acts.error_message_never_returns"],"exact for the header; error messages never come back; what comes back of them is proved for NUL-free texts")
c("C19","proved",["Acts.random_switch_iff", "Acts.relative_other_refused", "Acts.relative_vehicle_never_returns"],"exact: both directions")
c("C18","proved",["Acts.info_iff", "Acts.short_key_misread", "Acts.same_key_bytes_lost", "Acts.nul_in_text_misread"],"exact for trees without dictionaries inside lists")
c("C20","proved",["Acts.first_byte_is_number_iff", "Acts.different_numbers_different_bytes", "Acts.decoded_kind_is_first_byte", "Acts.comment_is_action_0", "Acts.comment_decoded_as_definition", "Acts.production_is_action_10", "Acts.production_never_read", "Acts.group_and_random_switch_collide"],"exact for the first byte")
c("C40","proved",["Misc.combine_ranges_exact","Misc.combine_ranges_ids","Misc.disable_default_iff","Misc.disable_table_exact","Misc.disable_iterator_does_nothing","Misc.base_costs_exact"],"the grouping itself is fully proved; DisableDefault given a one-shot iterator disables nothing (proved)")
c("C41","proved",["Purchase.purchase_order_applied","Purchase.purchase_order_contiguous","Purchase.variants_attached","Purchase.group_names_answered","Purchase.purchase_order_encodable","Purchase.callbacks_required","Purchase.groups_accepted_iff","Purchase.only_these_vehicles"],"vehicles distinct, as the property says")
c("C42","proved",["callback_code","callbacks_without_variables","extra_info_codes","Callbacks.map_dispatch_exact","Callbacks.purchase_dispatch_exact","Callbacks.property_right_iff","Callbacks.property_purchase_right","Callbacks.used_given","Callbacks.refused_iff","Callbacks.nothing_generated_iff","Callbacks.make_accepted_iff","Callbacks.flags_exact","Callbacks.asked_by_name","Callbacks.property_asked_by_name","Callbacks.callback_numbers","Callbacks.property_numbers","Callbacks.flag_iff_registered","Callbacks.aircraft_property_numbers","Callbacks.aircraft_properties_mixed_up","Callbacks.roadstop_anim_speed_flags","Callbacks.unknown_callback_refused","Callbacks.flag_properties","Callbacks.extra_flag_properties","Callbacks.house_flags_refused","Callbacks.station_rating_flags","Callbacks.purchase_handler_on_map","Callbacks.railtype_gui_lost","Callbacks.railtype_gui_is_graphics","Callbacks.unknown_property_ignored"],"complete answer for all features and registrations; the two deviations are part of the answer and have concrete witnesses")
c("C43","proved",["Train.add_part_by_shortening", "Train.new_train_accepted_iff","Train.new_train_exact","Train.add_part_accepted_iff","Train.add_part_exact","Train.new_train_length","Train.new_train_refused","Train.add_part_wrong_parity","Train.add_part_nine_not_allowed","Train.add_long_part_without_length","Train.consist_is_parts","Train.consist_length","Train.weight_split"],"exact, for the train and for added parts")
c("C53","proved",["Train.visual_effect_exact","Train.visual_effect_never"],"exact: the choice of wagon power destroys effect and position, and wagons are always powered")
c("C46","proved",["SpriteData.plain_iff","SpriteData.wellformed_exact","SpriteData.malformed_accepted_iff","SpriteData.decompress_iff","SpriteData.chunked_sprite_iff","SpriteData.chunked_iff","SpriteData.chunked_wellformed_iff","SpriteData.plain_sound","SpriteData.reshape_exact","SpriteData.overlap_refused","SpriteData.zero_offset_accepted","SpriteData.chunked_overlap_lost","SpriteData.chunked_exact","SpriteData.chunked_shape","SpriteData.chunk_past_line","SpriteData.chunk_past_data"],"exact for every byte stream and every declared size")
c("C44","proved",["RealSprite.crop_keeps_visible","RealSprite.crop_same_pixels","RealSprite.crop_inside","RealSprite.crop_minimal","RealSprite.crop_blank","RealSprite.masked_pixels_cropped"],"visible = non-transparent in the layer the code looks at (alpha, else RGB, else mask); a black RGB pixel with a mask colour and no alpha layer counts as invisible and is cropped (proved as masked_pixels_cropped)")
c("C54","proved",["RealSprite.sprite_reads_back","RealSprite.sprite_accepted_iff","RealSprite.store_undone"],"the LZ77 compressor belongs to nml and is a parameter; store_undone shows that the condition on it can be met")
c("C45","proved",["Remap.remap_exact","Remap.remap_accepted_iff","Remap.remap_encoding","Remap.remap_encoding_injective","Remap.remap_picture","Remap.from_array_exact","Remap.from_function_exact","Remap.toByte_small","Remap.negative_range_empty","Remap.short_buffer_written"],"colour numbers are not negative; negative ones follow Python slices (proved for one case); a table made from a buffer is written with the length of the buffer")
c("C47","proved",["Sheet.every_sprite_has_cell","Sheet.cells_inside","Sheet.cells_disjoint","Sheet.sheet_has_sprites"],"cells with their outlines")
c("C48","proved",["ResNames.name_exact","ResNames.name_is_new","ResNames.names_unique","ResNames.refused_iff_all_used","ResNames.refused_only_after_tries","ResNames.name_is_safe","ResNames.sounds_saved"],"Unicode normalisation is a parameter")
c("C49","proved",["Packets.packet_framed","Packets.packet_refused_iff","Packets.first_packet","Packets.stream_splits","Packets.fields_read_back","Packets.extra_arguments_dropped","Packets.zero_in_text_misread","Packets.said_everything","Packets.session_received","Packets.unfinished_text_lost"],"fields read back if their number is that of the formats and no text has a zero byte (counterexamples proved)")
c("C50","proved",["TextEsc.compile_iff","TextEsc.means_unique","TextEsc.byte_field_iff","TextEsc.last_byte_field_iff","TextEsc.text_exact","TextEsc.plain_text","TextEsc.malformed_refused","TextEsc.python_reads_hex","TextEsc.malformed_accepted","textEsc_hexVal_iff"],"exact for every text; the test for ASCII belongs to nml and is a parameter")
c("C55","proved",["Acts.layout_roundtrip_exact","Acts.layout_read","Acts.layout_recompile_exact","Acts.seen_canonical","Acts.basic_layout_read","Acts.basic_layout_not_recompilable","Acts.negative_offset_not_recompilable","Acts.palette_offset_not_written","Acts.delta_not_written","Acts.palette_key_misread","Acts.parent_at_height_128_misread"],"exact: which layouts come back unchanged (iff), what is read back, and when it can be written again")
c("C56","proved",["Syntax.nameStart_iff","Syntax.digit_iff","Syntax.nameChar_iff","Syntax.hexDig_iff","Syntax.text_read_back_iff","Syntax.decompiled_text_read_back_iff","Syntax.decoded_made","Syntax.accepted_text_same_size","Syntax.format_parse","Syntax.format_parse_lines","Syntax.format_injective","Syntax.text_loses_or_and","Syntax.text_loses_shift_and","Syntax.text_loses_mul_div","Syntax.text_loses_comparison","Syntax.text_unsigned_division","Syntax.text_hasbit","Syntax.text_not_hasbit","Syntax.text_named_parameter","Syntax.text_type_three"],"exact: read back iff every line is Faithful, for everything the decoder makes; otherwise refused or regrouped with the same number of nodes; each condition has a counterexample")
c("C57","proved",["Syntax.recompiled_text_is_same_program","Syntax.line_accepted","Syntax.lines_accepted","Syntax.source_meaning","Syntax.decoded_linear","Syntax.retext_changes_meaning","Syntax.recompiled_needs_parameter_variable","Syntax.recompiled_refuses_modifiers"],"acceptance and meaning exactly, under the conditions named in the statement; each condition shown necessary by a proved counterexample (also decoder_duplicates_accumulator, decoder_drops_computed_parameter of C24)")
c("C58","proved",["targets_first","added_first_needed","targets_first_iff","raw_target_first","forward_reference_emitted_late","shared_action_emitted_late"],"the order in every acyclic graph; the first condition is proved necessary, the second by a counterexample")
c("C59","proved",["Industry.strips_show_whole","Industry.strips_pairwise","Industry.strips_on_tiles","Industry.shows_sprite_iff","Industry.building_numbers"],"all sizes and images; the pixels shown are exactly those of the building drawn in one piece")
c("C60","proved",["industry_codes","Industry.generate_refused_iff","Industry.generate_refused_square","Industry.layout_tiles","Industry.tile_sprite","Industry.industry_shows_buildings","Industry.long_building_cut","Industry.wide_building_grows","Industry.counted_from_one"],"refusal exactly; tiles and sprites exactly; the picture under the conditions named in the statement, the boundaries by proved counterexamples")
c("C61","proved",["Acts.sets_format","Acts.generic_format","Acts.random_format","Acts.production_format","Acts.basic_format","Acts.layout_format","Acts.map_format","Acts.texts_format","Acts.newSprites_format","Acts.modify_format","Acts.if_format","Acts.description_format","Acts.old_format","Acts.error_format","Acts.compute_format","Acts.label_format","Acts.sounds_format","Acts.import_format","Acts.lspr_format"],"exact for each action: accepted and written iff the fields fit, and then these bytes")
c("C62","proved",["resolve_accepted_iff","taken_id","self_reference_refused","too_deep_refused","circle_accepted"],"acceptance exactly; the limit of 255 is needed (out_of_ids_refused of C28), as are the depth (too_deep_refused) and the absence of circles (circle_accepted)")
c("C63","proved",["Script.script_runs","Script.script_written"],"All files, by induction over the lines of the script with an invariant relating the generator's tables to the names assigned by the running script. Two ranges of a switch with the same bounds, which become one entry of a dictionary when printed, are not part of this model.")
c("C64","proved",["Acts.reads_sets","Acts.reads_newSprites","Acts.reads_old","Acts.reads_glyphs","Acts.reads_modify","Acts.reads_sounds","Acts.reads_comment","Acts.reads_label","Acts.reads_compute","Acts.reads_cond","Acts.reads_description","Acts.reads_error","Acts.reads_texts","Acts.reads_import","Acts.reads_map","Acts.reads_generic","Acts.reads_random","Acts.reads_production","Acts.reads_basic","Acts.reads_layout"],"exact: both directions for every byte sequence; the forms are listed in Spec/ReadFormat.lean")
c("C65","proved",["Acts.reads_define","Acts.reads_value","Acts.short_label","Acts.old_layouts_not_written"],"equivalences for every format; the grouping of sprites into parents and children is determined by the drawing order (grouped_iff). The language table without a final zero byte is the documented limit of the model.")
c("C66","proved",["Py.printed_call_makes_it_again","Py.made_again_same_bytes","Py.switch_made_again","Py.switch_again_chooses_same","Py.written_decompiled_run_written","Py.repeated_range_changes_choice","Py.value_runs","Py.code_runs"],"Python's own part (repr of built-in values is read back as an equal value; white space between tokens does not matter) is trusted; the two dozen constructors, signatures and py() methods are modelled. Hypotheses of the references' values are what C63 gives for a whole script.")
c("C67","proved",["table_entries","has_variables_iff","field_is_named","name_is_field","name_computes_field","need_param_iff","decompiled_again","decompiled_again_own","related_names","related_random_bits_differ","related_town_refused","own_names_win"],"the tables of grf/va2vars.py are in the model as data; facts about them are decided over all entries of all tables, the rest is proved for all programs and states")
c("C68","proved",["added_action_draws","unadded_action_draws","own_action_draws","VehicleSprites.ship_livery_drawn","VehicleSprites.train_livery_drawn","VehicleSprites.part_livery_drawn","VehicleSprites.purchase_drawn","VehicleSprites.livery_chosen","VehicleSprites.table_row","VehicleSprites.table_row_drawn","VehicleSprites.shared_layout_draws_first","VehicleSprites.part_code_read","VehicleSprites.part_code_meaning","livery_code","Chain.livery_means","Chain.livery_in_game"],"for the whole resolved file, from the exact output of resolution (C28, C58); the boundary (shared layouts) by a proved counterexample")
c("C69","proved",["Numbers.road_speed","Numbers.road_speed_exact","Numbers.road_plain_exact","Numbers.road_kmhish","Numbers.road_mph","Numbers.road_length","Numbers.ship_kmh","Numbers.ship_mph","Numbers.ship_writable","Numbers.ship_kmhish_disagrees","Numbers.train_mph","Numbers.train_weight","Numbers.part_weight","Numbers.visual_effect","Numbers.visual_effect_lost","Numbers.object_size"],"exact for all integers; what the game makes of the properties is in Spec/VehicleNumbers.lean. Fractions as arguments are not modelled.")
c("C70","proved",["Info14.info_told","Info14.info_learnt","Info14.info_written_iff","Info14.description_told","Info14.props_nodes","Info14.zero_in_name"],"exact acceptance and complete meaning; the documented format and the game's reading of it are in Spec/InfoSpec.lean; the condition on zero bytes is shown necessary by zero_in_name")
c("C71","proved",["Tree.cache_is_invisible","Tree.fingerprint_identifies","Tree.dumps_injective","Tree.data_congr","Tree.drawn_again","Tree.debug_zoom_fails","Tree.changed_by_hand","Tree.kept_object","Tree.time_kept"],"Pillow's and numpy's operations and the digest are parameters; the conditions in the statement are shown necessary by changed_by_hand, kept_object and time_kept")
c("C72","proved",["Tree.mask_accepted_iff","Tree.mask_pixels","Tree.colour_key","Tree.part_of_picture","Tree.part_without_height","Tree.moved_picture","Tree.moved_twice","Tree.quantized_exact","Tree.empty_exact"],"on the layers of pictures; how Pillow loads and converts a picture is a parameter")
c("C73","proved",["Vox.reads_file","Vox.reads_model","Vox.nearest_voxel","Vox.placed","Vox.torn"],"exact; what srgb_to_oklab and oklab_find_best_colour make of colours and the depth of a voxel are parameters; files in the documented format only. placed/torn state the fault of models deeper than wide.")
c("C74","proved",["Vox.house_zooms","Vox.zoom4_rows","Vox.no_gaps","Vox.lower_edges"],"exact for all voxels; the recolouring is a parameter. lower_edges states the fault of left walls.")
c("C75","proved",["Watch.nothing_missed","Watch.build_follows","Watch.build_has_reason","Watch.nothing_old","Watch.first_build_window","Watch.new_file_window","Watch.failed_build_window"],"all schedules of a transition system of the loop and the observer; the condition of being watched at the start of the build is shown necessary by first_build_window and new_file_window. That watchdog reports modifications in watched directories is assumed; paths are resolved.")
c("C76","proved",["Palette.colours_kept","Palette.remap_cache_invisible","Palette.hash_collision","Palette.invisible","Palette.best_exact","Palette.win_to_dos","Palette.quantize_exact"],"exact; the distance of colours, Python's hash and Pillow's quantize are parameters; the condition on hashes is shown necessary by hash_collision")
c("C77","proved",["Palette.adjust_exact","Palette.bright_range","Palette.preview_exact"],"exact for all bytes; numpy 1.25 as required by setup.py (numbers as int64)")
c("C78","proved",["Extract.kinds","Extract.sound_kind","Extract.groups_differ","Extract.groupName_inj","Extract.sound_written_iff","Extract.sound_gains_byte","Extract.beyond_announced"],"the conditions on parts are written in the statement and shown necessary by beyond_announced; container version 2, not a base set; sound_gains_byte states the wrong size the decompiler uses")
c("C79","proved",["Extract.script_sprites","Extract.decompiled_sprites","Extract.groups_ok","Extract.unchanged_iff","Extract.uniform_group","Extract.alternatives_apart","Extract.mixed_out","Extract.no_layers"],"exact; the picture files are matrices (how Pillow saves and loads them is not modelled); the assertion on the sizes of duplicates is left out")
c("C80","proved",["Globals.written_iff","Globals.setting_read","Globals.settings_work","Globals.negative_offset"],"exact; the specification of the game reads only the actions written here")
c("C81","proved",["Restore.separate_exact","Restore.part_exact","Restore.arrangement_lost","Restore.mirrored_wrong","Restore.reshaped_fails","Restore.buffer_fails"],"views of numpy are address, strides and shape; both layers hold bytes; the boundary is written in the statement and shown necessary by mirrored_wrong and buffer_fails")
c("C82","proved",["Gif.saved_iff","Gif.shown","Gif.fizzy_wrong"],"exact; how Pillow stores frames is not modelled, Spec/Animation.lean says what a viewer does with them and what the game shows; the exception for fizzy drinks is written in the statement and shown to differ from the game by fizzy_wrong")
c("C83","proved",["SpriteSheet.sheet_exact","SpriteSheet.layout","SpriteSheet.cut_out"],"padding and columns are natural numbers; drawing puts a sprite's picture into its rectangle (subclasses define draw); saving the picture is not modelled")
c("C84","proved",["Alternatives.accepted_iff","Alternatives.get_first","Alternatives.get_none","Alternatives.each_found","Alternatives.open_depth_hidden"],"exact")
c("C85","proved",["VehicleCallbacks.set_later","VehicleCallbacks.setup_is_make","VehicleCallbacks.setup_total","VehicleCallbacks.map_answer","VehicleCallbacks.purchase_answer","VehicleCallbacks.vehicle_refused_iff","VehicleCallbacks.asked_exactly","VehicleCallbacks.fast_road_vehicle_properties","VehicleCallbacks.own_sound_lost","Chain.class_answers_in_game"],"sound_effects with single numbers as keys; text ids, part ids and the speed value are the results of C36, C34 and C69; articulated parts beyond the 255th are never asked for")
c("C86","proved",["write_again","write_twice","write_repeatedly","remembered_ids_clash","raw_refs_change_the_second_write","Sounds.generate_again","Sounds.generate_twice","Sounds.new_sound_stored_again","Strings.texts_again"],"the conditions are shown necessary by remembered_ids_clash, raw_refs_change_the_second_write and Sounds.new_sound_stored_again")
c("C87","proved",["Report.report_true","Report.stats_exact","Report.stats_written","Report.stats_total","Report.stats_more_than_file"],"times and the texts around the numbers are not modelled")
c("C88","proved",["Chain.game_decides_as_meant","Chain.meaning_deeper","Chain.meaning_unique","Chain.target_added_late","Chain.three_groups_not_drawn"],"conditions written in the theorem: no cycles, the user adds maps, items that are no Action 2, and layouts each for the map he adds next (AddedOk; adding a target after its map breaks it: target_added_late; sharing with an earlier map breaks it: C90), code as in C21, no range backwards across zero (C25), subroutines called by name while no register is live (C21, C22); a random switch has a power of two of groups (of three the game draws two: three_groups_not_drawn); raw Ref targets and random switches with scope 'relative' (C19) are not among the objects of this theorem; the game's loading of groups is a specification written from the NewGRF documentation")
c("C89","proved",["Chain.registered_answers_in_game","Chain.tree_means","Chain.field_switch","Chain.made_ok","Chain.made_full","Chain.train_item"],"conditions as in C88; the switches the manager makes meet them (made_ok) and are never without ranges (made_full); which handler counts as registered is mapAnswer and purchaseAnswer of C42, with the library's deviations named there; for the features without named variables no such switch can be written (callbacks_without_variables, C42)")
c("C90","proved",["references_select","VehicleSprites.purchase_shown","VehicleSprites.ship_purchase_added","VehicleSprites.train_purchase_added","VehicleSprites.shared_handler_hides_purchase","VehicleSprites.shared_graphics_hide_purchase"],"under the boundary written in the statement (AddedFine, AddedFor), with two proved counterexamples for it and id_clash_while_live (C28) for actions added earlier than for the next; the user sets no ids (explicit_id_handed_out, C28)")
c("C91","proved",["Chain.industry_tile_shows","Chain.tile_draws_its_sprite","Chain.industry_tile_means","Chain.tiles_ok","Chain.empty_layout_gives_position"],"on the level of what switches mean (from there to the bytes and the game is C88, whose other conditions tiles_ok shows; the id 0 the library gives get_sprite_num is not covered by C88, see explicit_id_handed_out, C28); buildings lie apart within 256 by 256 tiles (C60), the set has at most 32768 sprites, every layout has a sprite (otherwise empty_layout_gives_position); layouts are numbered as the code does, from 0 (counted_from_one, C60)")
json.dump({"claims":claims},open("/verif/MANIFEST.json","w"),indent=1)
