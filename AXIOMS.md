# Axioms per theorem

Written by tools/axioms.py from the output of `#print axioms`.

| property | theorem | axioms |
|---|---|---|
| C01 | `Spine.Graph.c01_ids_unique` | propext, Classical.choice, Quot.sound |
| C01 | `Spine.Graph.c01_add_duplicate` | propext, Classical.choice, Quot.sound |
| C01 | `Spine.Graph.c01_add_nonstr` | propext, Classical.choice, Quot.sound |
| C01 | `Spine.Graph.c01_add_fresh` | propext, Classical.choice, Quot.sound |
| C02 | `Spine.Graph.c02_generate_unique_id` | propext, Classical.choice, Quot.sound |
| C02 | `Spine.Graph.c02_generate_twice_differ` | propext, Classical.choice, Quot.sound |
| C03 | `Spine.Graph.c03_mirror` | propext, Classical.choice, Quot.sound |
| C03 | `Spine.Graph.c03_links_nodup` | propext, Classical.choice, Quot.sound |
| C04 | `Spine.Graph.c04_remove_absent` | propext, Classical.choice, Quot.sound |
| C04 | `Spine.Graph.c04_remove_present` | propext, Classical.choice, Quot.sound |
| C05 | `Spine.Graph.c05_add_edge_succeeds_iff` | propext, Classical.choice, Quot.sound |
| C05 | `Spine.Graph.c05_add_edge_exact` | propext, Classical.choice, Quot.sound |
| C05 | `Spine.Graph.c05_add_edge_atomic` | propext, Classical.choice, Quot.sound |
| C05 | `Spine.Graph.c05_add_edge_idempotent` | propext, Classical.choice, Quot.sound |
| C05 | `Spine.Graph.c05_remove_edge_exact` | propext, Classical.choice, Quot.sound |
| C05 | `Spine.Graph.c05_remove_edge_atomic` | propext, Classical.choice, Quot.sound |
| C05 | `Spine.Graph.c05_remove_undoes_add` | propext, Classical.choice, Quot.sound |
| C06 | `Spine.Graph.c06_heads` | propext, Classical.choice, Quot.sound |
| C07 | `Spine.Graph.c07_tails` | propext, Classical.choice, Quot.sound |
| C08 | `Spine.Graph.c08_circular_iff_cyclic` | propext, Classical.choice, Quot.sound |
| C09 | `Spine.Graph.c09_reported_reach_cycle_partial` | propext, Classical.choice, Quot.sound |
| C09 | `Spine.Graph.c09_false` | propext, Quot.sound |
| C10 | `Spine.Graph.c10_all_paths` | propext, Classical.choice, Quot.sound |
| C10 | `Spine.Graph.c10_all_paths_error` | propext, Classical.choice, Quot.sound |
| C11 | `Spine.Graph.c11_covers_partial` | propext, Classical.choice, Quot.sound |
| C11 | `Spine.Graph.c11_forest_partial` | propext, Classical.choice, Quot.sound |
| C11 | `Spine.Graph.c11_false` | propext, Classical.choice, Quot.sound |
| C11 | `Spine.Graph.c11_false_single_root` | propext, Classical.choice, Quot.sound |
| C12 | `Spine.Graph.c12_no_forbidden_edge` | propext, Classical.choice, Quot.sound |
| C12 | `Spine.Graph.c12_forbidden_rejected` | propext, Classical.choice, Quot.sound |
| C12 | `Spine.Graph.c12_forbidden_from_factory` | propext, Classical.choice, Quot.sound |
| C13 | `Spine.Graph.c13_unconnected` | propext, Classical.choice, Quot.sound |
| C14 | `Spine.c14_graph_ids_apart` | propext |
| C15 | `Spine.c15_base_id_counterexample` | none |
| C15 | `Spine.c15_base_id_partial` | propext, Classical.choice, Quot.sound |
| C16 | `Spine.c16_graph_round_trip` | propext, Classical.choice, Quot.sound |
| C16 | `Spine.c16_document_is_dict` | propext, Quot.sound |
| C17 | `Spine.c17_build_iff` | propext, Classical.choice, Quot.sound |
| C17 | `Spine.c17_well_formed_partial` | propext, Classical.choice, Quot.sound |
| C17 | `Spine.c17_edges` | propext, Classical.choice, Quot.sound |
| C17 | `Spine.c17_attachment_edges` | propext, Classical.choice, Quot.sound |
| C17 | `Spine.c17_slot_edges_only` | propext, Classical.choice, Quot.sound |
| C17 | `Spine.c17_nodes` | propext, Classical.choice, Quot.sound |
| C17 | `Spine.c17_none_counterexample` | propext, Classical.choice, Quot.sound |
| C18 | `Spine.c18_remove_leafs` | propext, Classical.choice, Quot.sound |
| C19 | `Spine.c19_remove_heads` | propext, Classical.choice, Quot.sound |
| C20 | `Spine.c20_writes_exactly_non_defaults` | propext, Classical.choice, Quot.sound |
| C20 | `Spine.c20_applies_to_library` | propext, Classical.choice, Quot.sound |
| C21 | `Spine.c21_reload_same_object` | propext, Classical.choice, Quot.sound |
| C21 | `Spine.c21_second_serialisation` | propext, Classical.choice, Quot.sound |
| C21 | `Spine.c21_required_null_rejected` | propext, Classical.choice, Quot.sound |
| C22 | `Spine.Editor.c22_reload` | propext, Classical.choice, Quot.sound |
| C23 | `Spine.Editor.c23_reopen_partial` | propext, Classical.choice, Quot.sound |
| C23 | `Spine.Editor.c23_same_output_partial` | propext, Classical.choice, Quot.sound |
| C23 | `Spine.Editor.c23_counterexample` | propext, Classical.choice, Quot.sound |
| C23 | `Spine.Editor.c23_counterexample_path` | propext, Classical.choice, Quot.sound |
| C23 | `Spine.Editor.c23_counterexample_null` | propext, Classical.choice, Quot.sound |
| C24 | `Spine.c24_unknown_attribute_rejected` | propext, Quot.sound |
| C24 | `Spine.c24_nothing_dropped` | propext, Classical.choice, Quot.sound |
| C24 | `Spine.Editor.c24_document` | propext, Classical.choice, Quot.sound |
| C24 | `Spine.Editor.c24_rejected` | propext, Classical.choice, Quot.sound |
| C24 | `Spine.Editor.c24_odd_shape` | propext, Classical.choice, Quot.sound |
| C25 | `Spine.c25_missing_required_rejected` | propext, Classical.choice, Quot.sound |
| C25 | `Spine.c25_required_table` | none |
| C25 | `Spine.Editor.c25_document` | propext, Classical.choice, Quot.sound |
| C25 | `Spine.Editor.c25_rejected` | propext, Classical.choice, Quot.sound |
| C25 | `Spine.Editor.c25_required` | propext |
| C26 | `Spine.c26_type_dispatch` | propext, Quot.sound |
| C26 | `Spine.c26_listed_types_rejected` | propext, Quot.sound |
| C26 | `Spine.c26_counterexample` | propext, Quot.sound |
| C26 | `Spine.c26_accepted_partial` | propext, Classical.choice, Quot.sound |
| C26 | `Spine.Messages.c26_message_partial` | propext, Quot.sound |
| C26 | `Spine.Messages.c26_message_exact` | propext, Quot.sound |
| C26 | `Spine.Messages.c26_message_counterexample` | propext, Classical.choice, Quot.sound |
| C26 | `Spine.Editor.c26_document` | propext, Classical.choice, Quot.sound |
| C27 | `Spine.Version.c27_accepts_exactly` | propext, Quot.sound |
| C27 | `Spine.Version.c27_else_value_error` | propext, Quot.sound |
| C27 | `Spine.Version.c27_canonical` | propext, Quot.sound |
| C28 | `Spine.Version.c28_counterexample` | propext |
| C28 | `Spine.Version.c28_incomparable` | propext, Classical.choice, Quot.sound |
| C28 | `Spine.Version.c28_sound_partial` | propext, Classical.choice, Quot.sound |
| C28 | `Spine.Version.c28_same_minor_partial` | propext, Classical.choice, Quot.sound |
| C29 | `Spine.Version.c29_eq` | propext, Quot.sound |
| C29 | `Spine.Version.c29_le` | propext, Classical.choice, Quot.sound |
| C29 | `Spine.Version.c29_lt` | propext, Classical.choice, Quot.sound |
| C29 | `Spine.Version.c29_string_argument` | propext, Quot.sound |
| C30 | `Spine.Curves.c30_curves_partial` | propext, Quot.sound |
| C30 | `Spine.Curves.c30_others` | propext, Quot.sound |
| C30 | `Spine.Curves.c30_listed` | propext |
| C30 | `Spine.c30_counterexample` | propext, Classical.choice, Quot.sound |
| C30 | `Spine.c30_false` | propext, Classical.choice, Quot.sound |
| C30 | `Spine.c30_exact_partial` | propext, Quot.sound |
| C30 | `Spine.c30_newer_untouched_partial` | propext, Quot.sound |
| C31 | `Spine.c31_counterexample` | propext |
| C31 | `Spine.c31_counterexample_observed` | propext, Classical.choice, Quot.sound |
| C31 | `Spine.c31_exact_partial` | propext, Classical.choice, Quot.sound |
| C31 | `Spine.c31_defaults_used_partial` | propext, Quot.sound |
| C31 | `Spine.Switch.c31_same` | propext, Classical.choice, Quot.sound |
| C31 | `Spine.Switch.c31_since` | propext, Classical.choice, Quot.sound |
| C32 | `Spine.Tags.c32_tags_exact` | propext, Quot.sound |
| C32 | `Spine.Tags.c32_total` | propext, Classical.choice, Quot.sound |
| C32 | `Spine.Tags.c32_no_tag` | propext, Quot.sound |
| C32 | `Spine.Tags.c32_unique` | propext, Quot.sound |
| C32 | `Spine.Tags.c32_scale_in_name` | propext, Quot.sound |
| C33 | `Spine.AnimData.c33_fuel_enough` | propext, Classical.choice, Quot.sound |
| C33 | `Spine.AnimData.c33_terminates_iff` | propext, Classical.choice, Quot.sound |
| C33 | `Spine.AnimData.c33_product` | propext, Classical.choice, Quot.sound |
| C33 | `Spine.AnimData.c33_otherwise` | propext, Classical.choice, Quot.sound |
| C34 | `Spine.Editor.c34_erase_exact` | propext, Classical.choice, Quot.sound |
| C35 | `Spine.Editor.c35_strict_raises_partial` | propext, Classical.choice, Quot.sound |
| C35 | `Spine.Editor.c35_all_unknown_partial` | propext, Classical.choice, Quot.sound |
| C35 | `Spine.Editor.c35_strict_known` | propext, Quot.sound |
| C35 | `Spine.Editor.c35_lenient_ignores` | propext, Classical.choice, Quot.sound |
| C35 | `Spine.Editor.c35_not_a_list` | propext |
| C35 | `Spine.Editor.c35_counterexample` | propext, Classical.choice, Quot.sound |
| C36 | `Spine.Editor.c36_safe_mode` | propext, Classical.choice, Quot.sound |
| C36 | `Spine.Editor.c36_fields` | propext, Classical.choice, Quot.sound |
| C37 | `Spine.Editor.c37_clean` | propext, Classical.choice, Quot.sound |
| C37 | `Spine.Editor.c37_erase_animations` | propext, Classical.choice, Quot.sound |
| C38 | `Spine.Editor.c38_slots_partial` | propext, Classical.choice, Quot.sound |
| C38 | `Spine.Editor.c38_counterexample` | propext, Classical.choice, Quot.sound |
| C39 | `Spine.Editor.c39_returned_partial` | propext, Classical.choice, Quot.sound |
| C39 | `Spine.Editor.c39_kept_partial` | propext, Classical.choice, Quot.sound |
| C39 | `Spine.Editor.c39_list_is_difference_partial` | propext, Classical.choice, Quot.sound |
| C39 | `Spine.Editor.c39_counterexample` | propext, Classical.choice, Quot.sound |
| C40 | `Spine.Editor.c40_used_kept_partial` | propext, Classical.choice, Quot.sound |
| C40 | `Spine.Editor.c40_left_iff_partial` | propext, Classical.choice, Quot.sound |
| C40 | `Spine.Editor.c40_counterexample` | propext, Classical.choice, Quot.sound |
| C41 | `Spine.Editor.c41_mesh_kept_iff` | propext, Classical.choice, Quot.sound |
| C41 | `Spine.Editor.c41_mesh_kept_partial` | propext, Classical.choice, Quot.sound |
| C41 | `Spine.Editor.c41_counterexample` | propext, Classical.choice, Quot.sound |
| C42 | `Spine.Editor.c42_no_reference` | propext, Classical.choice, Quot.sound |
| C42 | `Spine.Editor.c42_removed_slots_partial` | propext, Classical.choice, Quot.sound |
| C42 | `Spine.Editor.c42_counterexample` | propext, Classical.choice, Quot.sound |
| C43 | `Spine.Editor.c43_skins_and_deform` | propext, Classical.choice, Quot.sound |
| C43 | `Spine.Editor.c43_setup_partial` | propext, Classical.choice, Quot.sound |
| C43 | `Spine.Editor.c43_keyframes_partial` | propext, Classical.choice, Quot.sound |
| C43 | `Spine.Editor.c43_counterexample` | propext, Classical.choice, Quot.sound |
| C44 | `Spine.DrawOrder.c44_counterexample` | propext, Quot.sound |
| C44 | `Spine.DrawOrder.c44_preserved_iff` | propext, Classical.choice, Quot.sound |
| C44 | `Spine.DrawOrder.c44_preserved_partial` | propext, Classical.choice, Quot.sound |
| C45 | `Spine.DrawOrder.c45_rewritten_offsets_valid` | propext, Classical.choice, Quot.sound |
| C45 | `Spine.DrawOrder.c45_fails_only_on_unknown_slot` | propext, Classical.choice, Quot.sound |
| C45 | `Spine.DrawOrder.c45_nothing_removed` | propext, Quot.sound |
| C45 | `Spine.DrawOrder.c45_rewrite_twice` | propext, Classical.choice, Quot.sound |
| C46 | `Spine.DrawOrder.c46_reorder_is_spine` | propext, Quot.sound |
| C46 | `Spine.DrawOrder.c46_sequence_unique` | propext, Classical.choice, Quot.sound |
| C46 | `Spine.DrawOrder.c46_reorder_perm` | propext, Quot.sound |
| C47 | `Spine.Editor.c47_load` | propext, Classical.choice, Quot.sound |
| C47 | `Spine.Editor.c47_history_partial` | propext, Classical.choice, Quot.sound |
| C47 | `Spine.Editor.c47_counterexample` | propext, Classical.choice, Quot.sound |
| C48 | `Spine.Editor.c48_load` | propext, Classical.choice, Quot.sound |
| C48 | `Spine.Editor.c48_history_partial` | propext, Classical.choice, Quot.sound |
| C48 | `Spine.Editor.c48_counterexample` | propext, Classical.choice, Quot.sound |
| C48 | `Spine.Editor.c48_counterexample_shared` | propext, Classical.choice, Quot.sound |
| C49 | `Spine.Editor.c49_removed` | propext, Classical.choice, Quot.sound |
| C49 | `Spine.Editor.c49_safe` | propext, Classical.choice, Quot.sound |
| C49 | `Spine.Editor.c49_known` | propext, Classical.choice, Quot.sound |
| C49 | `Spine.Editor.c49_unknown` | propext, Quot.sound |
| C49 | `Spine.Editor.c49_unknown_first` | propext, Quot.sound |
| C50 | `Spine.Editor.c50_single` | propext, Classical.choice, Quot.sound |
| C50 | `Spine.Editor.c50_copies_partial` | propext, Classical.choice, Quot.sound |
| C50 | `Spine.Editor.c50_no_reference_partial` | propext, Classical.choice, Quot.sound |
| C50 | `Spine.Editor.c50_counterexample_linked` | propext, Classical.choice, Quot.sound |
| C50 | `Spine.Editor.c50_counterexample_parent` | propext, Classical.choice, Quot.sound |
| C50 | `Spine.Editor.c50_counterexample_missing` | propext, Classical.choice, Quot.sound |
| C50 | `Spine.Editor.c50_counterexample_default` | propext, Classical.choice, Quot.sound |
| C51 | `Spine.Editor.c51_reported_partial` | propext, Classical.choice, Quot.sound |
| C51 | `Spine.Editor.c51_counterexample` | propext, Classical.choice, Quot.sound |
| C52 | `Spine.Editor.c52_scale_exact` | propext, Classical.choice, Quot.sound |
| C52 | `Spine.Editor.c52_exactly_once_partial` | propext, Classical.choice, Quot.sound |
| C52 | `Spine.Editor.c52_no_root` | propext, Classical.choice, Quot.sound |
| C52 | `Spine.Editor.c52_counterexample` | propext, Classical.choice, Quot.sound |
| C53 | `Spine.Editor.c53_erase_skins_partial` | propext, Classical.choice, Quot.sound |
| C53 | `Spine.Editor.c53_erase_animations_safe_partial` | propext |
| C53 | `Spine.Editor.c53_counterexample` | propext, Classical.choice, Quot.sound |
| C54 | `Spine.Editor.c54_counterexample` | propext, Classical.choice, Quot.sound |
| C54 | `Spine.Editor.c54_counterexample_raises` | propext, Classical.choice, Quot.sound |
| C54 | `Spine.Editor.c54_second_iff` | propext, Classical.choice, Quot.sound |
| C54 | `Spine.Editor.c54_second_partial` | propext, Classical.choice, Quot.sound |
| C55 | `Spine.Editor.c55_fails_only_partial` | propext, Classical.choice, Quot.sound |
| C55 | `Spine.Editor.c55_causes_partial` | propext, Classical.choice, Quot.sound |
| C55 | `Spine.Editor.c55_fails_iff_partial` | propext, Classical.choice, Quot.sound |
| C55 | `Spine.Editor.c55_counterexample` | propext, Classical.choice, Quot.sound |
| C56 | `Spine.Editor.c56_entries` | propext, Classical.choice, Quot.sound |
| C56 | `Spine.Editor.c56_scale` | propext, Classical.choice, Quot.sound |
| C57 | `Spine.AnimData.c57_transparent_exact` | propext, Quot.sound |
| C57 | `Spine.AnimData.c57_bad_colour` | propext, Quot.sound |
| C57 | `Spine.AnimData.c57_last_two` | propext, Classical.choice, Quot.sound |
| C58 | `Spine.Files.c58_saved_partial` | propext, Classical.choice, Quot.sound |
| C58 | `Spine.Files.c58_exact_partial` | propext, Classical.choice, Quot.sound |
| C58 | `Spine.Files.c58_bare_name` | propext, Quot.sound |
| C58 | `Spine.Files.c58_makedirs_depth` | propext, Quot.sound |
| C58 | `Spine.Editor.c58_read_back_partial` | propext, Classical.choice, Quot.sound |
| C58 | `Spine.Editor.c58_to_json_partial` | propext, Classical.choice, Quot.sound |
| C58 | `Spine.Editor.c58_images` | propext, Quot.sound |
| C58 | `Spine.Editor.c58_save_images_partial` | propext, Classical.choice, Quot.sound |
| C58 | `Spine.Editor.c58_bare_name_editor` | propext, Quot.sound |
| C58 | `Spine.Editor.c58_counterexample` | propext, Quot.sound |
| C58 | `Spine.Editor.c58_up_counterexample` | propext |
| C59 | `Spine.Editor.c59_single` | propext, Classical.choice, Quot.sound |
| C59 | `Spine.Editor.c59_error` | propext, Classical.choice, Quot.sound |
| C59 | `Spine.Editor.c59_one_by_one` | propext, Classical.choice, Quot.sound |
| C59 | `Spine.Editor.c59_unlinked` | propext, Classical.choice, Quot.sound |
| C59 | `Spine.Editor.c59_modes` | propext, Quot.sound |
| C60 | `Spine.Editor.c60_reported_partial` | propext, Classical.choice, Quot.sound |
| C60 | `Spine.Editor.c60_counterexample_key` | propext, Classical.choice, Quot.sound |
| C61 | `Spine.Runtime.c61_object_partial` | propext, Classical.choice, Quot.sound |
| C61 | `Spine.Runtime.c61_other_values_partial` | propext, Classical.choice, Quot.sound |
| C61 | `Spine.Runtime.c61_counterexample_transform` | propext, Classical.choice, Quot.sound |
| C61 | `Spine.Runtime.c61_counterexample_spacing` | propext, Classical.choice, Quot.sound |
| C61 | `Spine.Runtime.c61_counterexample_event` | propext, Classical.choice, Quot.sound |
| C61 | `Spine.Runtime.c61_dropped_partial` | propext, Classical.choice, Quot.sound |
| C61 | `Spine.Runtime.c61_kept` | propext, Classical.choice, Quot.sound |
| C62 | `Spine.Editor.c62_drawn_partial` | propext, Classical.choice, Quot.sound |
| C62 | `Spine.Editor.c62_picture_partial` | propext, Classical.choice, Quot.sound |
| C62 | `Spine.Editor.c62_erase_animations_partial` | propext, Classical.choice, Quot.sound |
| C62 | `Spine.Editor.c62_erase_skins_partial` | propext, Classical.choice, Quot.sound |
| C62 | `Spine.Editor.c62_counterexample_empty` | propext, Classical.choice, Quot.sound |
| C62 | `Spine.Editor.c62_counterexample_none` | propext, Classical.choice, Quot.sound |
| C63 | `Spine.Editor.c63_calls` | propext, Classical.choice, Quot.sound |
| C63 | `Spine.Editor.c63_data` | propext, Classical.choice, Quot.sound |
| C64 | `Spine.HGraph.c64_links` | propext, Classical.choice, Quot.sound |
| C64 | `Spine.HGraph.c64_reach` | propext, Classical.choice, Quot.sound |
| C64 | `Spine.HGraph.c64_identity` | propext, Classical.choice, Quot.sound |
| C64 | `Spine.HGraph.c64_new` | propext, Classical.choice, Quot.sound |
| C64 | `Spine.HGraph.c64_removed` | propext, Classical.choice, Quot.sound |
| C64 | `Spine.HGraph.c64_calls` | propext, Classical.choice, Quot.sound |
| C64 | `Spine.HGraph.c64_queries` | propext, Classical.choice, Quot.sound |
| C65 | `Spine.Editor.c65_bones` | propext, Classical.choice, Quot.sound |
| C65 | `Spine.Editor.c65_constraints` | propext, Classical.choice, Quot.sound |
| C65 | `Spine.Editor.c65_events` | propext, Classical.choice, Quot.sound |
| C65 | `Spine.Editor.c65_skins` | propext, Classical.choice, Quot.sound |
| C65 | `Spine.Editor.c65_calls_partial` | propext, Classical.choice, Quot.sound |
| C65 | `Spine.Editor.c65_path_safe` | propext, Classical.choice, Quot.sound |
| C65 | `Spine.Editor.c65_counterexample_path` | propext, Classical.choice, Quot.sound |
| C65 | `Spine.Editor.c65_counterexample_name` | propext, Classical.choice, Quot.sound |
| C66 | `Spine.c66_to_json` | propext, Classical.choice, Quot.sound |
| C66 | `Spine.c66_to_json_raises` | propext, Classical.choice, Quot.sound |
| C66 | `Spine.c66_document` | propext, Classical.choice, Quot.sound |
| C66 | `Spine.c66_set_defaults` | propext, Classical.choice, Quot.sound |
| C66 | `Spine.c66_clean` | propext, Classical.choice, Quot.sound |
| C66 | `Spine.c66_clean_document` | propext, Quot.sound |
| C67 | `Spine.c67_heads_tails_partial` | propext, Classical.choice, Quot.sound |
| C67 | `Spine.c67_validate_order_partial` | propext, Classical.choice, Quot.sound |
| C67 | `Spine.Editor.c67_calls_partial` | propext, Classical.choice, Quot.sound |
| C67 | `Spine.Editor.c67_shallow_partial` | propext, Classical.choice, Quot.sound |
| C67 | `Spine.Editor.c67_short_bones_partial` | propext, Classical.choice, Quot.sound |
| C67 | `Spine.Editor.c67_long_bones` | propext, Classical.choice, Quot.sound |
| C68 | `Spine.OGraph.c68_add_partial` | propext, Classical.choice, Quot.sound |
| C68 | `Spine.OGraph.c68_spoilt` | propext, Classical.choice, Quot.sound |
| C68 | `Spine.OGraph.c68_agree_partial` | propext, Classical.choice, Quot.sound |
| C68 | `Spine.OGraph.c68_spine_factory` | propext |
| C68 | `Spine.OGraph.c68_counterexample` | propext, Classical.choice, Quot.sound |
| C69 | `Spine.Container.c69_remove_slots` | propext, Classical.choice, Quot.sound |
| C69 | `Spine.Container.c69_remove_attachments` | propext, Classical.choice, Quot.sound |
| C70 | `Spine.c70_counts` | propext, Classical.choice, Quot.sound |
| C70 | `Spine.c70_sum` | propext, Classical.choice, Quot.sound |
| C71 | `Spine.EraserResult.c71_record` | propext, Classical.choice, Quot.sound |
| C72 | `Spine.c72_no_slots_partial` | propext, Classical.choice, Quot.sound |
| C72 | `Spine.c72_slots` | propext, Classical.choice, Quot.sound |
| C72 | `Spine.c72_with_skins_partial` | propext, Classical.choice, Quot.sound |
| C72 | `Spine.c72_file` | propext, Quot.sound |
| C73 | `Spine.c73_parsers_partial` | propext |
| C73 | `Spine.c73_counterexample` | propext |
| C73 | `Spine.c73_factory` | propext |
| C73 | `Spine.c73_errors` | propext |
| C74 | `Spine.c74_nodes_partial` | propext, Classical.choice, Quot.sound |
| C74 | `Spine.c74_versions_partial` | propext, Quot.sound |
| C74 | `Spine.c74_counterexample` | propext |
| C75 | `Spine.c75_get_partial` | propext, Classical.choice, Quot.sound |
| C75 | `Spine.c75_counterexample` | propext, Quot.sound |
| C75 | `Spine.c75_new` | propext |
| C76 | `Spine.Cast.c76_numbers_partial` | propext, Quot.sound |
| C76 | `Spine.Cast.c76_string` | propext, Quot.sound |
| C76 | `Spine.Cast.c76_escapes` | propext, Quot.sound |
| C76 | `Spine.Cast.c76_formatted` | propext, Quot.sound |
| C76 | `Spine.Cast.c76_string_distinct` | propext, Quot.sound |
| C76 | `Spine.Cast.c76_boolean_partial` | propext, Quot.sound |
| C76 | `Spine.Cast.c76_idempotent` | propext, Quot.sound |
| C76 | `Spine.Cast.c76_tags` | propext, Quot.sound |
| C76 | `Spine.Cast.c76_counterexample` | propext, Classical.choice, Quot.sound |
| C76 | `Spine.Cast.c76_string_counterexample` | propext, Classical.choice, Quot.sound |
| C76 | `Spine.Cast.c76_plain` | propext, Quot.sound |
| C76 | `Spine.Cast.c76_escaped` | none |
| C77 | `Spine.c77_round_trip` | propext, Classical.choice, Quot.sound |
| C77 | `Spine.c77_means` | propext, Classical.choice, Quot.sound |
| C77 | `Spine.c77_read` | propext, Classical.choice, Quot.sound |
| C77 | `Spine.c77_unique` | propext, Classical.choice, Quot.sound |
| C77 | `Spine.c77_injective` | propext, Classical.choice, Quot.sound |
| C77 | `Spine.c77_ends` | propext, Classical.choice, Quot.sound |
| C77 | `Spine.c77_ascii` | propext, Quot.sound |
| C77 | `Spine.c77_keys` | propext, Classical.choice, Quot.sound |
| C77 | `Spine.c77_editor` | propext, Classical.choice, Quot.sound |
| C77 | `Spine.c77_opened` | propext, Classical.choice, Quot.sound |
| C77 | `Spine.c77_layout` | propext, Classical.choice, Quot.sound |
| C77 | `Spine.c77_one_line` | propext, Classical.choice, Quot.sound |
| C77 | `Spine.c77_open` | propext, Classical.choice, Quot.sound |
| C77 | `Spine.c77_not_json` | propext, Classical.choice, Quot.sound |
| C78 | `Spine.c78_exact` | propext, Classical.choice, Quot.sound |
| C78 | `Spine.c78_not` | propext, Classical.choice, Quot.sound |
| C78 | `Spine.c78_editor_partial` | propext, Classical.choice, Quot.sound |
| C78 | `Spine.c78_edited` | propext, Classical.choice, Quot.sound |
| C78 | `Spine.c78_images` | propext, Classical.choice, Quot.sound |
| C78 | `Spine.c78_counterexample` | propext, Classical.choice, Quot.sound |
| C78 | `Spine.c78_scale_counterexample` | propext, Classical.choice, Quot.sound |
| C79 | `Spine.Alias.c79_constructor` | propext, Quot.sound |
| C79 | `Spine.Alias.c79_outcome` | propext, Quot.sound |
| C79 | `Spine.Alias.c79_call` | propext, Quot.sound |
| C79 | `Spine.Alias.c79_apart` | propext, Quot.sound |
| C79 | `Spine.Alias.c79_documents` | propext, Quot.sound |
| C79 | `Spine.Alias.c79_editors` | propext, Quot.sound |
| C80 | `Spine.Alias.c80_programs_partial` | propext, Classical.choice, Quot.sound |
| C80 | `Spine.Alias.c80_calls` | propext, Quot.sound |
| C80 | `Spine.Alias.c80_same_values_partial` | propext, Classical.choice, Quot.sound |
| C80 | `Spine.Alias.c80_shared_slots` | propext, Classical.choice, Quot.sound |
| C81 | `Spine.Editor.c81_call_partial` | propext, Classical.choice, Quot.sound |
| C81 | `Spine.Editor.c81_histories_partial` | propext, Classical.choice, Quot.sound |
| C81 | `Spine.c81_stopped` | propext, Classical.choice, Quot.sound |
| C82 | `Spine.Editor.c82_slots_partial` | propext, Classical.choice, Quot.sound |
| C82 | `Spine.Editor.c82_attachments_partial` | propext, Classical.choice, Quot.sound |
| C82 | `Spine.Editor.c82_succeeds_partial` | propext, Classical.choice, Quot.sound |
| C82 | `Spine.Editor.ComposeEx.c82_counterexample` | propext, Classical.choice, Quot.sound |
| C83 | `Spine.Editor.c83_split_partial` | propext, Classical.choice, Quot.sound |
| C83 | `Spine.Editor.c83_strict_partial` | propext, Classical.choice, Quot.sound |
| C83 | `Spine.Editor.c83_then_clean` | propext, Classical.choice, Quot.sound |
| C83 | `Spine.Editor.c83_names` | propext, Classical.choice, Quot.sound |
| C83 | `Spine.Editor.c83_skins_partial` | propext, Quot.sound |
| C83 | `Spine.Editor.ComposeEx.c83_counterexample` | propext, Classical.choice, Quot.sound |
| C83 | `Spine.Editor.Twice.c83_images_partial` | propext, Classical.choice, Quot.sound |
| C83 | `Spine.Editor.Twice.c83_images_left_partial` | propext, Classical.choice, Quot.sound |
| C83 | `Spine.Editor.Twice.c83_counterexample_images` | propext, Classical.choice, Quot.sound |
| C84 | `Spine.Editor.c84_anims_skins` | propext, Classical.choice, Quot.sound |
| C84 | `Spine.Editor.c84_scale_anims` | propext, Classical.choice, Quot.sound |
| C84 | `Spine.Editor.c84_scale_skins` | propext, Classical.choice, Quot.sound |
| C84 | `Spine.Editor.ComposeEx.c84_cleaning` | propext, Classical.choice, Quot.sound |
| C85 | `Spine.Editor.c85_saved` | propext, Classical.choice, Quot.sound |
| C85 | `Spine.Editor.c85_places` | propext |
| C85 | `Spine.Editor.c85_object` | propext, Classical.choice, Quot.sound |
| C85 | `Spine.Editor.c85_known` | propext, Classical.choice, Quot.sound |
| C85 | `Spine.Editor.c85_nothing_new` | propext, Classical.choice, Quot.sound |
| C85 | `Spine.SavedEx.c85_null_name` | propext, Classical.choice, Quot.sound |
| C86 | `Spine.Editor.c86_lost` | propext, Classical.choice, Quot.sound |
| C86 | `Spine.Editor.c86_meaning_partial` | propext, Classical.choice, Quot.sound |
| C86 | `Spine.Editor.c86_spine` | propext, Quot.sound |
| C86 | `Spine.SavedEx.c86_counterexample` | propext, Classical.choice, Quot.sound |
| C87 | `Spine.KeyOrder.c87_load` | propext, Classical.choice, Quot.sound |
| C87 | `Spine.KeyOrder.c87_saved` | propext, Classical.choice, Quot.sound |
| C87 | `Spine.KeyOrder.c87_calls_partial` | propext, Classical.choice, Quot.sound |
| C87 | `Spine.KeyOrder.c87_edited_partial` | propext, Classical.choice, Quot.sound |
| C87 | `Spine.KeyOrder.c87_clean_partial` | propext, Classical.choice, Quot.sound |
| C87 | `Spine.KeyOrder.c87_erase_animations_partial` | propext, Classical.choice, Quot.sound |
| C87 | `Spine.KeyOrder.c87_erase_skins_partial` | propext, Classical.choice, Quot.sound |
| C87 | `Spine.KeyOrder.c87_scale_partial` | propext, Classical.choice, Quot.sound |
| C87 | `Spine.KeyOrder.c87_counterexample` | propext, Classical.choice, Quot.sound |
| C87 | `Spine.KeyOrder.c87_counterexample_exception` | propext, Classical.choice, Quot.sound |
| C87 | `Spine.KeyOrder.c87_counterexample_stopped` | propext, Classical.choice, Quot.sound |
| C87 | `Spine.KeyOrder.c87_counterexample_relink` | propext, Classical.choice, Quot.sound |
| C88 | `Spine.Sessions.c88_same_document_partial` | propext, Classical.choice, Quot.sound |
| C88 | `Spine.Sessions.c88_reopen_partial` | propext, Classical.choice, Quot.sound |
| C88 | `Spine.Sessions.c88_sessions_partial` | propext, Classical.choice, Quot.sound |
| C88 | `Spine.Sessions.c88_one_session_partial` | propext, Classical.choice, Quot.sound |
| C88 | `Spine.Sessions.c88_counterexample` | propext, Classical.choice, Quot.sound |
| C88 | `Spine.Sessions.c88_counterexample_slots` | propext, Classical.choice, Quot.sound |
| C89 | `Spine.Sessions.c89_in_place_partial` | propext, Classical.choice, Quot.sound |
| C89 | `Spine.Sessions.c89_resave_partial` | propext, Classical.choice, Quot.sound |
| C89 | `Spine.Sessions.c89_failed` | propext, Quot.sound |
| C89 | `Spine.Sessions.c89_counterexample_bare` | propext, Classical.choice, Quot.sound |
| C89 | `Spine.Sessions.c89_counterexample_slots` | propext, Classical.choice, Quot.sound |
| C90 | `Spine.Alias.c90_programs_partial` | propext, Classical.choice, Quot.sound |
| C90 | `Spine.Alias.c90_imported_partial` | propext, Classical.choice, Quot.sound |
| C90 | `Spine.Alias.c90_saved` | propext, Quot.sound |
| C90 | `Spine.Alias.c90_lost` | propext, Quot.sound |
| C90 | `Spine.Alias.c90_counterexample` | propext, Classical.choice, Quot.sound |
| C90 | `Spine.Alias.c90_images_partial` | propext, Classical.choice, Quot.sound |
| C90 | `Spine.Alias.c90_images_imported_partial` | propext, Classical.choice, Quot.sound |
| C91 | `Spine.Editor.c91_drawn_partial` | propext, Classical.choice, Quot.sound |
| C91 | `Spine.Editor.c91_order_partial` | propext, Classical.choice, Quot.sound |
| C91 | `Spine.Editor.c91_calls_partial` | propext, Classical.choice, Quot.sound |
| C91 | `Spine.Editor.c91_file_partial` | propext, Classical.choice, Quot.sound |
| C91 | `Spine.Editor.c91_counterexample` | propext, Classical.choice, Quot.sound |
| C92 | `Spine.Editor.Console.c92_same` | propext, Quot.sound |
| C92 | `Spine.Editor.Console.c92_images` | propext, Quot.sound |
| C92 | `Spine.Editor.Console.c92_text` | propext, Quot.sound |
| C92 | `Spine.Editor.Console.c92_clean_partial` | propext, Classical.choice, Quot.sound |
| C92 | `Spine.Editor.Console.c92_erase_animations_partial` | propext, Classical.choice, Quot.sound |
| C92 | `Spine.Editor.Console.c92_erase_skins_partial` | propext, Classical.choice, Quot.sound |
| C92 | `Spine.Editor.Console.c92_failed_partial` | propext, Classical.choice, Quot.sound |
| C92 | `Spine.Editor.Console.c92_message` | propext, Quot.sound |
| C92 | `Spine.Editor.Console.c92_counterexample` | propext, Classical.choice, Quot.sound |
| C93 | `Spine.Messages.c93_same_graph` | propext, Classical.choice, Quot.sound |
| C93 | `Spine.Messages.c93_same` | propext, Quot.sound |
| C93 | `Spine.Messages.c93_add_node` | propext, Classical.choice, Quot.sound |
| C93 | `Spine.Messages.c93_remove_node` | propext, Quot.sound |
| C93 | `Spine.Messages.c93_add_edge` | propext, Quot.sound |
| C93 | `Spine.Messages.c93_paths` | propext, Quot.sound |
| C93 | `Spine.Messages.c93_version` | propext |
| C93 | `Spine.Messages.c93_tags` | propext, Classical.choice, Quot.sound |
| C93 | `Spine.Messages.c93_erase_skins` | propext, Classical.choice, Quot.sound |
| C93 | `Spine.Messages.c93_attributes` | propext, Classical.choice, Quot.sound |
| C93 | `Spine.Messages.c93_attachment_type` | propext, Quot.sound |
| C93 | `Spine.Messages.c93_text` | propext, Quot.sound |
| C93 | `Spine.Messages.c93_ambiguous` | propext, Classical.choice, Quot.sound |
| C94 | `Spine.World.c94_modes` | propext, Quot.sound |
| C94 | `Spine.World.c94_unique` | propext |
| C94 | `Spine.World.c94_uniform_partial` | propext, Classical.choice, Quot.sound |
| C94 | `Spine.World.c94_points_partial` | propext, Classical.choice, Quot.sound |
| C94 | `Spine.World.c94_meshes_partial` | propext, Classical.choice, Quot.sound |
| C94 | `Spine.World.c94_stretch_partial` | propext, Classical.choice, Quot.sound |
| C94 | `Spine.World.c94_counterexample_root` | propext, Classical.choice, Quot.sound |
| C94 | `Spine.World.c94_counterexample_roots` | propext, Classical.choice, Quot.sound |
| C94 | `Spine.World.c94_counterexample_negative` | propext, Classical.choice, Quot.sound |
| C94 | `Spine.World.c94_counterexample_turned` | propext, Classical.choice, Quot.sound |
| C95 | `Spine.Meshes.c95_unique` | propext |
| C95 | `Spine.Meshes.c95_bends_unique` | propext |
| C95 | `Spine.Meshes.c95_looks_partial` | propext, Classical.choice, Quot.sound |
| C95 | `Spine.Meshes.c95_bends_partial` | propext, Classical.choice, Quot.sound |
| C95 | `Spine.Meshes.c95_counterexample_colour` | propext, Classical.choice, Quot.sound |
| C95 | `Spine.Meshes.c95_counterexample_parent` | propext, Classical.choice, Quot.sound |
| C95 | `Spine.Meshes.c95_counterexample_default` | propext, Classical.choice, Quot.sound |
| C95 | `Spine.Meshes.c95_counterexample_linked` | propext, Classical.choice, Quot.sound |
| C95 | `Spine.Meshes.c95_counterexample_bent` | propext, Classical.choice, Quot.sound |
| C96 | `Spine.Meshes.c96_same` | propext, Classical.choice, Quot.sound |
| C96 | `Spine.Meshes.c96_exact` | propext, Classical.choice, Quot.sound |
| C96 | `Spine.Meshes.c96_looks_partial` | propext, Classical.choice, Quot.sound |
| C96 | `Spine.Meshes.c96_bends` | propext, Classical.choice, Quot.sound |
| C96 | `Spine.Meshes.c96_counterexample_middle` | propext, Classical.choice, Quot.sound |
| C96 | `Spine.Meshes.c96_counterexample_shared` | propext, Classical.choice, Quot.sound |
| C97 | `Spine.Digits.c97_read` | propext, Classical.choice, Quot.sound |
| C97 | `Spine.Digits.c97_read_same` | propext, Classical.choice, Quot.sound |
| C97 | `Spine.Digits.c97_read_short` | propext, Classical.choice, Quot.sound |
| C97 | `Spine.Digits.c97_write` | propext, Quot.sound |
| C97 | `Spine.Digits.c97_write_cut` | propext, Quot.sound |
| C97 | `Spine.Digits.c97_write_part` | propext, Quot.sound |
| C97 | `Spine.Digits.c97_read_back` | propext, Classical.choice, Quot.sound |
| C97 | `Spine.Digits.c97_lost` | propext, Classical.choice, Quot.sound |
| C97 | `Spine.Digits.c97_save_same` | propext, Quot.sound |
| C97 | `Spine.Digits.c97_save_fails` | propext, Classical.choice, Quot.sound |
| C97 | `Spine.Digits.c97_saved` | propext, Classical.choice, Quot.sound |
| C97 | `Spine.Digits.c97_destroyed` | propext, Classical.choice, Quot.sound |
| C97 | `Spine.Digits.c97_read_or` | propext |
| C97 | `Spine.Digits.c97_read_error` | propext, Classical.choice, Quot.sound |
| C97 | `Spine.Digits.c97_read_refused` | propext |
| C98 | `Spine.Bytes.c98_line_ends` | propext, Classical.choice, Quot.sound |
| C98 | `Spine.Bytes.c98_open` | propext, Classical.choice, Quot.sound |
| C98 | `Spine.Bytes.c98_texts` | propext, Quot.sound |
| C98 | `Spine.Bytes.c98_written` | propext, Quot.sound |
| C98 | `Spine.Bytes.c98_portable` | propext, Classical.choice, Quot.sound |
| C98 | `Spine.Bytes.c98_ascii_partial` | propext, Classical.choice, Quot.sound |
| C98 | `Spine.Bytes.c98_sessions` | propext, Classical.choice, Quot.sound |
| C98 | `Spine.Bytes.c98_utf8` | propext, Classical.choice, Quot.sound |
| C98 | `Spine.Bytes.c98_strict` | propext, Classical.choice, Quot.sound |
| C98 | `Spine.Bytes.c98_byte_order_mark` | propext, Classical.choice, Quot.sound |
| C98 | `Spine.Bytes.c98_counterexample` | propext, Classical.choice, Quot.sound |
| C98 | `Spine.Bytes.c98_counterexample_error` | propext, Classical.choice, Quot.sound |
| C99 | `Spine.Surrogates.c99_written` | propext, Classical.choice, Quot.sound |
| C99 | `Spine.Surrogates.c99_exact` | propext, Classical.choice, Quot.sound |
| C99 | `Spine.Surrogates.c99_read` | propext, Classical.choice, Quot.sound |
| C99 | `Spine.Surrogates.c99_again` | propext, Classical.choice, Quot.sound |
| C99 | `Spine.Surrogates.c99_distinct` | propext, Classical.choice, Quot.sound |
| C99 | `Spine.Surrogates.c99_ids` | propext, Classical.choice, Quot.sound |
| C99 | `Spine.Surrogates.c99_same_text` | propext, Quot.sound |
| C99 | `Spine.Surrogates.c99_same_string` | propext, Classical.choice, Quot.sound |
| C99 | `Spine.Surrogates.c99_only` | propext, Classical.choice, Quot.sound |
| C99 | `Spine.Surrogates.c99_ascii` | propext, Quot.sound |
| C99 | `Spine.Surrogates.c99_counterexample` | propext |
| C99 | `Spine.Surrogates.c99_fails` | propext, Quot.sound |
| C99 | `Spine.Surrogates.c99_refused` | propext, Classical.choice, Quot.sound |
