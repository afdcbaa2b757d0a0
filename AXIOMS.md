# Axioms of the property theorems

As printed by `#print axioms` for every theorem of MANIFEST.json, without their namespaces.

## none (2)

`c42_shape_lost`, `c52_copy`

## propext (9)

`c27_already_unwrapped`, `c47_log`, `c52_map_keys`, `c72_unchanged`, `c72_messages`, `c72_only`, `c72_idempotent`, `c72_context_lost`, `c72_others_lost`

## Quot.sound, propext (28)

`c02_number_validate`, `c02_integer_enum_never_matches`, `c03_string_validate`, `c03_file_validate`, `c04_boolean_validate`, `c04_nil_validate`, `c04_any_validate`, `c04_time_validate`, `c11_recursive_as_head`, `c11_self_union_diverges`, `c21_enum_subset`, `c21_enum_sound`, `c21_composite_panics`, `c19_union_ignores_parent`, `c37_first_fragment`, `c42_sequential_shapes`, `c47_last_decides`, `c47_failure_is_real`, `c47_single`, `c47_invalid_ignored`, `c32_parser_exact`, `c32_unambiguous`, `c46_linked_examples_ignored`, `c52_map_entries`, `c71_number_shared`, `c71_empty_map_shared`, `c74_all_types_asked`, `c83_follows`

## Classical.choice, propext (1)

`c71_depends`

## Classical.choice, Quot.sound, propext (307)

`c01_integer_validate`, `c01_other_kinds_rejected`, `c01_float_overflow`, `c04_datetime_validate`, `c05_array_validate`, `c05_array_reject`, `c06_duplicate_never_accepted`, `c06_distinct_accepted`, `c06_unique_items`, `c07_object_validate`, `c07_object_sound`, `c07_declared_priority`, `c08_pattern_rule`, `c09_map_order`, `c10_union_validate`, `c10_union_order`, `c11_validation_total`, `c11_guarded_terminates`, `c12_integer_narrows`, `c12_integer_fails_iff`, `c13_number_narrows`, `c13_nan_bound_widens`, `c14_string_narrows`, `c14_pattern_widens`, `c14_file_narrows`, `c15_boolean_narrows`, `c15_plain_narrows`, `c15_datetime_narrows`, `c15_datetime_default_widens`, `c15_kinds_cannot_mix`, `c15_unknown_recursive_refused`, `c23_clone_terminates`, `c23_cloneDetached_terminates`, `c24_clone_fresh`, `c24_clone_disjoint`, `c24_clone_independent`, `c24_recursive_head_shared`, `c25_clone_isomorphic`, `c25_clone_same_validation`, `c25_duplicate_ids_merge`, `c16_inherit_narrows`, `c16_others_unchanged`, `c16_reopened_widens`, `c16_new_property_in_closed_parent_widens`, `c16_redeclared_pattern_widens`, `c16_new_property_under_pattern_widens`, `c16_in_files`, `c17_required_kept`, `c17_required_enforced`, `c17_failure_reasons`, `c17_nothing_removed`, `c18_union_members`, `c18_scalar_union_narrows`, `c18_failed_member_spoils_next`, `c18_in_files`, `c19_union_target_widens`, `c19_in_files`, `c20_any_parent_second_child`, `c20_union_parent_second_child`, `c20_after_failure`, `c20_second_child_widens`, `c20_scalar_parent_independent`, `c20_second_child_narrows`, `c20_in_files`, `c22_check_sound`, `c22_check_decides`, `c22_bounds_and_closed`, `c26_alias_same_values`, `c26_alias_succeeds`, `c26_unwrap_alias`, `c26_boolean_enum_dropped`, `c27_marked`, `c27_second_call`, `c27_union_parent_differs`, `c28_multiple_inheritance_changes_parent`, `c28_single_parent`, `c28_in_files`, `c29_recursive_occurrence_misses_facet`, `c30_marking_terminates`, `c30_no_infinite_path`, `c30_values_unchanged`, `c30_acyclic_unchanged`, `c30_check_after_marking`, `c30_own_facet_diverges`, `c31_inferred_type`, `c31_order_irrelevant`, `c31_default_string`, `c35_cut_last`, `c35_reference_name`, `c35_round_trip`, `c36_library_lookup`, `c36_library_lookup_fails`, `c36_data_type_lookup`, `c37_last_type`, `c37_last_annotation_type`, `c40_histories`, `c40_run`, `c40_all_run`, `c40_same_code`, `c41_self_removal`, `c41_skipped_and_repeated`, `c42_ids_distinct`, `c42_ids_increasing`, `c43_property`, `c43_pattern`, `c43_collision`, `c43_annotation_key`, `c55_fragment_kind`, `c55_check_kind`, `c55_no_newline`, `c32_round_trip`, `c32_accepted_is_tree`, `c32_blanks`, `c32_outer_blanks`, `c53_value_has_structure`, `c53_value_iff_readable`, `c53_alias_rejected`, `c53_nested_include_rejected`, `c53_value_terminates`, `c53_brace_is_json`, `c53_root_include_nests`, `c54_detailed_example`, `c54_plain_example`, `c45_facets_decided`, `c45_commons_decided`, `c45_nearer_declaration_ignored`, `c46_examples_decided`, `c46_bad_value_found`, `c44_verdict`, `c44_no_panic`, `c44_again`, `c44_after_unwrap`, `c44_annotations_declared`, `c44_runtime_model`, `c44_files`, `c44_library_read_twice`, `c44_unwrapped_model`, `c48_refs_resolve`, `c48_embedded_dangles`, `c49_object_schema`, `c50_same_values`, `c50_validation_agrees`, `c50_schema_accepts`, `c50_length_differs`, `c50_fraction_differs`, `c50_number_enum_differs`, `c50_multipleOf_differs`, `c50_closed_pattern_differs`, `c50_two_patterns_differ`, `c50_declared_pattern_differs`, `c51_distinct_names`, `c51_name_taken`, `c51_collision`, `c56_conversion_succeeds`, `c56_not_unwrapped`, `c56_declared_types_convert`, `c56_no_media_types`, `c57_no_wrapper`, `c57_no_wrapper_panics`, `c52_map_determines`, `c38_libraries_end`, `c38_each_file_once`, `c38_uses_linked`, `c38_registered`, `c38_entry`, `c38_violated`, `c39_decoding_ends`, `c39_include_cycle_diverges`, `c58_all_resolved`, `c59_well_formed`, `c59_unique_ids`, `c33_laid_out`, `c33_meaning`, `c60_annotations_linked`, `c34_resolution_ends`, `c34_cycle_diverges`, `c34_self_reference`, `c61_panics`, `c61_no_panic`, `c61_model_kept`, `c61_list_enum_panics`, `c62_after_unwrap`, `c62_left_visited`, `c62_annotation_type_lost`, `c63_libraries`, `c63_dataTypes`, `c63_namedExamples`, `c63_entry`, `c63_declared`, `c63_keyword`, `c63_string`, `c64_no_panic`, `c64_unlinked_panics`, `c64_declaration_panics`, `c64_document_panics`, `c64_kind_panics`, `c65_unchanged`, `c65_same_values`, `c65_shapes_grow`, `c66_restrictions_add_up`, `c66_pattern_replaced`, `c66_boolean_alias`, `c67_share_nothing`, `c67_shared_after_unwrapping`, `c68_more_files`, `c68_more_files_string`, `c68_string_like_file`, `c68_file_like_string`, `c68_stale_include`, `c68_bounds`, `c69_unwrapping_keeps_meaning`, `c69_order_does_not_matter`, `c69_means_unfolds`, `c69_recursive_heir_loses_restrictions`, `c69_declaration_order`, `c70_keyword_in_parentheses`, `c70_union`, `c70_facets_ignored`, `c71_copy`, `c71_edit_copy`, `c71_edit_original`, `c71_one_schema`, `c71_cycle_diverges`, `c73_schema_means`, `c73_schema_accepts`, `c73_schema_exists`, `c74_watching`, `c74_same_result`, `c74_no_error_lost`, `c74_declaration_rejected`, `c74_error_lost_in_union`, `c75_result_narrows`, `c75_in_files`, `c75_items_in_files`, `c76_parsing_ends`, `c76_endless_parsing`, `c76_parsing_path_ends`, `c76_result_unique`, `c77_unwraps`, `c77_ends`, `c77_annotation_types`, `c77_internal_error`, `c78_validates`, `c78_answers`, `c78_files`, `c78_ends`, `c78_self_union`, `c79_ends`, `c79_answers`, `c79_one_ends`, `c79_parse_ends`, `c79_marking_ends`, `c80_lineage_ends`, `c80_no_own_ancestor`, `c80_ancestors_resolved`, `c80_rooted`, `c81_left_visited`, `c81_rooted`, `c81_components`, `c81_validates`, `c81_answers`, `c82_own_kept`, `c82_names`, `c82_data_types`, `c82_same_type`, `c82_heir_lost`, `c83_copy`, `c83_edit_copy`, `c83_edit_original`, `c83_definition_shared`, `c84_nothing_left`, `c84_unread`, `c84_share_nothing`, `c84_unwrapping_ends`, `c84_all_resolved`, `c84_well_formed`, `c84_annotations_linked`, `c84_as_in_files`, `c84_lineage`, `c84_earlier_kept`, `c84_unwrap`, `c84_after_unwrap`, `c84_declared_names`, `c84_validates`, `c84_second_call_succeeds`, `c84_error_hidden`, `c84_error_stays`, `c84_read_again`, `c84_read_again_unwrapped`, `c84_unwrapped_before`, `c85_model_kept`, `c85_succeeds`, `c85_types_forgotten`, `c85_types_gone`, `c85_panics`, `c86_names_kept`, `c86_names_kept_single`, `c86_names_kept_validation`, `c86_names_kept_parsing`, `c86_annotations`, `c86_unwrapped_again`, `c86_annotations_kept`, `c86_type_exchanged`, `c87_paths_once`, `c87_fragments_stay`, `c87_fragments_stay_with`, `c87_fragments_same`
