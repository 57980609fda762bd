# Axioms of every property theorem

Generated by tools/axioms.py from `#print axioms`.

| theorem | axioms |
|---|---|
| `PP.Props.C01_line_exact` | propext, Classical.choice, Quot.sound |
| `PP.Props.C01_line_of_character` | propext, Classical.choice, Quot.sound |
| `PP.Props.C01_column_of_character` | propext, Classical.choice, Quot.sound |
| `PP.Props.C01_invalid_text_panics` | propext |
| `PP.Props.C01_nul_stops_counting` | propext |
| `PP.Props.C02_locations_increase` | propext, Classical.choice, Quot.sound |
| `PP.Props.C03_shape` | propext, Quot.sound |
| `PP.Props.C03_content` | propext, Classical.choice, Quot.sound |
| `PP.Props.C03_unique` | propext, Classical.choice, Quot.sound |
| `PP.Props.C03_invalid_bytes_are_lost` | propext |
| `PP.Props.C04_text_unambiguous` | propext, Classical.choice, Quot.sound |
| `PP.Props.C04_text_delimited` | propext, Classical.choice, Quot.sound |
| `PP.Props.C04_blank_in_name` | propext |
| `PP.Props.C05_data_rebuilds` | propext |
| `PP.Props.C05_data_injective` | propext |
| `PP.Props.C05_data_shape` | none |
| `PP.Props.C06_asCall_is_call` | propext |
| `PP.Props.C06_asParameters_asCall` | propext |
| `PP.Props.C06_asCall_asCall` | propext |
| `PP.Props.C06_call_inverse` | propext |
| `PP.Props.C06_single_argument` | propext |
| `PP.Props.C07_parsed_toPN` | propext, Classical.choice, Quot.sound |
| `PP.Props.C07_toPN_ok_iff` | propext, Classical.choice, Quot.sound |
| `PP.Props.C08_validated_program_renders` | propext, Classical.choice, Quot.sound |
| `PP.Props.C08_accepted_names_render` | propext, Classical.choice, Quot.sound |
| `PP.Props.C09_allContents_visits_each_descendant_once` | propext, Classical.choice, Quot.sound |
| `PP.Props.C09_enumeration_unique` | propext, Classical.choice, Quot.sound |
| `PP.Props.C10_contents_is_one_level` | propext, Quot.sound |
| `PP.Props.C10_contents_is_filtered_allContents` | propext, Classical.choice, Quot.sound |
| `PP.Props.C11_ok_iff` | propext, Quot.sound |
| `PP.Props.C11_hash_last_entry_wins` | propext, Quot.sound |
| `PP.Props.C11_panics_iff_composite_key` | propext, Quot.sound |
| `PP.Props.C11_ok_iff_shape` | propext, Quot.sound |
| `PP.Props.C11_panic_only_with_composite_key` | propext, Classical.choice, Quot.sound |
| `PP.Props.C11_list_key_panics` | propext |
| `PP.Props.C12_severity` | propext, Quot.sound |
| `PP.Props.C13_off_is_filter` | propext, Quot.sound |
| `PP.Props.C13_warning_same_as_error` | propext, Quot.sound |
| `PP.Props.C13_panic_independent` | propext, Quot.sound |
| `PP.Props.C14_reuse` | propext, Quot.sound |
| `PP.Props.C15_located_in_tree` | propext, Quot.sound |
| `PP.Props.C16_tasks_rejects_catalog_operations` | propext, Classical.choice, Quot.sound |
| `PP.Props.C16_rejected_iff` | propext, Classical.choice, Quot.sound |
| `PP.Props.C16_puppet_never` | propext, Classical.choice, Quot.sound |
| `PP.Props.C17_steps_rejected` | propext, Classical.choice, Quot.sound |
| `PP.Props.C17_workflow_accepts_steps` | propext, Classical.choice, Quot.sound |
| `PP.Props.C18_duplicate_parameters` | propext, Classical.choice, Quot.sound |
| `PP.Props.C18_plan_duplicates_not_reported` | propext |
| `PP.Props.C19_duplicate_defaults` | propext, Classical.choice, Quot.sound |
| `PP.Props.C20_duplicate_keys` | propext, Classical.choice, Quot.sound |
| `PP.Props.C20_string_and_regexp_conflated` | propext, Classical.choice, Quot.sound |
| `PP.Props.C21_reported_at` | propext, Classical.choice, Quot.sound |
| `PP.Props.C21_reported_iff` | propext, Quot.sound |
| `PP.Props.C21_no_effect` | propext, Classical.choice, Quot.sound |
| `PP.Props.C21_effect_reported_as_forgotten` | propext |
| `PP.Props.C22_not_top_level` | propext, Classical.choice, Quot.sound |
| `PP.Props.C22_not_absolute_top_level` | propext, Classical.choice, Quot.sound |
| `PP.Props.C23_captures_rest_not_last` | propext, Classical.choice, Quot.sound |
| `PP.Props.C23_captures_rest_not_supported` | propext, Classical.choice, Quot.sound |
| `PP.Props.C24_panics_only_on_hash_keys` | propext, Classical.choice, Quot.sound |
| `PP.Props.C24_validation_returns` | propext, Classical.choice, Quot.sound |
| `PP.Props.C24_nested_composite_key_panics` | propext, Quot.sound |
| `PP.Props.C24_panics_occur` | propext |
| `PP.Props.C25_index_targets` | propext, Classical.choice, Quot.sound |
| `PP.Props.C25_qualified_targets` | propext, Classical.choice, Quot.sound |
| `PP.Props.C25_numeric_targets` | propext, Classical.choice, Quot.sound |
| `PP.Props.C26_parse_terminates` | propext, Classical.choice, Quot.sound |
| `PP.Props.C26_depth_irrelevant` | propext, Classical.choice, Quot.sound |
| `PP.Props.C27_panics` | propext, Classical.choice, Quot.sound |
| `PP.Props.C27_value_or_error` | propext, Classical.choice, Quot.sound |
| `PP.Props.C27_panics_occur` | propext |
| `PP.Props.C28_nothing_left` | propext, Classical.choice, Quot.sound |
| `PP.Props.C28_programs` | propext, Classical.choice, Quot.sound |
| `PP.Props.C28_expressions` | propext, Classical.choice, Quot.sound |
| `PP.Props.C28_violated` | propext |
| `PP.Props.C29_ranges` | propext, Classical.choice, Quot.sound |
| `PP.Props.C29_definitions` | propext, Classical.choice, Quot.sound |
| `PP.Props.C29_string_is_in_bounds` | propext, Classical.choice, Quot.sound |
| `PP.Props.C29_starts_before_parts` | propext, Classical.choice, Quot.sound |
| `PP.Props.C29_ends_after_parts` | propext, Classical.choice, Quot.sound |
| `PP.Props.C29_program` | propext, Quot.sound |
| `PP.Props.C29_offsets` | propext, Classical.choice, Quot.sound |
| `PP.Props.C29_violated_by_heredoc` | propext |
| `PP.Props.C29_violated_by_workflow` | propext, Quot.sound |
| `PP.Props.C29_block_starts_late` | propext |
| `PP.Props.C29_block_starts_after_statement` | propext |
| `PP.Props.C29_mapping_starts_late` | propext |
| `PP.Props.C29_entry_starts_late` | propext |
| `PP.Props.C29_option_starts_late` | propext |
| `PP.Props.C29_interpolation` | propext |
| `PP.Props.C30_error_location` | propext, Classical.choice, Quot.sound |
| `PP.Props.C31_options_gate` | propext, Classical.choice, Quot.sound |
| `PP.Props.C31_options_gate_definitions` | propext, Classical.choice, Quot.sound |
| `PP.Props.C32_definitions_complete` | propext, Classical.choice, Quot.sound |
| `PP.Props.C32_definitions_complete_puppet` | propext, Classical.choice, Quot.sound |
| `PP.Props.C32_definitions_listed_twice` | propext |
| `PP.Props.C33_names` | propext, Quot.sound |
| `PP.Props.C33_listed_names` | propext, Classical.choice, Quot.sound |
| `PP.Props.C33_classes_in_classes` | propext, Quot.sound |
| `PP.Props.C33_example` | propext |
| `PP.Props.C33_violated_in_string` | propext |
| `PP.Props.C33_names_balanced` | propext, Classical.choice, Quot.sound |
| `PP.Props.C34_whole_source` | propext, Classical.choice, Quot.sound |
| `PP.Props.C34_single_whole_source` | propext, Classical.choice, Quot.sound |
| `PP.Props.C35_operators` | propext, Classical.choice, Quot.sound |
| `PP.Props.C36_decimal_token` | propext, Classical.choice, Quot.sound |
| `PP.Props.C36_hexadecimal_token` | propext, Classical.choice, Quot.sound |
| `PP.Props.C36_octal_token` | propext, Classical.choice, Quot.sound |
| `PP.Props.C36_decimal_literal` | propext, Classical.choice, Quot.sound |
| `PP.Props.C36_hexadecimal_literal` | propext, Classical.choice, Quot.sound |
| `PP.Props.C36_octal_literal` | propext, Classical.choice, Quot.sound |
| `PP.Props.C36_printed_number` | propext, Classical.choice, Quot.sound |
| `PP.Props.C36_sign_swallowed` | propext, Classical.choice, Quot.sound |
| `PP.Props.C36_sign_after_digit` | propext |
| `PP.Props.C37_token` | propext, Classical.choice, Quot.sound |
| `PP.Props.C37_literal` | propext, Classical.choice, Quot.sound |
| `PP.Props.C37_round_trip` | propext, Classical.choice, Quot.sound |
| `PP.Props.C38_token` | propext, Classical.choice, Quot.sound |
| `PP.Props.C38_literal` | propext, Classical.choice, Quot.sound |
| `PP.Props.C38_round_trip` | propext, Classical.choice, Quot.sound |
| `PP.Props.C39_text` | propext, Classical.choice, Quot.sound |
| `PP.Props.C39_after` | propext, Classical.choice, Quot.sound |
| `PP.Props.C39_verbatim` | propext, Classical.choice, Quot.sound |
| `PP.Props.C40_skip_white` | propext, Classical.choice, Quot.sound |
| `PP.Props.C40_bracket` | propext, Classical.choice, Quot.sound |
| `PP.Props.C40_paren` | propext, Classical.choice, Quot.sound |
| `PP.Props.C41_one_line` | propext, Classical.choice, Quot.sound |
| `PP.Props.C41_first_line` | propext, Classical.choice, Quot.sound |
| `PP.Props.C41_violated` | propext, Classical.choice, Quot.sound |
| `PP.Props.C42_heredoc` | propext, Classical.choice, Quot.sound |
| `PP.Props.C42_verbatim` | propext, Quot.sound |
| `PP.Props.C42_violated_dash` | propext |
| `PP.Props.C42_violated_bar` | propext |
| `PP.Props.C42_violated_slash` | propext |
| `PP.Props.C42_violated_divide` | propext |
| `PP.Props.C42_violated_pipe` | propext |
| `PP.Props.C42_interpolated` | propext, Classical.choice, Quot.sound |
| `PP.Props.C42_interpolated_programs` | propext, Classical.choice, Quot.sound |
| `PP.Props.C43_well_formed` | propext, Classical.choice, Quot.sound |
| `PP.Props.C43_definitions_well_formed` | propext, Classical.choice, Quot.sound |
| `PP.Props.C44_gathered` | propext, Quot.sound |
| `PP.Props.C44_only` | propext, Quot.sound |
| `PP.Props.C44_no_pair` | propext, Classical.choice, Quot.sound |
| `PP.Props.C45_statements` | propext, Quot.sound |
| `PP.Props.C45_accepts` | propext, Quot.sound |
| `PP.Props.C45_rejects` | propext, Quot.sound |
| `PP.Props.C45_blocks` | propext, Classical.choice, Quot.sound |
| `PP.Props.C46_exit_status` | propext, Quot.sound |
| `PP.Props.C46_ast_printed` | propext, Quot.sound |
| `PP.Props.C46_issues_shown` | propext, Quot.sound |
| `PP.Props.C47_progress` | propext, Classical.choice, Quot.sound |
| `PP.Props.C47_bounds` | propext, Classical.choice, Quot.sound |
| `PP.Props.C47_finite` | propext, Classical.choice, Quot.sound |
| `PP.Props.C47_outcome` | propext, Classical.choice, Quot.sound |
| `PP.Props.C48_word` | propext, Classical.choice, Quot.sound |
| `PP.Props.C48_type_name` | propext, Classical.choice, Quot.sound |
| `PP.Props.C48_variable` | propext, Classical.choice, Quot.sound |
| `PP.Props.C48_bad_segment` | propext, Classical.choice, Quot.sound |
| `PP.Props.C48_qualified_not_keyword` | propext, Quot.sound |
| `PP.Props.C49_round_trip` | none |
| `PP.Props.C49_strict_iff` | propext, Classical.choice, Quot.sound |
| `PP.Props.C49_panics_iff` | propext, Classical.choice, Quot.sound |
| `PP.Props.C50_left_operand` | propext, Classical.choice, Quot.sound |
| `PP.Props.C51_programs` | propext, Classical.choice, Quot.sound |
| `PP.Props.C51_expressions` | propext, Classical.choice, Quot.sound |
| `PP.Props.C51_unambiguous` | propext, Classical.choice, Quot.sound |
| `PP.Props.C52_layout` | propext, Classical.choice, Quot.sound |
| `PP.Props.C53_parts` | propext, Classical.choice, Quot.sound |
| `PP.Props.C53_text` | propext, Classical.choice, Quot.sound |
| `PP.Props.C54_heredoc_text` | propext, Classical.choice, Quot.sound |
| `PP.Props.C54_heredoc_text_source` | propext, Classical.choice, Quot.sound |
| `PP.Props.C54_heredoc` | propext, Classical.choice, Quot.sound |
| `PP.Props.C54_heredoc_source` | propext, Classical.choice, Quot.sound |
| `PP.Props.C54_rejected` | propext, Classical.choice, Quot.sound |
| `PP.Props.C54_accepted` | propext, Classical.choice, Quot.sound |
| `PP.Props.C54_only` | propext, Classical.choice, Quot.sound |
| `PP.Props.C54_every_text` | propext, Classical.choice, Quot.sound |
| `PP.Props.C54_source` | propext, Classical.choice, Quot.sound |
| `PP.Props.C54_character_classes` | propext, Classical.choice, Quot.sound |
| `PP.Props.C55_programs` | propext, Classical.choice, Quot.sound |
| `PP.Props.C55_expressions` | propext, Classical.choice, Quot.sound |
| `PP.Props.C55_after_expression` | propext, Classical.choice, Quot.sound |
| `PP.Props.C55_not_a_program` | propext, Classical.choice, Quot.sound |
| `PP.Props.C55_one_error` | propext, Classical.choice, Quot.sound |
| `PP.Props.C55_title_is_dropped` | propext |
| `PP.Props.C56_step` | propext, Classical.choice, Quot.sound |
| `PP.Props.C56_workflow` | propext, Classical.choice, Quot.sound |
| `PP.Props.C56_style_word_repeats` | propext |
| `PP.Props.C56_dropped_parameters` | propext |
| `PP.Props.C56_deferred_loses` | propext |
| `PP.Props.C57_templates` | propext, Classical.choice, Quot.sound |
| `PP.Props.C57_single` | propext, Classical.choice, Quot.sound |
| `PP.Props.C57_unambiguous` | propext, Classical.choice, Quot.sound |
| `PP.Props.C57_layout` | propext, Classical.choice, Quot.sound |
| `PP.Props.C57_no_assignment` | propext |
| `PP.Props.C57_text_as_comment` | propext |
| `PP.Props.C57_text_is_operand` | propext |
| `PP.Props.C57_heredoc_twice` | propext |
| `PP.Props.C57_nested_tag` | propext |
| `PP.Props.C58_starts` | propext, Classical.choice, Quot.sound |
| `PP.Props.C58_definitions` | propext, Classical.choice, Quot.sound |
| `PP.Props.C59_values` | propext, Quot.sound |
| `PP.Props.C59_keys` | propext, Quot.sound |
| `PP.Props.C59_complete` | propext, Quot.sound |
| `PP.Props.C59_captures_rest_lacks_its_name` | propext, Quot.sound |
| `PP.Props.C59_labels` | propext |
| `PP.Props.C59_formats` | propext, Quot.sound |
| `PP.Props.C59_label_words` | propext |
| `PP.Props.C60_pn_roundtrip` | propext, Classical.choice, Quot.sound |
| `PP.Props.C60_pn_fails_iff` | propext, Classical.choice, Quot.sound |
| `PP.Props.C60_pn_lossless` | propext, Classical.choice, Quot.sound |
| `PP.Props.C60_output` | propext, Classical.choice, Quot.sound |
| `PP.Props.C60_panics_iff` | propext, Classical.choice, Quot.sound |
| `PP.Props.C60_codes` | none |
| `PP.Props.C60_ast_lossless` | propext, Classical.choice, Quot.sound |
| `PP.Props.C61_printed_ast` | propext, Classical.choice, Quot.sound |
| `PP.Props.C61_printed_tree` | propext, Classical.choice, Quot.sound |
| `PP.Props.C61_printed_text` | propext, Classical.choice, Quot.sound |
| `PP.Props.C61_text_conditions` | propext, Classical.choice, Quot.sound |
| `PP.Props.C61_text` | propext, Classical.choice, Quot.sound |
| `PP.Props.C62_utf8` | propext, Classical.choice, Quot.sound |
| `PP.Props.C62_again` | propext, Classical.choice, Quot.sound |
| `PP.Props.C62_new` | propext, Classical.choice, Quot.sound |
| `PP.Props.C62_hex_escape` | propext, Classical.choice, Quot.sound |
| `PP.Props.C63_more_unfolds` | propext, Classical.choice, Quot.sound |
| `PP.Props.C63_no_value` | propext, Classical.choice, Quot.sound |
| `PP.Props.C63_reserved_words` | propext, Classical.choice, Quot.sound |
| `PP.Props.C63_appends_deletes` | propext, Classical.choice, Quot.sound |
| `PP.Props.C63_queries` | propext, Classical.choice, Quot.sound |
| `PP.Props.C63_virtual` | propext, Classical.choice, Quot.sound |
| `PP.Props.C63_appended_attributes` | propext, Classical.choice, Quot.sound |
| `PP.Props.C63_misplaced_unfolds` | propext, Classical.choice, Quot.sound |
| `PP.Props.C63_numeric_parameters` | propext, Classical.choice, Quot.sound |
| `PP.Props.C63_parameter_names` | propext, Classical.choice, Quot.sound |
| `PP.Props.C63_assigning_defaults` | propext, Classical.choice, Quot.sound |
| `PP.Props.C63_unmappable` | propext, Classical.choice, Quot.sound |
| `PP.Props.C63_single_mappings` | propext, Classical.choice, Quot.sound |
| `PP.Props.C63_pattern_mappings` | propext, Classical.choice, Quot.sound |
| `PP.Props.C63_definition_names` | propext, Classical.choice, Quot.sound |
| `PP.Props.C63_type_names` | propext, Classical.choice, Quot.sound |
| `PP.Props.C63_future_words` | propext, Classical.choice, Quot.sound |
| `PP.Props.C63_value_last` | propext, Classical.choice, Quot.sound |
| `PP.Props.C63_reserved_parameters` | propext, Classical.choice, Quot.sound |
| `PP.Props.C63_host_names` | propext, Classical.choice, Quot.sound |
| `PP.Props.C63_computed_hosts` | propext, Classical.choice, Quot.sound |
| `PP.Props.C63_capabilities` | propext, Classical.choice, Quot.sound |
| `PP.Props.C63_wrong_kind` | propext, Classical.choice, Quot.sound |
| `PP.Props.C64_gravity` | propext, Quot.sound |
| `PP.Props.C64_issues` | propext, Classical.choice, Quot.sound |
| `PP.Props.C64_issue_iff` | propext, Classical.choice, Quot.sound |
| `PP.Props.C64_accepted_iff` | propext, Classical.choice, Quot.sound |
| `PP.Props.C64_rejected_iff` | propext, Classical.choice, Quot.sound |
| `PP.Props.C64_tool` | propext, Classical.choice, Quot.sound |
