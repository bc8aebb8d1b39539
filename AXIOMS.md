# Axioms of the theorems in MANIFEST.json

As printed by `#print axioms` (written by `tools/axioms.py`).

## Classical.choice, Quot.sound, propext

* `Props.C03_resolve_walk`
* `Props.C03_resolve_exact`
* `Props.C03_reach_functional`
* `Props.C03_resolve_is_walk`
* `Props.C04_default`
* `Props.C05_set_get`
* `Props.C05_set_total`
* `Props.C05_set_dash_appends`
* `Props.C05_set_get_refuted_negative`
* `Props.C08_exact`
* `Props.C08_relative`
* `Props.C08_absolute_partial`
* `Props.C08_absolute_refuted`
* `Props.C08_agrees_with_pointer`
* `Props.C09_join_normal`
* `Props.C09_dot_iff`
* `Props.C09_absolute_no_dotdot`
* `Props.C10_join_is_walk`
* `Props.C10_join_batches`
* `Props.C10_join_idempotent`
* `Props.C10_root_resets`
* `Props.C10_dotdot_cancels`
* `Props.C10_dot_disappears`
* `Props.C12_merge_idempotent`
* `Props.C13_alias_agrees`
* `Props.C13_none_iff`
* `Props.C16_map_path_walks`
* `Props.C16_map_path_walks_from_root_alias`
* `Props.C16_unmapped_identity_partial`
* `Props.C16_no_alias_identity_partial`
* `Props.C16_escaped_refuted`
* `Props.C16_slash_refuted`
* `Props.C17_map_through`
* `Props.C17_rename`
* `Props.C17_relocate_root`
* `Props.C17_others_unchanged`
* `Props.C18_folder_refuted`
* `Props.C18_folder_partial`
* `Props.C19_paths_are_maximal`
* `Props.C19_dots_refuted`
* `Props.C20_reread_partial`
* `Props.C20_empty_refuted`
* `Props.C21_texts_are_fixed`
* `Props.C21_locks_hold_partial`
* `Props.C21_locked_renamed_refuted`
* `Props.C21_locked_moved_refuted`
* `Props.C22_mappings_kept_partial`
* `Props.C22_reading_keeps`
* `Props.C22_renaming_refuted`
* `Props.C23_tags`
* `Props.C24_step_paths_are_mapped_paths`
* `Props.C24_other_aliases_refuted`
* `Props.C25_text_over_list_refuted`
* `Props.C28_merge_reads`
* `Props.C28_merge_all_reads`
* `Props.C28_prevalidation_refuted`
* `Props.C28_validation_refuted`
* `Props.C29_effect`
* `Props.C29_again_partial`
* `Props.C29_again_exact`
* `Props.C29_again_refuted`
* `Props.C29_schema_flag_refuted`
* `Props.C29_nullable_refuted`
* `Props.C29_installed`
* `Props.C29_not_installed`
* `Props.C30_error`
* `Props.C30_empty_pattern_refuted`
* `Props.C31_letters_value`
* `Props.C31_number_round_trip`
* `Props.C31_letters_round_trip`
* `Props.C31_colName_injective`
* `Props.C31_row_round_trip`
* `Props.C31_cell_round_trip`
* `Props.C31_cell_of`
* `Props.C32_specials`
* `Props.C32_special_cells`
* `Props.C32_letters`
* `Props.C32_row_rejects`
* `Props.C32_col_rejects`
* `Props.C32_never_negative_refuted`
* `Props.C32_negative_exact`
* `Props.C33_first_full`
* `Props.C33_fails_iff_none`
* `Props.C34_one_move`
* `Props.C34_two_moves`
* `Props.C34_order_irrelevant`
* `Props.C34_not_full_fails`
* `Props.C35_unlimited_least`
* `Props.C35_unlimited_terminates`
* `Props.C35_order_irrelevant`
* `Props.C35_other_sides_stay`
* `Props.C36_exact_rounds`
* `Props.C36_limited_bounds`
* `Props.C36_sequence_grows`
* `Props.C37_ordered`
* `Props.C37_two_plain_cells`
* `Props.C37_corner_order`
* `Props.C37_other_corners`
* `Props.C37_first_edge`
* `Props.C37_second_edge`
* `Props.C38_margins_bound`
* `Props.C38_margins_attained`
* `Props.C38_lower_margin_ok`
* `Props.C38_xlrd_margins`
* `Props.C39_array_rect`
* `Props.C40_reads`
* `Props.C40_reading_exists`
* `Props.C40_rejects`
* `Props.C40_newline_refuted`
* `Props.C41_round_trip`
* `Props.C41_round_trip_filters`
* `Props.C41_bad_json`
* `Props.C41_bang_in_filters_refuted`
* `Props.C42_same_verdict`
* `Props.C42_same_edges`
* `Props.C42_no_filters`
* `Props.C42_filters`
* `Props.C43_no_colon`
* `Props.C43_missing_first`
* `Props.C43_missing_second`
* `Props.C43_empty`
* `Props.C44_accepted_iff`
* `Props.C44_unique`
* `Props.C44_otherwise_valueError`
* `Props.C45_parse_partial`
* `Props.C45_encased_refuted`
* `Props.C45_witness_refuted`
* `Props.C45_colon_refuted`
* `Props.C46_lookup`
* `Props.C46_fetched`
* `Props.C46_close`
* `Props.C47_twice`
* `Props.C47_history`
* `Props.C47_sibling`
* `Props.C48_frame_partial`
* `Props.C48_default_refuted`
* `Props.C49_winner`
* `Props.C49_none`
* `Props.C50_success`
* `Props.C50_strict_partial`
* `Props.C50_lax_partial`
* `Props.C50_lax_not_lasso_refuted`
* `Props.C50_verbose_refuted`
* `Props.C51_composition`
* `Props.C51_append`
* `Props.C51_failure_stops`
* `Props.C52_base_partial`
* `Props.C52_reference_partial`
* `Props.C52_override_refuted`
* `Props.C53_only_values`
* `Props.C53_first`
* `Props.C53_processed_partial`
* `Props.C53_frame`
* `Props.C53_success`
* `Props.C53_failure`
* `Props.C53_lax_refuted`
* `Props.C53_positions_no_pandas`
* `Props.C54_values_partial`
* `Props.C54_exact`
* `Props.C54_numbers`
* `Props.C54_texts`
* `Props.C54_mixed_refuted`
* `Props.C54_transpose`
* `Props.C54_transpose_then_dims`
* `Props.C54_dims`
* `Props.C54_deeper_refuted`
* `Props.C54_xlwings_partial`
* `Props.C54_choice`
* `Props.C54_irregular`
* `Props.C55_unique_filename`
* `Props.C55_sound`
* `Props.C56_ends`
* `Props.C56_idempotent_partial`
* `Props.C56_inner_dot_refuted`
* `Props.C56_folder_refuted`
* `Props.C56_regex_refuted`
* `Props.C58_text`
* `Props.C58_true_words`
* `Props.C58_not_text`
* `Props.C58_lenient`
* `Props.C59_parse_partial`
* `Props.C59_parenthesis_refuted`
* `Props.C60_history_does_not_matter`
* `Props.C60_rebuilding_repeats`
* `Props.C60_inputs_are_what_is_read`
* `Props.C60_mapped_inputs`
* `Props.C60_assembly_union`
* `Props.C60_assembly_of_parts`
* `Props.C60_any_order`
* `Props.C60_empty_name_refuted`
* `Props.C61_payload_partial`
* `Props.C61_ascii`
* `Props.C61_object_partial`
* `Props.C61_mixed_refuted`
* `Props.C62_paths`
* `Props.C62_written_exact`
* `Props.C62_pointers_partial`
* `Props.C62_slash_refuted`
* `Props.C63_excel_file`
* `Props.C63_bid`
* `Props.C64_index`
* `Props.C64_name`
* `Props.C65_block`
* `Props.C65_cell`
* `Props.C67_errors_partial`
* `Props.C67_two_edges_partial`
* `Props.C67_not_a_reference`
* `Props.C67_empty_capture`
* `Props.C67_one_edge_refuted`
* `Props.C68_context`
* `Props.C68_fetches_what_is_written`
* `Props.C69_refuted`
* `Props.C70_letters`
* `Props.C70_idempotent`
* `Props.C74_references_replaced_partial`
* `Props.C74_first`
* `Props.C74_others_kept`
* `Props.C74_failures_reported`
* `Props.C74_no_other_failure`
* `Props.C74_lax_refuted`
* `Props.C75_errors`
* `Props.C75_syntax_error_iff`
* `Props.C75_read_was_written`
* `Props.C75_coordinates`
* `Props.C76_parts`
* `Props.C76_bad_filters`
* `Props.C76_needs_hash`
* `Props.C76_needs_fragment`
* `Props.C77_tagged_paths`
* `Props.C77_tagged_mapped_paths`
* `Props.C78_assign_text`
* `Props.C78_renaming_succeeds`
* `Props.C78_assign_step`
* `Props.C78_placing_succeeds`
* `Props.C78_failed_assignment`
* `Props.C78_paths_reported`
* `Props.C78_rename_paths`
* `Props.C78_place_paths`
* `Props.C78_empty_step_refuted`
* `Props.C78_ancestor_refuted`
* `Props.C78_self_refuted`
* `Props.C79_opens_meant_partial`
* `Props.C79_long_path_refuted`
* `Props.C79_special_characters_refuted`
* `Props.C80_file_url_opens_partial`
* `Props.C80_any_encoding_partial`
* `Props.C80_long_url_refuted`
* `Props.C81_url_stable_partial`
* `Props.C81_url_stable_refuted`
* `Props.C82_remote_unchanged_partial`
* `Props.C82_remote_refuted`
* `Props.C83_all_closed_partial`
* `Props.C83_one_sheet_partial`
* `Props.C83_workbook_refuted`
* `Props.C84_given_factory`
* `Props.C84_given_sheet_partial`
* `Props.C84_sibling_refuted`
* `Props.C85_default_opts`
* `Props.C85_base_opts_partial`
* `Props.C85_nothing_given_partial`
* `Props.C85_base_opts_refuted`
* `Props.C85_filters_refuted`
* `Props.C86_captures`
* `Props.C86_lasso_call`
* `Props.C86_as_ranger`
* `Props.C86_returns`
* `Props.C86_xlrd_plain`
* `Props.C87_array_table`
* `Props.C87_xlrd_table`
* `Props.C88_array_all`
* `Props.C88_xlrd_all_partial`
* `Props.C88_xlrd_refuted`
* `Props.C89_document`
* `Props.C90_verdict_partial`
* `Props.C90_again_partial`
* `Props.C90_same_verdict_partial`
* `Props.C90_order_refuted`
* `Props.C90_built_partial`
* `Props.C91_enum_partial`
* `Props.C91_exact`
* `Props.C92_shared_refuted`
* `Props.C93_cells_partial`
* `Props.C93_refused`
* `Props.C93_no_table`
* `Props.C93_no_effect`
* `Props.C93_skiprows_refuted`
* `Props.C93_letters_refuted`
* `Props.C93_empty_refuted`
* `Props.C93_in_place_refuted`
* `Props.C94_evaluated_partial`
* `Props.C94_first`
* `Props.C94_others_kept`
* `Props.C94_eval_all`
* `Props.C94_no_other_failure`
* `Props.C94_only_values`
* `Props.C94_lax_refuted`
* `Props.C95_states_same`
* `Props.C95_margins_same`
* `Props.C95_states_true`
* `Props.C95_margins_true`
* `Props.C95_unchanged`
* `Props.C95_margins_fit`
* `Props.C96_exact`
* `Props.C96_many_refuted`
* `Props.C97_lines`
* `Props.C97_told_partial`
* `Props.C97_ambiguous_refuted`
* `Props.C98_found`
* `Props.C98_exact`
* `Props.C98_which_partial`
* `Props.C98_command`
* `Props.C98_no_path`
* `Props.C98_endings_refuted`
* `Props.C98_current_folder_refuted`
* `Props.C99_every_branch`
* `Props.C99_pairs`
* `Props.C99_rebuilt_partial`
* `Props.C99_dots_refuted`
* `Props.C99_assigned_refuted`
* `Props.C100_rows_partial`
* `Props.C100_nested_refuted`
* `Props.C100_method_refuted`
* `Props.C100_blank_refuted`
* `Props.C101_stages_partial`
* `Props.C101_one_lasso`
* `Props.C101_fresh`
* `Props.C101_result`
* `Props.C101_pipe`
* `Props.C101_filtered_refuted`
* `Props.C101_text_refuted`
* `Props.C102_order`
* `Props.C103_imported_partial`
* `Props.C103_atomic`
* `Props.C103_refused`
* `Props.C103_same_name_refuted`
* `Props.C103_lost_refuted`
* `Props.C104_named`
* `Props.C104_in_place`
* `Props.C104_unsaved`
* `Props.C104_copied`
* `Props.C104_empty_refuted`
* `Props.C104_html_refuted`
* `Props.C105_alerts_partial`
* `Props.C105_alerts_refuted`
* `Props.C106_named_refuted`
* `Props.C107_command`
* `Props.C108_flat`
* `Props.C108_grouping`
* `Props.C109_cells_refuted`
* `Props.C109_list_refuted`
* `Props.C109_scalar_refuted`
* `Props.C110_given`
* `Props.C110_added`
* `Props.C110_nulls`
* `Props.C111_verdict_partial`
* `Props.C111_lazy`
* `Props.C111_first`
* `Props.C111_trace_refuted`
* `Props.C111_verdict_refuted`
* `Props.C112_meaning`
* `Props.C112_again_partial`
* `Props.C112_slash_partial`
* `Props.C112_again_exact`
* `Props.C112_slash_exact`
* `Props.C112_absolute_exact`
* `Props.C112_absolute_partial`
* `Props.C112_refuted`
* `Props.C113_variables_partial`
* `Props.C113_plain`
* `Props.C113_refuted`
* `Props.C114_drive_partial`
* `Props.C114_prefix`
* `Props.C114_refuted`
* `Props.C115_back_partial`
* `Props.C115_back_exact`
* `Props.C115_different_partial`
* `Props.C115_characters`
* `Props.C115_refuted`
* `Props.C116_equal`
* `Props.C116_congruence`
* `Props.C116_map_partial`
* `Props.C116_order_refuted`
* `Props.C118_refuted`
* `Props.C119_sorted`
* `Props.C119_refused`
* `Props.C120_exact`
* `Props.C120_types_partial`
* `Props.C121_built_partial`
* `Props.C121_origin_partial`
* `Props.C121_prevalidation`
* `Props.C121_refuted`
* `Props.C122_installed_partial`
* `Props.C122_last`
* `Props.C122_raises`
* `Props.C122_new_refuted`
* `Props.C122_keywords_refuted`
* `Props.C122_empty_refuted`
* `Props.C123_opened`
* `Props.C123_listed`
* `Props.C123_alike`
* `Props.C123_refused`
* `Props.C123_first`
* `Props.C123_workbook`
* `Props.C124_dates_partial`
* `Props.C124_shown`
* `Props.C124_1904_refuted`
* `Props.C124_told`
* `Props.C125_build_partial`
* `Props.C125_refuted`
* `Props.C126_flag`
* `Props.C126_reports`
* `Props.C126_build_partial`
* `Props.C126_resumed_refuted`
* `Props.C127_ensured`
* `Props.C127_nothing_else`
* `Props.C127_file`
* `Props.C128_add`
* `Props.C128_served_refuted`
* `Props.C129_unchanged`
* `Props.C129_built`
* `Props.C129_fails`
* `Props.C129_merge`
* `Props.C129_history`
* `Props.C129_sharing`
* `Props.C130_exists`
* `Props.C130_written`
* `Props.C130_apart_partial`
* `Props.C130_read`
* `Props.C130_steps`
* `Props.C130_copy_refuted`
* `Props.C130_names_refuted`
* `Props.C130_type_refuted`
* `Props.C131_names`
* `Props.C131_as_one_build`
* `Props.C131_declared`
* `Props.C131_again`
* `Props.C131_rebuild`
* `Props.C131_unbuilt`
* `Props.C131_stable_partial`
* `Props.C131_fixed_refuted`
* `Props.C132_free`
* `Props.C132_first`
* `Props.C132_ends`
* `Props.C133_settles`
* `Props.C133_more_stack_partial`
* `Props.C133_cycle`
* `Props.C133_lax_refuted`
* `Props.C134_same`
* `Props.C134_workbook`
* `Props.C134_sibling_partial`
* `Props.C134_sibling_named`
* `Props.C134_closed_partial`
* `Props.C134_closed_refuted`
* `Props.C134_sibling_refuted`
* `Props.C135_same_partial`
* `Props.C135_history`
* `Props.C135_number_refuted`
* `Props.C136_one`
* `Props.C136_others`
* `Props.C136_document`
* `Props.C138_processed`
* `Props.C138_labels`
* `Props.C138_kept`
* `Props.C138_not_selected`
* `Props.C138_success`
* `Props.C138_failure`
* `Props.C138_references`
* `Props.C138_own_cell_partial`
* `Props.C138_header_refuted`
* `Props.C139_combined_partial`
* `Props.C139_combined_place_partial`
* `Props.C139_errors_partial`
* `Props.C139_breaches`
* `Props.C139_place_partial`
* `Props.C139_leads`
* `Props.C139_order_refuted`
* `Props.C139_once`
* `Props.C140_turned`
* `Props.C140_margins`
* `Props.C140_sheets`
* `Props.C140_lasso`
* `Props.C140_excel_lasso`
* `Props.C141_order_partial`
* `Props.C141_first_full`
* `Props.C141_first_full_one`
* `Props.C141_order_refuted`
* `Props.C142_recurse`
* `Props.C142_pyeval`
* `Props.C142_refused`
* `Props.C142_no_list`
* `Props.C143_first_partial`
* `Props.C143_second_partial`
* `Props.C143_opposite`
* `Props.C143_minus_refuted`
* `Props.C143_spaces_refuted`
* `Props.C144_shifted_partial`
* `Props.C144_margins`
* `Props.C144_sheets_partial`
* `Props.C144_padded`
* `Props.C144_values`
* `Props.C144_counting_back_refuted`
* `Props.C144_lasso_partial`
* `Props.C144_excel_lasso_partial`
* `Props.C145_reads_partial`
* `Props.C145_read_back_partial`
* `Props.C145_pandas_names`
* `Props.C145_methods_refuted`
* `Props.C145_empty_refuted`
* `Props.C146_written_is_read_partial`
* `Props.C146_slashes_refuted`
* `Props.C146_mapped_partial`
* `Props.C146_through_refuted`
* `Props.C147_header_and_index`
* `Props.C147_header_and_index_excel`
* `Props.C147_among_others`
* `Props.C147_among_others_excel`
* `Props.C148_verdict_partial`
* `Props.C148_series_partial`
* `Props.C148_positions`
* `Props.C148_frame_partial`
* `Props.C148_columns_refuted`
* `Props.C148_enum_refuted`
* `Props.C148_raises_refuted`
* `Props.C148_errors_partial`
* `Props.C148_repeated_refuted`
* `Props.C148_plain`
* `Props.C149_closed_partial`
* `Props.C149_again_partial`
* `Props.C149_nameless_refuted`
* `Props.C150_same_partial`
* `Props.C150_history_partial`
* `Props.C150_number_refuted`
* `Props.C151_kept_partial`
* `Props.C151_count_partial`
* `Props.C151_lasso_partial`
* `Props.C151_in_turn`
* `Props.C151_added`
* `Props.C151_texts_refuted`
* `Props.C151_ids_refuted`
* `Props.C152_right_sheet`
* `Props.C152_raised`
* `Props.C152_apart_partial`
* `Props.C152_one_by_one`
* `Props.C152_closed_refuted`
* `Props.C152_size_refuted`
* `Props.C152_missing_refuted`
* `Props.C152_lost_refuted`
* `Props.C152_ends`
* `Props.C153_history`
* `Props.C153_as_first_partial`
* `Props.C153_own_filters`
* `Props.C153_pipes`
* `Props.C153_lax_refuted`
* `Props.C153_pipe_refuted`
* `Props.C154_agrees`
* `Props.C154_outcome`
* `Props.C154_lasso`
* `Props.C154_values`
* `Props.C154_cells`
* `Props.C154_evaluated`
* `Props.C154_refused`
* `Props.C154_no_stack`
* `Props.C154_all`
* `Props.C154_unchanged_partial`
* `Props.C154_refuted`
* `Props.C155_unchanged_partial`
* `Props.C155_states_true`
* `Props.C155_margins_true`
* `Props.C155_waits_for_none`
* `Props.C156_called_partial`
* `Props.C156_options_only`
* `Props.C156_refused`
* `Props.C156_redim`
* `Props.C156_redim_refused`
* `Props.C156_xlwings_partial`
* `Props.C156_xlwings_refuted`
* `Props.C157_children`
* `Props.C157_order`
* `Props.C157_paths`
* `Props.C157_orig_tells`
* `Props.C158_settled`
* `Props.C158_written_partial`
* `Props.C158_nested`
* `Props.C158_lax_left`
* `Props.C158_lax_detached`
* `Props.C158_lax_refuted`
* `Props.C159_whole`
* `Props.C159_found`
* `Props.C159_found_excel`
* `Props.C159_within`
* `Props.C159_within_excel`
* `Props.C159_single`
* `Props.C159_single_excel`
* `Props.C159_colon_excel`
* `Props.C160_opened`
* `Props.C160_alike`
* `Props.C161_again`
* `Props.C161_cells`
* `Props.C161_cells_excel`
* `Props.C162_build`
* `Props.C162_built`
* `Props.C162_none_matters`
* `Props.C163_expanded`
* `Props.C163_rect`
* `Props.C163_lasso`
* `Props.C163_excel_lasso`
* `Props.C164_throw`
* `Props.C164_pipe`
* `Props.C164_same`
* `Props.C164_uninterrupted`
* `Props.C164_remembered_partial`
* `Props.C164_own_refuted`
* `Props.C165_alone`
* `Props.C165_ends`
* `Props.C165_kept`
* `Props.C165_reread`
* `Props.C165_texts_partial`
* `Props.C165_paths_refuted`
* `Props.C165_alias_refuted`
* `Props.C166_build`
* `Props.C166_ends`
* `Props.C166_returned_refuted`
* `Props.C167_right_sheet`
* `Props.C167_raised`
* `Props.C167_close_ends_with`
* `Props.C167_close_partial`
* `Props.C167_ends`
* `Props.C167_fetch_in_turn`
* `Props.C167_close_in_turn`
* `Props.C167_lost_refuted`
* `Props.C167_dead_refuted`
* `Props.C167_size_refuted`
* `Props.C167_half_refuted`
* `Props.C167_missing_refuted`
* `Props.C167_quiet_partial`
* `Props.C169_told_partial`
* `Props.C169_long_refuted`

## Quot.sound, propext

* `Props.C02_iter_pointerOf`
* `Props.C02_relaxed_pointerOf`
* `Props.C02_iter_rejects`
* `Props.C02_relaxed_join`
* `Props.C03_index_text`
* `Props.C06_set_frame`
* `Props.C07_bad_pointer_partial`
* `Props.C08_key_beats_attribute`
* `Props.C11_merge_alias`
* `Props.C11_merge_nodes`
* `Props.C11_merge_regex_order`
* `Props.C11_merge_distinct`
* `Props.C12_merge_assoc`
* `Props.C12_merge_not_commutative`
* `Props.C13_alias_is_effective`
* `Props.C13_child_combines`
* `Props.C13_child_distinct`
* `Props.C14_alias_is_last_tuple`
* `Props.C14_distinct`
* `Props.C14_total`
* `Props.C15_regex_order`
* `Props.C23_created`
* `Props.C25_merge_partial`
* `Props.C25_exact`
* `Props.C25_keys`
* `Props.C25_defined`
* `Props.C26_assoc`
* `Props.C27_model`
* `Props.C27_phases`
* `Props.C28_unchanged_partial`
* `Props.C28_model_is_new`
* `Props.C28_no_defaults_partial`
* `Props.C28_only_gained_partial`
* `Props.C30_extras_partial`
* `Props.C30_extras_exact`
* `Props.C30_schema`
* `Props.C31_negative_refused`
* `Props.C31_cell_refused`
* `Props.C32_numbers`
* `Props.C32_empty_column_refuted`
* `Props.C32_never_negative_partial`
* `Props.C33_negative_landing`
* `Props.C34_run_end_unique`
* `Props.C38_all_empty`
* `Props.C39_array_cell`
* `Props.C39_xlrd_rect`
* `Props.C39_xlrd_cell`
* `Props.C53_positions_pandas`
* `Props.C64_text_index`
* `Props.C69_default_partial`
* `Props.C70_content`
* `Props.C71_first_line`
* `Props.C71_none`
* `Props.C73_array_full`
* `Props.C73_xlrd_full`
* `Props.C92_writes`
* `Props.C92_others`
* `Props.C92_scalars_partial`
* `Props.C96_write_partial`
* `Props.C96_nothing_else_lost`
* `Props.C96_print`
* `Props.C102_stages`
* `Props.C102_isolated`
* `Props.C103_names`
* `Props.C106_only`
* `Props.C106_first_partial`
* `Props.C107_book`
* `Props.C109_series_partial`
* `Props.C109_anything`
* `Props.C109_nested_partial`
* `Props.C109_last_partial`
* `Props.C109_without`
* `Props.C112_form`
* `Props.C117_columns`
* `Props.C117_cells_partial`
* `Props.C117_rows_partial`
* `Props.C117_last_partial`
* `Props.C117_refuted`
* `Props.C118_dict`
* `Props.C118_refused_partial`
* `Props.C121_merged_partial`
* `Props.C125_submodels_partial`
* `Props.C126_submodels_partial`
* `Props.C126_one_go`
* `Props.C128_raises`
* `Props.C128_again`
* `Props.C128_add_fine`
* `Props.C129_loaded`
* `Props.C132_kept`
* `Props.C132_apart_partial`
* `Props.C132_race_refuted`
* `Props.C137_all`
* `Props.C137_keys`
* `Props.C137_rest`
* `Props.C137_order`
* `Props.C137_same`
* `Props.C139_combined_breaches`
* `Props.C140_values`
* `Props.C140_excel_values`
* `Props.C144_excel_values`
* `Props.C149_result`
* `Props.C155_refuted`
* `Props.C157_dir`
* `Props.C162_gathers`
* `Props.C162_any_order`
* `Props.C162_merged`
* `Props.C164_ends`
* `Props.C166_added`
* `Props.C166_alone`
* `Props.C166_returned_partial`
* `Props.C166_values`
* `Props.C166_model`
* `Props.C166_raised_partial`

## propext

* `Props.C01_unescape_escape`
* `Props.C01_escape_no_slash`
* `Props.C01_escape_injective`
* `Props.C01_escape_is_rfc6901`
* `Props.C02_relaxed_vs_strict`
* `Props.C04_malformed`
* `Props.C04_only_ref_error`
* `Props.C07_empty_pointer_refuted`
* `Props.C08_default`
* `Props.C12_merge_empty`
* `Props.C21_lock_raises`
* `Props.C21_lock_and_fix`
* `Props.C25_scalar_refuted`
* `Props.C27_first_error`
* `Props.C28_invalid_uncurated`
* `Props.C32_cell`
* `Props.C36_rounds_functional`
* `Props.C56_keeps`
* `Props.C56_total`
* `Props.C57_race_partial`
* `Props.C57_file`
* `Props.C57_race_refuted`
* `Props.C57_dangling_refuted`
* `Props.C61_crlf_refuted`
* `Props.C66_get_refuted`
* `Props.C66_get_raises_partial`
* `Props.C70_separators`
* `Props.C72_plain_partial`
* `Props.C72_sibling_refuted`
* `Props.C91_true_refuted`
* `Props.C93_headless_refuted`
* `Props.C94_py`
* `Props.C94_options_kept`
* `Props.C102_none`
* `Props.C106_all`
* `Props.C118_series`
* `Props.C119_kept`
* `Props.C120_null_partial`
* `Props.C120_one_type`
* `Props.C120_documents`
* `Props.C120_dims_refuted`
* `Props.C120_nan_refuted`
* `Props.C124_times`
* `Props.C124_told_times`
* `Props.C126_later`
* `Props.C126_all_submodels`
* `Props.C126_all_merged`
* `Props.C136_failed`
* `Props.C148_nan_refuted`
* `Props.C155_same_partial`
* `Props.C155_alone`
* `Props.C166_raised_refuted`
* `Props.C168_each`
* `Props.C168_fails`
