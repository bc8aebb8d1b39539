{
 "claims": [
  {
   "property": "C01",
   "status": "proved",
   "theorems": [
    "Props.C01_unescape_escape",
    "Props.C01_escape_no_slash",
    "Props.C01_escape_injective",
    "Props.C01_escape_is_rfc6901"
   ],
   "note": ""
  },
  {
   "property": "C02",
   "status": "proved",
   "theorems": [
    "Props.C02_iter_pointerOf",
    "Props.C02_relaxed_pointerOf",
    "Props.C02_iter_rejects",
    "Props.C02_relaxed_vs_strict",
    "Props.C02_relaxed_join"
   ],
   "note": ""
  },
  {
   "property": "C03",
   "status": "proved",
   "theorems": [
    "Props.C03_index_text",
    "Props.C03_resolve_walk",
    "Props.C03_resolve_exact",
    "Props.C03_reach_functional",
    "Props.C03_resolve_is_walk"
   ],
   "note": ""
  },
  {
   "property": "C04",
   "status": "proved",
   "theorems": [
    "Props.C04_default",
    "Props.C04_malformed",
    "Props.C04_only_ref_error"
   ],
   "note": ""
  },
  {
   "property": "C05",
   "status": "proved",
   "theorems": [
    "Props.C05_set_get",
    "Props.C05_set_total",
    "Props.C05_set_dash_appends",
    "Props.C05_set_get_refuted_negative"
   ],
   "note": "C05_set_get_refuted_negative shows why negative list indexes are excluded: out-of-range negative indexes append."
  },
  {
   "property": "C06",
   "status": "proved",
   "theorems": [
    "Props.C06_set_frame"
   ],
   "note": ""
  },
  {
   "property": "C07",
   "status": "partial",
   "theorems": [
    "Props.C07_empty_pointer_refuted",
    "Props.C07_bad_pointer_partial"
   ],
   "note": "The code violates the property: UnboundLocalError instead of RefResolutionError for the empty pointer (C07_empty_pointer_refuted)."
  },
  {
   "property": "C08",
   "status": "partial",
   "theorems": [
    "Props.C08_exact",
    "Props.C08_relative",
    "Props.C08_absolute_partial",
    "Props.C08_absolute_refuted",
    "Props.C08_agrees_with_pointer",
    "Props.C08_default",
    "Props.C08_key_beats_attribute"
   ],
   "note": "Absolute paths do not start at the root when the document has an empty key (C08_absolute_refuted); proved for all other documents. C08_exact says what every path resolves to, of all documents, roots and steps, empty ones too."
  },
  {
   "property": "C09",
   "status": "proved",
   "theorems": [
    "Props.C09_join_normal",
    "Props.C09_dot_iff",
    "Props.C09_absolute_no_dotdot"
   ],
   "note": ""
  },
  {
   "property": "C10",
   "status": "proved",
   "theorems": [
    "Props.C10_join_is_walk",
    "Props.C10_join_batches",
    "Props.C10_join_idempotent",
    "Props.C10_root_resets",
    "Props.C10_dotdot_cancels",
    "Props.C10_dot_disappears"
   ],
   "note": ""
  },
  {
   "property": "C11",
   "status": "proved",
   "theorems": [
    "Props.C11_merge_alias",
    "Props.C11_merge_nodes",
    "Props.C11_merge_regex_order",
    "Props.C11_merge_distinct"
   ],
   "note": ""
  },
  {
   "property": "C12",
   "status": "proved",
   "theorems": [
    "Props.C12_merge_assoc",
    "Props.C12_merge_idempotent",
    "Props.C12_merge_empty",
    "Props.C12_merge_not_commutative"
   ],
   "note": ""
  },
  {
   "property": "C13",
   "status": "proved",
   "theorems": [
    "Props.C13_alias_agrees",
    "Props.C13_none_iff",
    "Props.C13_alias_is_effective",
    "Props.C13_child_combines",
    "Props.C13_child_distinct"
   ],
   "note": ""
  },
  {
   "property": "C14",
   "status": "proved",
   "theorems": [
    "Props.C14_alias_is_last_tuple",
    "Props.C14_distinct",
    "Props.C14_total"
   ],
   "note": ""
  },
  {
   "property": "C15",
   "status": "proved",
   "theorems": [
    "Props.C15_regex_order"
   ],
   "note": ""
  },
  {
   "property": "C16",
   "status": "partial",
   "theorems": [
    "Props.C16_map_path_walks",
    "Props.C16_map_path_walks_from_root_alias",
    "Props.C16_unmapped_identity_partial",
    "Props.C16_no_alias_identity_partial",
    "Props.C16_escaped_refuted",
    "Props.C16_slash_refuted"
   ],
   "note": "Proved for steps without ~ or escapes; the code violates the property for escaped steps (C16_escaped_refuted) and for '/' (C16_slash_refuted)."
  },
  {
   "property": "C17",
   "status": "proved",
   "theorems": [
    "Props.C17_map_through",
    "Props.C17_rename",
    "Props.C17_relocate_root",
    "Props.C17_others_unchanged"
   ],
   "note": ""
  },
  {
   "property": "C18",
   "status": "partial",
   "theorems": [
    "Props.C18_folder_refuted",
    "Props.C18_folder_partial"
   ],
   "note": "The code violates the property (C18_folder_refuted): line 555 extends the wrong variable."
  },
  {
   "property": "C19",
   "status": "proved",
   "theorems": [
    "Props.C19_paths_are_maximal",
    "Props.C19_dots_refuted"
   ],
   "note": ""
  },
  {
   "property": "C20",
   "status": "partial",
   "theorems": [
    "Props.C20_reread_partial",
    "Props.C20_empty_refuted"
   ],
   "note": "C20_reread_partial: for every state, path and intervening reads, re-reading a chain of attributes gives the same steps and leaves the state alone, provided no step on it has an empty text. C20_empty_refuted: a step with empty text is made anew on each reading, losing its children (the code tests truth of a str)."
  },
  {
   "property": "C21",
   "status": "partial",
   "theorems": [
    "Props.C21_texts_are_fixed",
    "Props.C21_locks_hold_partial",
    "Props.C21_lock_raises",
    "Props.C21_lock_and_fix",
    "Props.C21_locked_renamed_refuted",
    "Props.C21_locked_moved_refuted"
   ],
   "note": "C21_lock_raises and C21_texts_are_fixed hold fully; C21_locks_hold_partial: locks hold along every history that assigns no text against a lock. C21_locked_renamed_refuted, C21_locked_moved_refuted: assigning a text or a step to an attribute renames or relocates a locked step without error."
  },
  {
   "property": "C22",
   "status": "partial",
   "theorems": [
    "Props.C22_mappings_kept_partial",
    "Props.C22_reading_keeps",
    "Props.C22_renaming_refuted"
   ],
   "note": "C22_mappings_kept_partial: mappings keep standing for the same tree along every history except one that assigns a text to an attribute of a step having children and sharing the mappings. C22_renaming_refuted: then the caller's mappings are changed."
  },
  {
   "property": "C23",
   "status": "proved",
   "theorems": [
    "Props.C23_tags",
    "Props.C23_created"
   ],
   "note": ""
  },
  {
   "property": "C24",
   "status": "proved",
   "theorems": [
    "Props.C24_step_paths_are_mapped_paths",
    "Props.C24_other_aliases_refuted"
   ],
   "note": ""
  },
  {
   "property": "C25",
   "status": "partial",
   "theorems": [
    "Props.C25_merge_partial",
    "Props.C25_exact",
    "Props.C25_keys",
    "Props.C25_defined",
    "Props.C25_text_over_list_refuted",
    "Props.C25_scalar_refuted"
   ],
   "note": "Proved for objects whose common keys hold mergeable values. A text over a list is spread into characters and a scalar over an object or list is a TypeError: see C25_text_over_list_refuted and C25_scalar_refuted. C25_exact: the result is the earlier model overridden by the later one exactly if no text comes over a list."
  },
  {
   "property": "C26",
   "status": "proved",
   "theorems": [
    "Props.C26_assoc"
   ],
   "note": ""
  },
  {
   "property": "C27",
   "status": "proved",
   "theorems": [
    "Props.C27_model",
    "Props.C27_first_error",
    "Props.C27_phases"
   ],
   "note": ""
  },
  {
   "property": "C28",
   "status": "partial",
   "theorems": [
    "Props.C28_unchanged_partial",
    "Props.C28_model_is_new",
    "Props.C28_invalid_uncurated",
    "Props.C28_merge_reads",
    "Props.C28_merge_all_reads",
    "Props.C28_no_defaults_partial",
    "Props.C28_only_gained_partial",
    "Props.C28_prevalidation_refuted",
    "Props.C28_validation_refuted"
   ],
   "note": "Proved on a heap with sharing for validations and curations that do not write to the objects that were there, and for schemas without defaults. The default validator fills in defaults in the submodels (C28_prevalidation_refuted) and, through shared inner objects, when the unified model is validated (C28_validation_refuted)."
  },
  {
   "property": "C29",
   "status": "partial",
   "theorems": [
    "Props.C29_effect",
    "Props.C29_again_partial",
    "Props.C29_again_exact",
    "Props.C29_again_refuted",
    "Props.C29_schema_flag_refuted",
    "Props.C29_nullable_refuted",
    "Props.C29_installed",
    "Props.C29_not_installed"
   ],
   "note": "The effect is proved in full for the rule; validating again changes nothing unless nulls are removed from a property that is filled in when missing (C29_again_refuted); schema flags alone do not install the rule (C29_schema_flag_refuted). The default is filled in for a missing property whatever its type, although the documentation limits it to types that do not support nulls (C29_nullable_refuted). C29_again_exact says for which schemas validating again never changes anything more."
  },
  {
   "property": "C30",
   "status": "partial",
   "theorems": [
    "Props.C30_extras_partial",
    "Props.C30_extras_exact",
    "Props.C30_error",
    "Props.C30_schema",
    "Props.C30_empty_pattern_refuted"
   ],
   "note": "Proved for every set of patterns except the single empty pattern, which is taken for no patterns (C30_empty_pattern_refuted). The regex library is a parameter that treats joined patterns as alternatives. C30_extras_exact says which properties are additional whatever the patterns."
  },
  {
   "property": "C31",
   "status": "proved",
   "theorems": [
    "Props.C31_letters_value",
    "Props.C31_number_round_trip",
    "Props.C31_letters_round_trip",
    "Props.C31_colName_injective",
    "Props.C31_row_round_trip",
    "Props.C31_cell_round_trip",
    "Props.C31_negative_refused",
    "Props.C31_cell_of",
    "Props.C31_cell_refused"
   ],
   "note": ""
  },
  {
   "property": "C32",
   "status": "partial",
   "theorems": [
    "Props.C32_specials",
    "Props.C32_cell",
    "Props.C32_special_cells",
    "Props.C32_numbers",
    "Props.C32_letters",
    "Props.C32_row_rejects",
    "Props.C32_col_rejects",
    "Props.C32_empty_column_refuted",
    "Props.C32_never_negative_refuted",
    "Props.C32_never_negative_partial",
    "Props.C32_negative_exact"
   ],
   "note": "Everything is proved except 'never negative', which the code violates (C32_never_negative_refuted: 'R-4' on a 3-row sheet), and the empty column text, which is accepted (C32_empty_column_refuted). C32_negative_exact says exactly where a coordinate is negative."
  },
  {
   "property": "C33",
   "status": "proved",
   "theorems": [
    "Props.C33_first_full",
    "Props.C33_fails_iff_none",
    "Props.C33_negative_landing"
   ],
   "note": ""
  },
  {
   "property": "C34",
   "status": "proved",
   "theorems": [
    "Props.C34_one_move",
    "Props.C34_two_moves",
    "Props.C34_run_end_unique",
    "Props.C34_order_irrelevant",
    "Props.C34_not_full_fails"
   ],
   "note": ""
  },
  {
   "property": "C35",
   "status": "proved",
   "theorems": [
    "Props.C35_unlimited_least",
    "Props.C35_unlimited_terminates",
    "Props.C35_order_irrelevant",
    "Props.C35_other_sides_stay"
   ],
   "note": ""
  },
  {
   "property": "C36",
   "status": "proved",
   "theorems": [
    "Props.C36_exact_rounds",
    "Props.C36_rounds_functional",
    "Props.C36_limited_bounds",
    "Props.C36_sequence_grows"
   ],
   "note": ""
  },
  {
   "property": "C37",
   "status": "proved",
   "theorems": [
    "Props.C37_ordered",
    "Props.C37_two_plain_cells",
    "Props.C37_corner_order",
    "Props.C37_other_corners",
    "Props.C37_first_edge",
    "Props.C37_second_edge"
   ],
   "note": ""
  },
  {
   "property": "C38",
   "status": "proved",
   "theorems": [
    "Props.C38_margins_bound",
    "Props.C38_margins_attained",
    "Props.C38_all_empty",
    "Props.C38_lower_margin_ok",
    "Props.C38_xlrd_margins"
   ],
   "note": ""
  },
  {
   "property": "C39",
   "status": "proved",
   "theorems": [
    "Props.C39_array_rect",
    "Props.C39_array_cell",
    "Props.C39_xlrd_rect",
    "Props.C39_xlrd_cell"
   ],
   "note": ""
  },
  {
   "property": "C40",
   "status": "proved",
   "theorems": [
    "Props.C40_reads",
    "Props.C40_reading_exists",
    "Props.C40_rejects",
    "Props.C40_newline_refuted"
   ],
   "note": "Line breaks are excluded because one trailing newline is accepted (C40_newline_refuted)."
  },
  {
   "property": "C41",
   "status": "proved",
   "theorems": [
    "Props.C41_round_trip",
    "Props.C41_round_trip_filters",
    "Props.C41_bad_json",
    "Props.C41_bang_in_filters_refuted"
   ],
   "note": "C41_bang_in_filters_refuted shows why '!' is excluded from the filters of a reference without a sheet: the text up to it is taken as a sheet name."
  },
  {
   "property": "C42",
   "status": "proved",
   "theorems": [
    "Props.C42_same_verdict",
    "Props.C42_same_edges",
    "Props.C42_no_filters",
    "Props.C42_filters"
   ],
   "note": ""
  },
  {
   "property": "C43",
   "status": "proved",
   "theorems": [
    "Props.C43_no_colon",
    "Props.C43_missing_first",
    "Props.C43_missing_second",
    "Props.C43_empty"
   ],
   "note": ""
  },
  {
   "property": "C44",
   "status": "proved",
   "theorems": [
    "Props.C44_accepted_iff",
    "Props.C44_unique",
    "Props.C44_otherwise_valueError"
   ],
   "note": ""
  },
  {
   "property": "C45",
   "status": "partial",
   "theorems": [
    "Props.C45_parse_partial",
    "Props.C45_encased_refuted",
    "Props.C45_witness_refuted",
    "Props.C45_colon_refuted"
   ],
   "note": "The code violates the property: every encased reference is refused with ValueError by the lasso (C45_encased_refuted, C45_witness_refuted). Proved: parsing gives the same fields for references without filters; double quotes around a reference ending in a colon fail (C45_colon_refuted)."
  },
  {
   "property": "C46",
   "status": "proved",
   "theorems": [
    "Props.C46_lookup",
    "Props.C46_fetched",
    "Props.C46_close"
   ],
   "note": ""
  },
  {
   "property": "C47",
   "status": "proved",
   "theorems": [
    "Props.C47_twice",
    "Props.C47_history",
    "Props.C47_sibling"
   ],
   "note": ""
  },
  {
   "property": "C48",
   "status": "partial",
   "theorems": [
    "Props.C48_frame_partial",
    "Props.C48_default_refuted"
   ],
   "note": "The code violates the property (C48_default_refuted): a sheet added without ids is also registered under the 'no sheet' id, so it closes the other sheets of its workbook added so. Proved: exactly the sheets under the registered ids are closed, all others stay."
  },
  {
   "property": "C49",
   "status": "proved",
   "theorems": [
    "Props.C49_winner",
    "Props.C49_none"
   ],
   "note": ""
  },
  {
   "property": "C50",
   "status": "partial",
   "theorems": [
    "Props.C50_success",
    "Props.C50_strict_partial",
    "Props.C50_lax_partial",
    "Props.C50_lax_not_lasso_refuted",
    "Props.C50_verbose_refuted"
   ],
   "note": "The code violates the property: a lax call of a filter that does not return a lasso yields that value (C50_lax_not_lasso_refuted), and a verbose failing call of an undescribed filter raises TypeError (C50_verbose_refuted). Proved outside these. Filters that change values in place before they fail are treated in C154."
  },
  {
   "property": "C51",
   "status": "proved",
   "theorems": [
    "Props.C51_composition",
    "Props.C51_append",
    "Props.C51_failure_stops"
   ],
   "note": ""
  },
  {
   "property": "C52",
   "status": "partial",
   "theorems": [
    "Props.C52_base_partial",
    "Props.C52_reference_partial",
    "Props.C52_override_refuted"
   ],
   "note": "The code violates the property: the options of a reference replace the base options wholesale (C52_override_refuted). Proved: which options are in force in each case."
  },
  {
   "property": "C53",
   "status": "partial",
   "theorems": [
    "Props.C53_only_values",
    "Props.C53_first",
    "Props.C53_processed_partial",
    "Props.C53_frame",
    "Props.C53_success",
    "Props.C53_failure",
    "Props.C53_lax_refuted",
    "Props.C53_positions_pandas",
    "Props.C53_positions_no_pandas"
   ],
   "note": "The code violates the property for lax sub-filters: the lax keyword is lost after the first element (C53_lax_refuted). C53_processed_partial: without it. C53_first says what happens with it: it is in force for one element and no other. The rest (C53_frame, C53_success, C53_failure) holds for all sub-filters."
  },
  {
   "property": "C54",
   "status": "partial",
   "theorems": [
    "Props.C54_values_partial",
    "Props.C54_exact",
    "Props.C54_numbers",
    "Props.C54_texts",
    "Props.C54_mixed_refuted",
    "Props.C54_transpose",
    "Props.C54_transpose_then_dims",
    "Props.C54_dims",
    "Props.C54_deeper_refuted",
    "Props.C54_xlwings_partial",
    "Props.C54_choice",
    "Props.C54_irregular"
   ],
   "note": "The code violates the property when texts and numbers are mixed, because numpy turns all into texts (C54_mixed_refuted). Proved for values that numpy keeps; deeper than two dimensions, dropping trivial dimensions may fail (C54_deeper_refuted). Integers and booleans together keep their numbers (C54_numbers); with texts all become their texts (C54_texts). C54_exact: exactly which values are kept."
  },
  {
   "property": "C55",
   "status": "proved",
   "theorems": [
    "Props.C55_unique_filename",
    "Props.C55_sound"
   ],
   "note": ""
  },
  {
   "property": "C56",
   "status": "partial",
   "theorems": [
    "Props.C56_ends",
    "Props.C56_keeps",
    "Props.C56_idempotent_partial",
    "Props.C56_total",
    "Props.C56_inner_dot_refuted",
    "Props.C56_folder_refuted",
    "Props.C56_regex_refuted"
   ],
   "note": "The result always ends with an accepted extension and never fails on a non-empty name; idempotence holds for plain extensions on named files and fails for extensions with inner dots, folder paths and dot-less extensions in regex mode (refuted with witnesses)."
  },
  {
   "property": "C57",
   "status": "partial",
   "theorems": [
    "Props.C57_race_partial",
    "Props.C57_file",
    "Props.C57_race_refuted",
    "Props.C57_dangling_refuted"
   ],
   "note": "Proved for every schedule of any number of concurrent calls while others at most create the directory; fails when another process creates a file in between or the path is a dangling link (refuted). os.makedirs is one atomic step."
  },
  {
   "property": "C58",
   "status": "proved",
   "theorems": [
    "Props.C58_text",
    "Props.C58_true_words",
    "Props.C58_not_text",
    "Props.C58_lenient"
   ],
   "note": ""
  },
  {
   "property": "C59",
   "status": "partial",
   "theorems": [
    "Props.C59_parse_partial",
    "Props.C59_parenthesis_refuted"
   ],
   "note": "The code violates the property for units in angle brackets that have a closing parenthesis (C59_parenthesis_refuted); otherwise the exact set of accepted texts and their reading is proved."
  },
  {
   "property": "C60",
   "status": "proved",
   "theorems": [
    "Props.C60_history_does_not_matter",
    "Props.C60_rebuilding_repeats",
    "Props.C60_inputs_are_what_is_read",
    "Props.C60_mapped_inputs",
    "Props.C60_assembly_union",
    "Props.C60_assembly_of_parts",
    "Props.C60_any_order",
    "Props.C60_empty_name_refuted"
   ],
   "note": "Components named '' are excluded where the inputs are spelled out: they report nothing they read (C60_empty_name_refuted). Component functions are lists of uses of their steps."
  },
  {
   "property": "C61",
   "status": "partial",
   "theorems": [
    "Props.C61_payload_partial",
    "Props.C61_ascii",
    "Props.C61_object_partial",
    "Props.C61_mixed_refuted",
    "Props.C61_crlf_refuted"
   ],
   "note": "The code violates the property exactly for payloads that mix CR LF with other LF bytes (C61_payload_partial is an iff; C61_mixed_refuted, C61_crlf_refuted). Pickling and JSON are parameters assumed to round-trip; the quoted-printable coder is modelled after CPython and compared with it on 200000 random strings."
  },
  {
   "property": "C62",
   "status": "partial",
   "theorems": [
    "Props.C62_paths",
    "Props.C62_written_exact",
    "Props.C62_pointers_partial",
    "Props.C62_slash_refuted"
   ],
   "note": "The code violates the property for property names with a slash or tilde, which are not escaped (C62_slash_refuted); C62_paths holds for every schema. C62_written_exact: a path splits to its names exactly if none of them has a slash, ~0 or ~1 in it."
  },
  {
   "property": "C63",
   "status": "proved",
   "theorems": [
    "Props.C63_excel_file",
    "Props.C63_bid"
   ],
   "note": "Letter case: the extension is compared in upper case (a long s counts as s, as in Python's IGNORECASE). One newline may follow, as for every Python regex ending in $. C63_bid states which paths the backend bids for: the extension may be anywhere before a word boundary."
  },
  {
   "property": "C64",
   "status": "proved",
   "theorems": [
    "Props.C64_index",
    "Props.C64_name",
    "Props.C64_text_index"
   ],
   "note": ""
  },
  {
   "property": "C65",
   "status": "proved",
   "theorems": [
    "Props.C65_block",
    "Props.C65_cell"
   ],
   "note": ""
  },
  {
   "property": "C66",
   "status": "partial",
   "theorems": [
    "Props.C66_get_refuted",
    "Props.C66_get_raises_partial"
   ],
   "note": "The code violates the property: Pandel.get drops the value (C66_get_refuted)."
  },
  {
   "property": "C67",
   "status": "partial",
   "theorems": [
    "Props.C67_errors_partial",
    "Props.C67_two_edges_partial",
    "Props.C67_not_a_reference",
    "Props.C67_empty_capture",
    "Props.C67_one_edge_refuted"
   ],
   "note": "The code violates the property: a reference with a first edge only that cannot be resolved raises TypeError while composing the message of the ValueError (C67_one_edge_refuted); proved for all others, and that this is the only exception."
  },
  {
   "property": "C68",
   "status": "proved",
   "theorems": [
    "Props.C68_context",
    "Props.C68_fetches_what_is_written"
   ],
   "note": ""
  },
  {
   "property": "C69",
   "status": "partial",
   "theorems": [
    "Props.C69_default_partial",
    "Props.C69_refuted"
   ],
   "note": "The code ignores the generator given: refuted; holds for the default generator."
  },
  {
   "property": "C70",
   "status": "proved",
   "theorems": [
    "Props.C70_letters",
    "Props.C70_content",
    "Props.C70_idempotent",
    "Props.C70_separators"
   ],
   "note": ""
  },
  {
   "property": "C71",
   "status": "proved",
   "theorems": [
    "Props.C71_first_line",
    "Props.C71_none"
   ],
   "note": ""
  },
  {
   "property": "C72",
   "status": "partial",
   "theorems": [
    "Props.C72_plain_partial",
    "Props.C72_sibling_refuted"
   ],
   "note": "The code violates the property (C72_sibling_refuted): naming a sheet next to a base sheet raises UnboundLocalError. Proved for the other cases."
  },
  {
   "property": "C73",
   "status": "proved",
   "theorems": [
    "Props.C73_array_full",
    "Props.C73_xlrd_full"
   ],
   "note": ""
  },
  {
   "property": "C74",
   "status": "partial",
   "theorems": [
    "Props.C74_references_replaced_partial",
    "Props.C74_first",
    "Props.C74_others_kept",
    "Props.C74_failures_reported",
    "Props.C74_no_other_failure",
    "Props.C74_lax_refuted"
   ],
   "note": "As for C53, a lax keyword of the sub-filters is lost after the first reference (C74_lax_refuted); C74_references_replaced_partial is without it, C74_first says what happens with it. The rest holds for all sub-filters."
  },
  {
   "property": "C75",
   "status": "proved",
   "theorems": [
    "Props.C75_errors",
    "Props.C75_syntax_error_iff",
    "Props.C75_read_was_written",
    "Props.C75_coordinates"
   ],
   "note": ""
  },
  {
   "property": "C76",
   "status": "proved",
   "theorems": [
    "Props.C76_parts",
    "Props.C76_bad_filters",
    "Props.C76_needs_hash",
    "Props.C76_needs_fragment"
   ],
   "note": ""
  },
  {
   "property": "C77",
   "status": "proved",
   "theorems": [
    "Props.C77_tagged_paths",
    "Props.C77_tagged_mapped_paths"
   ],
   "note": ""
  },
  {
   "property": "C78",
   "status": "proved",
   "theorems": [
    "Props.C78_assign_text",
    "Props.C78_renaming_succeeds",
    "Props.C78_assign_step",
    "Props.C78_placing_succeeds",
    "Props.C78_failed_assignment",
    "Props.C78_paths_reported",
    "Props.C78_rename_paths",
    "Props.C78_place_paths",
    "Props.C78_empty_step_refuted",
    "Props.C78_ancestor_refuted",
    "Props.C78_self_refuted"
   ],
   "note": "Assigning a step with an empty text loses its children (C78_empty_step_refuted); assigning a step below itself, or to itself, makes its paths infinite (C78_ancestor_refuted, C78_self_refuted)."
  },
  {
   "property": "C79",
   "status": "partial",
   "theorems": [
    "Props.C79_opens_meant_partial",
    "Props.C79_long_path_refuted",
    "Props.C79_special_characters_refuted"
   ],
   "note": "C79_opens_meant_partial: holds for plain paths whose absolute text has at most 200 characters. C79_long_path_refuted: longer paths get a suffix and are never opened. C79_special_characters_refuted: paths with %, #, ?, backslash, tab, first blank, a colon in the first segment, a double slash."
  },
  {
   "property": "C80",
   "status": "partial",
   "theorems": [
    "Props.C80_file_url_opens_partial",
    "Props.C80_any_encoding_partial",
    "Props.C80_long_url_refuted"
   ],
   "note": "C80_file_url_opens_partial, and C80_any_encoding_partial for any other way of percent-encoding: holds up to 200 characters; C80_long_url_refuted: fails for every longer path."
  },
  {
   "property": "C81",
   "status": "partial",
   "theorems": [
    "Props.C81_url_stable_partial",
    "Props.C81_url_stable_refuted"
   ],
   "note": "C81_url_stable_partial: plain paths and percent-encoded file URLs. C81_url_stable_refuted: a remote URL without path changes each time."
  },
  {
   "property": "C82",
   "status": "partial",
   "theorems": [
    "Props.C82_remote_unchanged_partial",
    "Props.C82_remote_refuted"
   ],
   "note": "C82_remote_unchanged_partial: URLs of any scheme but file, with a host (which http, https and ftp may lack), a normal path and no parameters. C82_remote_refuted: empty paths, empty segments, no host with a scheme unknown to Python, parameters."
  },
  {
   "property": "C83",
   "status": "partial",
   "theorems": [
    "Props.C83_all_closed_partial",
    "Props.C83_one_sheet_partial",
    "Props.C83_workbook_refuted"
   ],
   "note": "C83_all_closed_partial: every sheet opened is closed, with its workbook unless another sheet was opened meanwhile; C83_one_sheet_partial: with one sheet opened its workbook is released. C83_workbook_refuted: a workbook referred to by the name of a sheet and then by the sheet's number is opened twice, and the first is only unloaded."
  },
  {
   "property": "C84",
   "status": "partial",
   "theorems": [
    "Props.C84_given_factory",
    "Props.C84_given_sheet_partial",
    "Props.C84_sibling_refuted"
   ],
   "note": "C84_given_factory, C84_given_sheet_partial: the sheet of the context is not closed. C84_sibling_refuted: a reference to another sheet of the workbook of the context releases that workbook."
  },
  {
   "property": "C85",
   "status": "partial",
   "theorems": [
    "Props.C85_default_opts",
    "Props.C85_base_opts_partial",
    "Props.C85_nothing_given_partial",
    "Props.C85_base_opts_refuted",
    "Props.C85_filters_refuted"
   ],
   "note": "C85_default_opts; C85_base_opts_partial: options other than 'read' are in effect as documented. C85_base_opts_refuted, C85_filters_refuted: what is given replaces the defaults."
  },
  {
   "property": "C86",
   "status": "proved",
   "theorems": [
    "Props.C86_captures",
    "Props.C86_lasso_call",
    "Props.C86_as_ranger",
    "Props.C86_returns",
    "Props.C86_xlrd_plain"
   ],
   "note": ""
  },
  {
   "property": "C87",
   "status": "proved",
   "theorems": [
    "Props.C87_array_table",
    "Props.C87_xlrd_table"
   ],
   "note": ""
  },
  {
   "property": "C88",
   "status": "partial",
   "theorems": [
    "Props.C88_array_all",
    "Props.C88_xlrd_all_partial",
    "Props.C88_xlrd_refuted"
   ],
   "note": "C88_array_all: proved for arrays. C88_xlrd_all_partial: in Excel files the end of the sheet counts, blank or not; C88_xlrd_refuted."
  },
  {
   "property": "C89",
   "status": "proved",
   "theorems": [
    "Props.C89_document"
   ],
   "note": ""
  },
  {
   "property": "C90",
   "status": "partial",
   "theorems": [
    "Props.C90_verdict_partial",
    "Props.C90_again_partial",
    "Props.C90_same_verdict_partial",
    "Props.C90_order_refuted",
    "Props.C90_built_partial"
   ],
   "note": "C90_verdict_partial, C90_same_verdict_partial: when no `required`, `propertyNames` or `enum` comes before a keyword that may change what they found, and enumerations are of scalars other than 0 and 1; C90_again_partial: unless a property is removed when null and filled in when missing. C90_order_refuted: with `required` before `properties` both directions fail."
  },
  {
   "property": "C91",
   "status": "partial",
   "theorems": [
    "Props.C91_enum_partial",
    "Props.C91_exact",
    "Props.C91_true_refuted"
   ],
   "note": "C91_enum_partial: unless booleans meet the numbers 0 and 1; C91_true_refuted: True passes where only 1 is listed. C91_exact says exactly what is accepted."
  },
  {
   "property": "C92",
   "status": "partial",
   "theorems": [
    "Props.C92_writes",
    "Props.C92_others",
    "Props.C92_scalars_partial",
    "Props.C92_shared_refuted"
   ],
   "note": "C92_writes, C92_others: what is written in general; C92_scalars_partial: the property, for scalar defaults. C92_shared_refuted: a default that is an object is put into documents itself, and changed there."
  },
  {
   "property": "C93",
   "status": "partial",
   "theorems": [
    "Props.C93_cells_partial",
    "Props.C93_refused",
    "Props.C93_no_table",
    "Props.C93_no_effect",
    "Props.C93_skiprows_refuted",
    "Props.C93_letters_refuted",
    "Props.C93_empty_refuted",
    "Props.C93_in_place_refuted",
    "Props.C93_headless_refuted"
   ],
   "note": "C93_cells_partial: without skiprows, columns by number, captures that are not empty. Refuted: with skiprows blank cells take skipped or header texts (C93_skiprows_refuted); usecols as letters always fails (C93_letters_refuted); an empty capture is a ValueError (C93_empty_refuted); captured lists are changed even when pandas fails (C93_in_place_refuted); a list index without header always fails (C93_headless_refuted)."
  },
  {
   "property": "C94",
   "status": "partial",
   "theorems": [
    "Props.C94_evaluated_partial",
    "Props.C94_first",
    "Props.C94_others_kept",
    "Props.C94_eval_all",
    "Props.C94_no_other_failure",
    "Props.C94_only_values",
    "Props.C94_py",
    "Props.C94_options_kept",
    "Props.C94_lax_refuted"
   ],
   "note": "As for C53, a lax keyword of the sub-filters is lost after the first element (C94_lax_refuted); C94_evaluated_partial is without it, C94_first says what happens with it. The rest holds for all sub-filters. Expressions that change objects in place are not modelled."
  },
  {
   "property": "C95",
   "status": "proved",
   "theorems": [
    "Props.C95_states_same",
    "Props.C95_margins_same",
    "Props.C95_states_true",
    "Props.C95_margins_true",
    "Props.C95_unchanged",
    "Props.C95_margins_fit"
   ],
   "note": ""
  },
  {
   "property": "C96",
   "status": "partial",
   "theorems": [
    "Props.C96_write_partial",
    "Props.C96_exact",
    "Props.C96_nothing_else_lost",
    "Props.C96_print",
    "Props.C96_many_refuted"
   ],
   "note": "C96_write_partial: unless the text ends with many line endings, of which more than one is removed (C96_many_refuted). C96_exact: an iff."
  },
  {
   "property": "C97",
   "status": "partial",
   "theorems": [
    "Props.C97_lines",
    "Props.C97_told_partial",
    "Props.C97_ambiguous_refuted"
   ],
   "note": "C97_told_partial: keys that do not end with a blank and have no equals sign between blanks, and pairs of one line; else different pairs may give the same text (C97_ambiguous_refuted)."
  },
  {
   "property": "C98",
   "status": "partial",
   "theorems": [
    "Props.C98_found",
    "Props.C98_exact",
    "Props.C98_which_partial",
    "Props.C98_command",
    "Props.C98_no_path",
    "Props.C98_endings_refuted",
    "Props.C98_current_folder_refuted"
   ],
   "note": "C98_exact: exactly which files are found, in which order. C98_which_partial: when no executable file has that name followed by .bat, com or .exe, unless the program is in the same folder or an earlier one; else such files in earlier folders win, also on POSIX (C98_endings_refuted). Empty parts of the path, which mean the current folder, are ignored (C98_current_folder_refuted). C98_command: where there is a command `where`, its answer is taken."
  },
  {
   "property": "C99",
   "status": "partial",
   "theorems": [
    "Props.C99_every_branch",
    "Props.C99_pairs",
    "Props.C99_rebuilt_partial",
    "Props.C99_dots_refuted",
    "Props.C99_assigned_refuted"
   ],
   "note": "C99_every_branch holds for any tree, C99_pairs for trees read from mappings. C99_rebuilt_partial needs names that do not start with a dot (C99_dots_refuted) and plain relative aliases; steps assigned to other attributes keep their original names, so that their pairs collide (C99_assigned_refuted)."
  },
  {
   "property": "C100",
   "status": "partial",
   "theorems": [
    "Props.C100_rows_partial",
    "Props.C100_nested_refuted",
    "Props.C100_method_refuted",
    "Props.C100_blank_refuted"
   ],
   "note": "C100_rows_partial: rows of children of the root. For nested paths the attributes are set on a child called by the whole rest of the path (C100_nested_refuted); names of methods of texts make the call fail (C100_method_refuted); so does a row that says nothing (C100_blank_refuted)."
  },
  {
   "property": "C101",
   "status": "partial",
   "theorems": [
    "Props.C101_stages_partial",
    "Props.C101_one_lasso",
    "Props.C101_fresh",
    "Props.C101_result",
    "Props.C101_pipe",
    "Props.C101_filtered_refuted",
    "Props.C101_text_refuted"
   ],
   "note": "C101_stages_partial: for references that are texts, with the stage that failed, or the values read when there is no filter. After a filter, the lasso before it is remembered, not the final one as documented (C101_filtered_refuted); a reference that is no text leaves what was there (C101_text_refuted). C101_pipe: in a pipe, the filter that failed or the last one, with what it was given."
  },
  {
   "property": "C102",
   "status": "proved",
   "theorems": [
    "Props.C102_stages",
    "Props.C102_order",
    "Props.C102_none",
    "Props.C102_isolated"
   ],
   "note": ""
  },
  {
   "property": "C103",
   "status": "partial",
   "theorems": [
    "Props.C103_names",
    "Props.C103_imported_partial",
    "Props.C103_atomic",
    "Props.C103_refused",
    "Props.C103_same_name_refuted",
    "Props.C103_lost_refuted"
   ],
   "note": "Holds for files with different names: C103_imported_partial, C103_atomic, C103_refused, C103_names. Violated: of files with the same name in different folders only one is imported (C103_same_name_refuted); a module is lost from the open workbook when its file cannot be imported (C103_lost_refuted)."
  },
  {
   "property": "C104",
   "status": "partial",
   "theorems": [
    "Props.C104_named",
    "Props.C104_in_place",
    "Props.C104_unsaved",
    "Props.C104_copied",
    "Props.C104_empty_refuted",
    "Props.C104_html_refuted"
   ],
   "note": "Proved for new names, for macro-enabled workbooks saved before or never, and for names not ending with m. Violated for empty new names (C104_empty_refuted) and for other extensions that end with m (C104_html_refuted)."
  },
  {
   "property": "C105",
   "status": "partial",
   "theorems": [
    "Props.C105_alerts_partial",
    "Props.C105_alerts_refuted"
   ],
   "note": "Holds unless saving itself fails; then alerts stay off (C105_alerts_refuted)."
  },
  {
   "property": "C106",
   "status": "partial",
   "theorems": [
    "Props.C106_only",
    "Props.C106_all",
    "Props.C106_first_partial",
    "Props.C106_named_refuted"
   ],
   "note": "Nothing else is removed (C106_only) and without names all modules are (C106_all). With names, modules are only removed if they come first and in the order of the names (C106_first_partial); violated otherwise (C106_named_refuted)."
  },
  {
   "property": "C107",
   "status": "proved",
   "theorems": [
    "Props.C107_command",
    "Props.C107_book"
   ],
   "note": ""
  },
  {
   "property": "C108",
   "status": "proved",
   "theorems": [
    "Props.C108_flat",
    "Props.C108_grouping"
   ],
   "note": ""
  },
  {
   "property": "C109",
   "status": "partial",
   "theorems": [
    "Props.C109_series_partial",
    "Props.C109_anything",
    "Props.C109_nested_partial",
    "Props.C109_last_partial",
    "Props.C109_without",
    "Props.C109_cells_refuted",
    "Props.C109_list_refuted",
    "Props.C109_scalar_refuted"
   ],
   "note": "C109_series_partial, C109_nested_partial, C109_last_partial: objects and Series, with cells that override each other; C109_anything: exactly what merging anything with a Series gives; C109_without: without Series it is the merging of C25. Violated: objects in cells are replaced, not merged (C109_cells_refuted); lists and scalars are added under their positions instead of overwriting (C109_list_refuted, C109_scalar_refuted). Types of cells (dtype) and DataFrames are not modelled."
  },
  {
   "property": "C110",
   "status": "proved",
   "theorems": [
    "Props.C110_given",
    "Props.C110_added",
    "Props.C110_nulls"
   ],
   "note": ""
  },
  {
   "property": "C111",
   "status": "partial",
   "theorems": [
    "Props.C111_verdict_partial",
    "Props.C111_lazy",
    "Props.C111_first",
    "Props.C111_trace_refuted",
    "Props.C111_verdict_refuted"
   ],
   "note": "C111_verdict_partial: without defaults; C111_lazy holds with defaults too. With defaults the property is violated: alternatives that do not apply leave their defaults in the document (C111_trace_refuted), and a document may be accepted that is not as the schema asks, and refused the next time (C111_verdict_refuted)."
  },
  {
   "property": "C112",
   "status": "partial",
   "theorems": [
    "Props.C112_meaning",
    "Props.C112_form",
    "Props.C112_again_partial",
    "Props.C112_slash_partial",
    "Props.C112_again_exact",
    "Props.C112_slash_exact",
    "Props.C112_absolute_exact",
    "Props.C112_absolute_partial",
    "Props.C112_refuted"
   ],
   "note": "C112_meaning and C112_form hold for all paths. C112_again_partial, C112_slash_partial and C112_absolute_partial: without backslashes and newlines, and at most one slash at the end. C112_again_exact, C112_slash_exact and C112_absolute_exact say, of all paths, exactly where normalising again changes nothing and which paths end with a slash when normalised or made absolute. Violated otherwise (C112_refuted): 'a//' loses its slashes, 'a\\\\' becomes a folder, and a file again when normalised again."
  },
  {
   "property": "C113",
   "status": "partial",
   "theorems": [
    "Props.C113_variables_partial",
    "Props.C113_plain",
    "Props.C113_refuted"
   ],
   "note": "C113_variables_partial: shares not directly after variables, and no '_UNC_PATH_HERE' in the path; C113_plain: without the flags. Violated otherwise (C113_refuted): '$A$\\\\b' is not expanded, 'd_UNC_PATH_HERE_b' becomes 'd$\\\\b'."
  },
  {
   "property": "C114",
   "status": "partial",
   "theorems": [
    "Props.C114_drive_partial",
    "Props.C114_prefix",
    "Props.C114_refuted"
   ],
   "note": "C114_drive_partial: paths that stay below the root of the drive, without characters that mean something in URLs; C114_prefix. Violated otherwise (C114_refuted): 'C:\\\\..\\\\a' leaves the drive, '#' begins a fragment."
  },
  {
   "property": "C115",
   "status": "partial",
   "theorems": [
    "Props.C115_back_partial",
    "Props.C115_back_exact",
    "Props.C115_different_partial",
    "Props.C115_characters",
    "Props.C115_refuted"
   ],
   "note": "C115_back_partial: paths of up to 200 characters, not beginning with the prefix for long paths, not ending with a backslash or a newline. Violated otherwise (C115_refuted): longer paths come back with the prefix put at their end, 'a\\\\' comes back as 'a\\\\/', and of the prefix a backslash stays. C115_characters holds for all paths. C115_back_exact says, of all paths, exactly which come back."
  },
  {
   "property": "C116",
   "status": "partial",
   "theorems": [
    "Props.C116_equal",
    "Props.C116_congruence",
    "Props.C116_map_partial",
    "Props.C116_order_refuted"
   ],
   "note": "C116_equal and C116_congruence hold for all mappings; C116_map_partial: mappings in which the regexes that match the same step are in the same order. Violated otherwise (C116_order_refuted): regexes are tried in their order, and comparing does not look at it."
  },
  {
   "property": "C117",
   "status": "partial",
   "theorems": [
    "Props.C117_columns",
    "Props.C117_cells_partial",
    "Props.C117_rows_partial",
    "Props.C117_last_partial",
    "Props.C117_refuted"
   ],
   "note": "C117_columns holds for all tables without repeated labels. C117_cells_partial, C117_rows_partial and C117_last_partial: for the rows of the first table. Violated otherwise (C117_refuted): rows that only a later table has are lost, and so are values for the columns of an earlier table without rows. Submodels of which only one is a DataFrame, repeated labels and types of columns are not modelled."
  },
  {
   "property": "C118",
   "status": "partial",
   "theorems": [
    "Props.C118_dict",
    "Props.C118_series",
    "Props.C118_refused_partial",
    "Props.C118_refuted"
   ],
   "note": "C118_dict and C118_series hold for all tables of two columns. C118_refused_partial: what is made of rows but not of two columns is refused. Violated otherwise (C118_refuted): a column of texts of two characters is not refused, the texts are taken apart."
  },
  {
   "property": "C119",
   "status": "proved",
   "theorems": [
    "Props.C119_sorted",
    "Props.C119_kept",
    "Props.C119_refused"
   ],
   "note": ""
  },
  {
   "property": "C120",
   "status": "partial",
   "theorems": [
    "Props.C120_null_partial",
    "Props.C120_exact",
    "Props.C120_types_partial",
    "Props.C120_one_type",
    "Props.C120_documents",
    "Props.C120_dims_refuted",
    "Props.C120_nan_refuted"
   ],
   "note": "C120_one_type and C120_documents hold for all values. C120_types_partial, C120_null_partial: but for arrays that are not of one dimension, and for Python's own NaN. Violated there: an array of any number of dimensions is an array (C120_dims_refuted), float('nan') is a number and not null (C120_nan_refuted). C120_exact says what every value is taken for."
  },
  {
   "property": "C121",
   "status": "partial",
   "theorems": [
    "Props.C121_merged_partial",
    "Props.C121_built_partial",
    "Props.C121_origin_partial",
    "Props.C121_prevalidation",
    "Props.C121_refuted"
   ],
   "note": "C121_merged_partial, C121_built_partial and C121_origin_partial: when no rule removes values and no text meets a list; C121_prevalidation says when prevalidation may not change what is given. Violated otherwise (C121_refuted): when submodels are prevalidated, the defaults of the schema are put into the last submodel and from there over what earlier submodels give."
  },
  {
   "property": "C122",
   "status": "partial",
   "theorems": [
    "Props.C122_installed_partial",
    "Props.C122_last",
    "Props.C122_raises",
    "Props.C122_new_refuted",
    "Props.C122_keywords_refuted",
    "Props.C122_empty_refuted"
   ],
   "note": "C122_installed_partial and C122_last: for calls in which a whole ModelOperations is given. Violated for keywords: on a new maker they raise an AttributeError (C122_new_refuted), later they are without effect, as the result of _replace is dropped (C122_keywords_refuted); operations that are not given in the last call are removed (C122_empty_refuted)."
  },
  {
   "property": "C123",
   "status": "proved",
   "theorems": [
    "Props.C123_opened",
    "Props.C123_listed",
    "Props.C123_alike",
    "Props.C123_refused",
    "Props.C123_first",
    "Props.C123_workbook"
   ],
   "note": ""
  },
  {
   "property": "C124",
   "status": "partial",
   "theorems": [
    "Props.C124_dates_partial",
    "Props.C124_times",
    "Props.C124_shown",
    "Props.C124_1904_refuted",
    "Props.C124_told",
    "Props.C124_told_times"
   ],
   "note": "C124_dates_partial: all dates of workbooks in the system of 1900, but for the 29th of February 1900, which Python does not have; C124_times: all times. Violated for workbooks in the system of 1904 (C124_1904_refuted): none of their dates is read as shown, because sheets are not told about the system; C124_told shows that they could be. Negative numbers are not modelled."
  },
  {
   "property": "C125",
   "status": "partial",
   "theorems": [
    "Props.C125_submodels_partial",
    "Props.C125_build_partial",
    "Props.C125_refuted"
   ],
   "note": "C125_submodels_partial: for validations and curations that do not write to the objects of others; C125_build_partial: for schemas without defaults. Violated otherwise (C125_refuted): the defaults filled into a built model are written to the inner objects of the submodels, and merged over by later builds. Builds are run to their end; changes that the user makes to submodels are left out."
  },
  {
   "property": "C126",
   "status": "partial",
   "theorems": [
    "Props.C126_flag",
    "Props.C126_reports",
    "Props.C126_later",
    "Props.C126_submodels_partial",
    "Props.C126_build_partial",
    "Props.C126_one_go",
    "Props.C126_all_submodels",
    "Props.C126_all_merged",
    "Props.C126_resumed_refuted"
   ],
   "note": "C126_flag, C126_reports, C126_later and C126_one_go hold for all histories in which the last build begun is the one advanced; C126_submodels_partial and C126_build_partial need careful validations, as C125. Violated when an iteration is resumed after another was begun (C126_resumed_refuted): the flag is shared, so that it goes on with later phases after an error."
  },
  {
   "property": "C127",
   "status": "proved",
   "theorems": [
    "Props.C127_ensured",
    "Props.C127_nothing_else",
    "Props.C127_file"
   ],
   "note": "Other processes at most make directories (see C57 for files). Permissions, '.', '..' and links are left out."
  },
  {
   "property": "C128",
   "status": "partial",
   "theorems": [
    "Props.C128_raises",
    "Props.C128_again",
    "Props.C128_add_fine",
    "Props.C128_add",
    "Props.C128_served_refuted"
   ],
   "note": "Closed sheets are served: when `close()` raises midway the sheets closed before are still cached (C128_served_refuted). The rest is proved."
  },
  {
   "property": "C129",
   "status": "proved",
   "theorems": [
    "Props.C129_unchanged",
    "Props.C129_built",
    "Props.C129_fails",
    "Props.C129_merge",
    "Props.C129_history",
    "Props.C129_loaded",
    "Props.C129_sharing"
   ],
   "note": ""
  },
  {
   "property": "C130",
   "status": "partial",
   "theorems": [
    "Props.C130_exists",
    "Props.C130_written",
    "Props.C130_apart_partial",
    "Props.C130_read",
    "Props.C130_steps",
    "Props.C130_copy_refuted",
    "Props.C130_names_refuted",
    "Props.C130_type_refuted"
   ],
   "note": "Steps that are copies of each other share one schema (C130_copy_refuted); names are not checked (C130_names_refuted) and the type is not derived (C130_type_refuted). The rest is proved: only such copies share."
  },
  {
   "property": "C131",
   "status": "partial",
   "theorems": [
    "Props.C131_names",
    "Props.C131_as_one_build",
    "Props.C131_declared",
    "Props.C131_again",
    "Props.C131_rebuild",
    "Props.C131_unbuilt",
    "Props.C131_stable_partial",
    "Props.C131_fixed_refuted"
   ],
   "note": "C131_stable_partial misses calls that add fixed paths to the lists: each call declares them once more (C131_fixed_refuted). The rest is proved in full."
  },
  {
   "property": "C132",
   "status": "partial",
   "theorems": [
    "Props.C132_free",
    "Props.C132_first",
    "Props.C132_kept",
    "Props.C132_ends",
    "Props.C132_apart_partial",
    "Props.C132_race_refuted"
   ],
   "note": "C132_apart_partial asks that files are made at once; without that two callers get the same name (C132_race_refuted). The rest is proved in full."
  },
  {
   "property": "C133",
   "status": "partial",
   "theorems": [
    "Props.C133_settles",
    "Props.C133_more_stack_partial",
    "Props.C133_cycle",
    "Props.C133_lax_refuted"
   ],
   "note": "C133_more_stack_partial asks that nothing is lax: a lax reference to its own row gives a value under any limit, and another one for each limit (C133_lax_refuted). Where no reference leads to itself lax calls are covered (C133_settles). Expressions of pyeval are taken not to use the ranger."
  },
  {
   "property": "C134",
   "status": "partial",
   "theorems": [
    "Props.C134_same",
    "Props.C134_workbook",
    "Props.C134_sibling_partial",
    "Props.C134_sibling_named",
    "Props.C134_closed_partial",
    "Props.C134_closed_refuted",
    "Props.C134_sibling_refuted"
   ],
   "note": "C134_same and C134_workbook are complete. C134_closed_partial: a call closes a returned sheet only if it opens the same sheet anew; that it closes none is false (C134_closed_refuted). C134_sibling_partial: siblings are served unless an object for them was closed; without this it is false (C134_sibling_refuted), but not for siblings asked for by their name or number (C134_sibling_named). Workbooks do not change, a URL computed again is itself (see C81), and sheet names of a workbook differ."
  },
  {
   "property": "C135",
   "status": "partial",
   "theorems": [
    "Props.C135_same_partial",
    "Props.C135_history",
    "Props.C135_number_refuted"
   ],
   "note": "C135_history is complete for calls without a sheet in the context. C135_same_partial: with a sheet in the context, other sheets of its workbook must be named by name; by number it is false (C135_number_refuted). Filters are any for which both forms, fetching from the factory and opening anew, agree; they do not add sheets of their own. It also shows that the rangers of C74, C86 and C133, for which fetching is a function, stand for the rangers on a factory."
  },
  {
   "property": "C136",
   "status": "proved",
   "theorems": [
    "Props.C136_one",
    "Props.C136_failed",
    "Props.C136_others",
    "Props.C136_document"
   ],
   "note": ""
  },
  {
   "property": "C137",
   "status": "proved",
   "theorems": [
    "Props.C137_all",
    "Props.C137_keys",
    "Props.C137_rest",
    "Props.C137_order",
    "Props.C137_same"
   ],
   "note": ""
  },
  {
   "property": "C138",
   "status": "partial",
   "theorems": [
    "Props.C138_processed",
    "Props.C138_labels",
    "Props.C138_kept",
    "Props.C138_not_selected",
    "Props.C138_success",
    "Props.C138_failure",
    "Props.C138_references",
    "Props.C138_own_cell_partial",
    "Props.C138_header_refuted"
   ],
   "note": "C138_own_cell_partial: where the table has all of the captured rows. With a header, as the df filter makes by default, references in cells are resolved relative to a cell as many rows above as the header has (C138_header_refuted, C138_references). The rest (C138_processed, C138_labels, C138_kept, C138_not_selected, C138_success, C138_failure) is proved in full. Cells that are tables themselves, tables inside dictionaries and lists, duplicate labels and dtypes are not modelled."
  },
  {
   "property": "C139",
   "status": "partial",
   "theorems": [
    "Props.C139_combined_partial",
    "Props.C139_combined_breaches",
    "Props.C139_combined_place_partial",
    "Props.C139_errors_partial",
    "Props.C139_breaches",
    "Props.C139_place_partial",
    "Props.C139_leads",
    "Props.C139_order_refuted",
    "Props.C139_once"
   ],
   "note": "C139_errors_partial (an iff) and C139_place_partial: when no `required`, `propertyNames` or `enum` comes before a keyword that may change what they found, and enumerations are of scalars other than 0 and 1, as for C90. Otherwise errors are reported that the document left does not have, and the other way round (C139_order_refuted). C139_leads: paths lead to a value whatever the order. C139_breaches: there is something to report exactly if the document is not as the schema asks. Errors of names carry the path of the object, as jsonschema is not told the name. C139_once: no two errors say the same of the same place, whatever the order. With keywords that combine schemas: C139_combined_partial (an iff), C139_combined_place_partial, without defaults, and C139_combined_breaches."
  },
  {
   "property": "C140",
   "status": "proved",
   "theorems": [
    "Props.C140_turned",
    "Props.C140_margins",
    "Props.C140_sheets",
    "Props.C140_values",
    "Props.C140_excel_values",
    "Props.C140_lasso",
    "Props.C140_excel_lasso"
   ],
   "note": ""
  },
  {
   "property": "C141",
   "status": "partial",
   "theorems": [
    "Props.C141_order_partial",
    "Props.C141_first_full",
    "Props.C141_first_full_one",
    "Props.C141_order_refuted"
   ],
   "note": "C141_order_partial: true when the first edge ends on a full cell, which it does whenever it has moves and no `+` (C141_first_full) or a single move (C141_first_full_one). From an empty cell the two orders find different cells: `A1:..(RD)` on an empty A1, and `A1(RD+):..(RD)` when the corner of the two runs is empty (C141_order_refuted)."
  },
  {
   "property": "C142",
   "status": "proved",
   "theorems": [
    "Props.C142_recurse",
    "Props.C142_pyeval",
    "Props.C142_refused",
    "Props.C142_no_list"
   ],
   "note": "`include` and `exclude` of other values than texts (numbers, mixed lists) are outside the model."
  },
  {
   "property": "C143",
   "status": "partial",
   "theorems": [
    "Props.C143_first_partial",
    "Props.C143_second_partial",
    "Props.C143_opposite",
    "Props.C143_minus_refuted",
    "Props.C143_spaces_refuted"
   ],
   "note": "C143_first_partial, C143_second_partial: exactly one direction or two across each other, then + or ? or nothing, is accepted. C143_opposite: opposite pairs are refused. The documented modifier - is refused after every cell and moves (C143_minus_refuted; ? is read in its place, see C37_second_edge for what it does), and spaces in front of the reference are read (C143_spaces_refuted)."
  },
  {
   "property": "C144",
   "status": "partial",
   "theorems": [
    "Props.C144_shifted_partial",
    "Props.C144_margins",
    "Props.C144_sheets_partial",
    "Props.C144_padded",
    "Props.C144_values",
    "Props.C144_counting_back_refuted",
    "Props.C144_lasso_partial",
    "Props.C144_excel_values",
    "Props.C144_excel_lasso_partial"
   ],
   "note": "C144_shifted_partial: the rectangle, for any two sheets with the same full cells moved. C144_margins: the margins. C144_sheets_partial: with the margins of each sheet. C144_padded, C144_values, C144_lasso_partial: for arrays, all outcomes of a lasso without filters; C144_excel_values, C144_excel_lasso_partial: the same for sheets of Excel files, which count all cells up to the end of the sheet. Excluded are references that count back over more lines than there are: numpy wraps the landing cell around (C144_counting_back_refuted)."
  },
  {
   "property": "C145",
   "status": "partial",
   "theorems": [
    "Props.C145_reads_partial",
    "Props.C145_read_back_partial",
    "Props.C145_pandas_names",
    "Props.C145_methods_refuted",
    "Props.C145_empty_refuted"
   ],
   "note": "C145_reads_partial: reading an attribute of a step without mappings. C145_read_back_partial: reading what was assigned. C145_pandas_names: the two names that pandas looks for raise AttributeError and make no step, as the code says. Violated for names of methods of texts, such as index and title (C145_methods_refuted), and for the empty text, whose step is replaced by a new one without children (C145_empty_refuted)."
  },
  {
   "property": "C146",
   "status": "partial",
   "theorems": [
    "Props.C146_written_is_read_partial",
    "Props.C146_slashes_refuted",
    "Props.C146_mapped_partial",
    "Props.C146_through_refuted"
   ],
   "note": "C146_written_is_read_partial: for steps without mappings, whose names have none of the characters special in pointers. C146_mapped_partial: for steps made from mappings, where of different mapped paths neither leads through the other. C146_slashes_refuted: a step renamed to a text with an (escaped) slash has a path that addresses another value than its text. C146_through_refuted: with /a mapped to x and /b to x/y, setting /x/y replaces the value set at /x."
  },
  {
   "property": "C147",
   "status": "proved",
   "theorems": [
    "Props.C147_header_and_index",
    "Props.C147_header_and_index_excel",
    "Props.C147_among_others",
    "Props.C147_among_others_excel"
   ],
   "note": ""
  },
  {
   "property": "C148",
   "status": "partial",
   "theorems": [
    "Props.C148_verdict_partial",
    "Props.C148_series_partial",
    "Props.C148_positions",
    "Props.C148_frame_partial",
    "Props.C148_columns_refuted",
    "Props.C148_enum_refuted",
    "Props.C148_nan_refuted",
    "Props.C148_raises_refuted",
    "Props.C148_errors_partial",
    "Props.C148_repeated_refuted",
    "Props.C148_plain"
   ],
   "note": "C148_verdict_partial (and C148_series_partial, C148_frame_partial for one Series or DataFrame): without defaults, for enumerations of values other than booleans, 0 and 1, and schemas that take no nulls where all there is is one NaN among numbers. C148_columns_refuted, C148_enum_refuted, C148_nan_refuted, C148_raises_refuted: the columns are objects as well as arrays; a 0 in a Series passes for `false`; a single NaN is null and an array; enumerations raise for a whole Series. C148_errors_partial: the errors are the breaches of C139 in what the document stands for, at the same places. C148_repeated_refuted: labels that are there more than once. C148_plain: documents without such objects are validated exactly as ever, whatever is listed."
  },
  {
   "property": "C149",
   "status": "partial",
   "theorems": [
    "Props.C149_result",
    "Props.C149_closed_partial",
    "Props.C149_again_partial",
    "Props.C149_nameless_refuted"
   ],
   "note": "C149_closed_partial, C149_again_partial: for backends that give names to all workbooks and open none without a name; replacing a sheet closes without raising. C149_nameless_refuted: a sheet of a workbook without a name is not registered and stays open."
  },
  {
   "property": "C150",
   "status": "partial",
   "theorems": [
    "Props.C150_same_partial",
    "Props.C150_history_partial",
    "Props.C150_number_refuted"
   ],
   "note": "C150_same_partial and C150_history_partial: for cells (and values that filters make) without references to a sheet of the workbook at hand by its number; for those it is false (C150_number_refuted). Expressions of pyeval do not use the ranger; nesting up to any stack limit n, one more filter being a RecursionError."
  },
  {
   "property": "C151",
   "status": "partial",
   "theorems": [
    "Props.C151_kept_partial",
    "Props.C151_count_partial",
    "Props.C151_lasso_partial",
    "Props.C151_in_turn",
    "Props.C151_added",
    "Props.C151_texts_refuted",
    "Props.C151_ids_refuted"
   ],
   "note": "Proved when each workbook is always written in the same way and each sheet is given by name, number or no id. Refuted otherwise: with two texts for a workbook, or the first sheet both with no id and by its number as text, in turn, every call opens the workbook again and closes the sheet returned before."
  },
  {
   "property": "C152",
   "status": "partial",
   "theorems": [
    "Props.C152_right_sheet",
    "Props.C152_raised",
    "Props.C152_apart_partial",
    "Props.C152_one_by_one",
    "Props.C152_closed_refuted",
    "Props.C152_size_refuted",
    "Props.C152_missing_refuted",
    "Props.C152_lost_refuted",
    "Props.C152_ends"
   ],
   "note": "Proved for every order: a returned sheet is the right one, and an error of opening is one that opening gives. If no two calls ask for the same sheet, nothing is closed and no call fails otherwise. Refuted: with calls for the same sheet a returned sheet may be closed, and a call may fail with RuntimeError or KeyError; even for different sheets of a workbook what was fetched may be lost from the factory. Calls one after the other are proved to be the single-threaded function. C152_ends: a call that is given turns again and again ends, whatever the other threads do."
  },
  {
   "property": "C153",
   "status": "partial",
   "theorems": [
    "Props.C153_history",
    "Props.C153_as_first_partial",
    "Props.C153_own_filters",
    "Props.C153_pipes",
    "Props.C153_lax_refuted",
    "Props.C153_pipe_refuted"
   ],
   "note": "Violated: the first call pops lax from the keywords of the caller (C153_lax_refuted), also inside the arguments of pipes (C153_pipe_refuted). C153_as_first_partial: for call-specs without lax. C153_history says what happens with it: a call gets what it would as the first one, with the call-specs that were used before stripped of lax. C153_own_filters: references that name their filter are not concerned."
  },
  {
   "property": "C154",
   "status": "partial",
   "theorems": [
    "Props.C154_agrees",
    "Props.C154_outcome",
    "Props.C154_lasso",
    "Props.C154_values",
    "Props.C154_cells",
    "Props.C154_evaluated",
    "Props.C154_refused",
    "Props.C154_no_stack",
    "Props.C154_all",
    "Props.C154_unchanged_partial",
    "Props.C154_refuted"
   ],
   "note": "Violated: cells are replaced in the captured lists themselves, so that the lasso returned has the cells before the failing one replaced (C154_refuted). C154_unchanged_partial: when it fails at the first reference. C154_cells and C154_evaluated say exactly what is returned, for recurse and for pyeval with eval_all; C154_all: without failures all are replaced. C154_agrees and C154_outcome: calls that are not lax, or whose filter does not fail, are as in Model/Lasso, which does not change values in place. C154_values: what is left of any values, dictionaries too; C154_refused, C154_no_stack: nothing is changed when no cell was looked at; C154_lasso: whole lassos."
  },
  {
   "property": "C155",
   "status": "partial",
   "theorems": [
    "Props.C155_same_partial",
    "Props.C155_unchanged_partial",
    "Props.C155_states_true",
    "Props.C155_margins_true",
    "Props.C155_waits_for_none",
    "Props.C155_alone",
    "Props.C155_refuted"
   ],
   "note": "Violated when the contents change meanwhile: a thread that was about to remember what it read earlier replaces the newer answer that others got already, and later ones get the old contents again (C155_refuted). C155_same_partial and C155_unchanged_partial: without changes every answer is that of a thread alone. With changes, each answer is of some time until then (C155_states_true, C155_margins_true). C155_waits_for_none: eight operations of its own suffice. C155_alone: operations in a row are the method as modelled for C95."
  },
  {
   "property": "C156",
   "status": "partial",
   "theorems": [
    "Props.C156_called_partial",
    "Props.C156_options_only",
    "Props.C156_refused",
    "Props.C156_redim",
    "Props.C156_redim_refused",
    "Props.C156_xlwings_partial",
    "Props.C156_xlwings_refuted"
   ],
   "note": "C156_called_partial, C156_options_only and C156_refused are about all references with filters; C156_redim and C156_redim_refused about all arguments of redim (floats as dimensions are left out). C156_xlwings_partial: for array sheets whose cells in the rectangle are of one kind, or some of which numpy can only hold as objects; otherwise it is violated: numpy makes texts of the numbers of a row that has both (C156_xlwings_refuted, as for C54). Lax calls of filters that change values in place before they fail return what these left, see C154."
  },
  {
   "property": "C157",
   "status": "proved",
   "theorems": [
    "Props.C157_children",
    "Props.C157_order",
    "Props.C157_dir",
    "Props.C157_paths",
    "Props.C157_orig_tells"
   ],
   "note": "C157_children: names and steps listed. C157_order: their order; failing operations add none. C157_dir: a child named as a method of texts (assigned to, since it cannot be made by reading) is listed twice. C157_paths: any history, unlike C19, C24 and C77 which say more for trees that were only read; with a step below itself the paths are a RecursionError, with and without original names. C157_orig_tells: for names without parentheses (and original ones without slash and >)."
  },
  {
   "property": "C158",
   "status": "partial",
   "theorems": [
    "Props.C158_settled",
    "Props.C158_written_partial",
    "Props.C158_nested",
    "Props.C158_lax_left",
    "Props.C158_lax_detached",
    "Props.C158_lax_refuted"
   ],
   "note": "C158_written_partial: what is captured, which filters run on what, and what the outcome is. C158_settled: what filters come to is settled (the relation is a function). C158_nested: both directions, up to stack for one more filter within another. Violated for lax pipes: filters that go through the values change the captured lists themselves, so that a lax pipe that fails returns what the filters before made of them (C158_lax_left, for all such pipes; C158_lax_refuted, a witness). C158_lax_detached: what filters do after one that returned other values is not seen."
  },
  {
   "property": "C159",
   "status": "proved",
   "theorems": [
    "Props.C159_whole",
    "Props.C159_found",
    "Props.C159_found_excel",
    "Props.C159_within",
    "Props.C159_within_excel",
    "Props.C159_single",
    "Props.C159_single_excel",
    "Props.C159_colon_excel"
   ],
   "note": "C159_whole: around what is captured no line has a full cell, and all linked cells are in it. C159_found, C159_within (and _excel): exactly the table and its values. C159_single (and _excel, for sheets that end with the table): the same as a lone `:`. C159_colon_excel: what a lone `:` captures in general."
  },
  {
   "property": "C160",
   "status": "proved",
   "theorems": [
    "Props.C160_opened",
    "Props.C160_alike"
   ],
   "note": "C160_opened: both ways of naming open the same sheet. C160_alike: the two calls end alike. References have no filters, since a filter may look at how the sheet was named."
  },
  {
   "property": "C161",
   "status": "proved",
   "theorems": [
    "Props.C161_again",
    "Props.C161_cells",
    "Props.C161_cells_excel"
   ],
   "note": "C161_again: any kind of sheet. C161_cells, C161_cells_excel: cell by cell. Coordinates below zero, which C32_never_negative_refuted shows to be possible, have no cell name."
  },
  {
   "property": "C162",
   "status": "proved",
   "theorems": [
    "Props.C162_gathers",
    "Props.C162_any_order",
    "Props.C162_merged",
    "Props.C162_build",
    "Props.C162_built",
    "Props.C162_none_matters"
   ],
   "note": "C162_none_matters: with None in two submodels at one place, one order of submodels that nowhere disagree builds a model and another one does not, so the condition on None is needed."
  },
  {
   "property": "C163",
   "status": "proved",
   "theorems": [
    "Props.C163_expanded",
    "Props.C163_rect",
    "Props.C163_lasso",
    "Props.C163_excel_lasso"
   ],
   "note": "The same margins are needed for ^, _ and rows or columns counted from the end: these depend on cells anywhere. An example shows that a full cell next to the table does change what is captured."
  },
  {
   "property": "C164",
   "status": "partial",
   "theorems": [
    "Props.C164_throw",
    "Props.C164_pipe",
    "Props.C164_same",
    "Props.C164_ends",
    "Props.C164_uninterrupted",
    "Props.C164_remembered_partial",
    "Props.C164_own_refuted"
   ],
   "note": "C164_same, C164_throw, C164_pipe, C164_ends and C164_uninterrupted hold in full. For what is remembered only C164_remembered_partial holds: C164_own_refuted shows a thread that failed and finds the stage of a lasso of another thread. Fetching and asking sheets are functions here: threads that share a factory or a sheet are in C152 and C155."
  },
  {
   "property": "C165",
   "status": "partial",
   "theorems": [
    "Props.C165_alone",
    "Props.C165_ends",
    "Props.C165_kept",
    "Props.C165_reread",
    "Props.C165_texts_partial",
    "Props.C165_paths_refuted",
    "Props.C165_alias_refuted"
   ],
   "note": "C165_alone, C165_ends, C165_kept and C165_reread hold in full, with and without mappings. C165_texts_partial: the texts are right for steps without mappings. C165_alias_refuted: a mapped name may be lost. C165_paths_refuted: chains read may be missing from the paths reported. Assignments by threads are not modelled."
  },
  {
   "property": "C166",
   "status": "partial",
   "theorems": [
    "Props.C166_added",
    "Props.C166_build",
    "Props.C166_alone",
    "Props.C166_returned_partial",
    "Props.C166_values",
    "Props.C166_model",
    "Props.C166_raised_partial",
    "Props.C166_ends",
    "Props.C166_returned_refuted",
    "Props.C166_raised_refuted"
   ],
   "note": "C166_added, C166_build, C166_alone, C166_ends and C166_model hold in full. C166_returned_partial: what is returned is a merge of some of the submodels; C166_returned_refuted: it need not be the merge of all of them, nor pass the validation. C166_raised_partial: an error raised belongs to some submodels or to a merge of some of them, or tells of another thread's; C166_raised_refuted: building alone may raise none. Curate-functions, and defaults that validation fills in, are not modelled with threads."
  },
  {
   "property": "C167",
   "status": "partial",
   "theorems": [
    "Props.C167_right_sheet",
    "Props.C167_raised",
    "Props.C167_close_ends_with",
    "Props.C167_close_partial",
    "Props.C167_ends",
    "Props.C167_fetch_in_turn",
    "Props.C167_close_in_turn",
    "Props.C167_lost_refuted",
    "Props.C167_dead_refuted",
    "Props.C167_size_refuted",
    "Props.C167_half_refuted",
    "Props.C167_missing_refuted",
    "Props.C167_quiet_partial"
   ],
   "note": "C167_right_sheet, C167_raised, C167_close_ends_with, C167_ends, C167_fetch_in_turn and C167_close_in_turn hold in full. C167_close_partial: closing that nobody interrupts closes what the factory holds and empties it. C167_quiet_partial: closing succeeds and closes all that was held as long as nothing is put in the factory or taken out meanwhile, however others mix in. Refuted otherwise: a sheet may be left open and out of reach (C167_lost_refuted), a closed sheet may be put in the factory and returned later (C167_dead_refuted), closing may fail with RuntimeError and close nothing (C167_size_refuted) or only some sheets, which stay in the factory (C167_half_refuted), and fetching may fail with KeyError (C167_missing_refuted). Fetching siblings of a sheet, and sheets whose closing raises, are not modelled with threads."
  },
  {
   "property": "C168",
   "status": "proved",
   "theorems": [
    "Props.C168_each",
    "Props.C168_fails"
   ],
   "note": ""
  },
  {
   "property": "C169",
   "status": "partial",
   "theorems": [
    "Props.C169_told_partial",
    "Props.C169_long_refuted"
   ],
   "note": "C169_told_partial: patterns that take at most 200 characters when written; longer ones are cut off by the standard library, so that different mappings are shown as the same text (C169_long_refuted)."
  }
 ]
}