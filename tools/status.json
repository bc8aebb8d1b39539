{
 "C05": {
  "status": "proved",
  "note": "C05_set_get_refuted_negative shows why negative list indexes are excluded: out-of-range negative indexes append."
 },
 "C07": {
  "status": "partial",
  "note": "The code violates the property: UnboundLocalError instead of RefResolutionError for the empty pointer (C07_empty_pointer_refuted)."
 },
 "C08": {
  "status": "partial",
  "note": "Absolute paths do not start at the root when the document has an empty key (C08_absolute_refuted); proved for all other documents. C08_exact says what every path resolves to, of all documents, roots and steps, empty ones too."
 },
 "C66": {
  "status": "partial",
  "note": "The code violates the property: Pandel.get drops the value (C66_get_refuted)."
 },
 "C16": {
  "status": "partial",
  "note": "Proved for steps without ~ or escapes; the code violates the property for escaped steps (C16_escaped_refuted) and for '/' (C16_slash_refuted)."
 },
 "C18": {
  "status": "partial",
  "note": "The code violates the property (C18_folder_refuted): line 555 extends the wrong variable."
 },
 "C32": {
  "status": "partial",
  "note": "Everything is proved except 'never negative', which the code violates (C32_never_negative_refuted: 'R-4' on a 3-row sheet), and the empty column text, which is accepted (C32_empty_column_refuted). C32_negative_exact says exactly where a coordinate is negative."
 },
 "C40": {
  "status": "proved",
  "note": "Line breaks are excluded because one trailing newline is accepted (C40_newline_refuted)."
 },
 "C41": {
  "status": "proved",
  "note": "C41_bang_in_filters_refuted shows why '!' is excluded from the filters of a reference without a sheet: the text up to it is taken as a sheet name."
 },
 "C50": {
  "status": "partial",
  "note": "The code violates the property: a lax call of a filter that does not return a lasso yields that value (C50_lax_not_lasso_refuted), and a verbose failing call of an undescribed filter raises TypeError (C50_verbose_refuted). Proved outside these. Filters that change values in place before they fail are treated in C154."
 },
 "C52": {
  "status": "partial",
  "note": "The code violates the property: the options of a reference replace the base options wholesale (C52_override_refuted). Proved: which options are in force in each case."
 },
 "C53": {
  "status": "partial",
  "note": "The code violates the property for lax sub-filters: the lax keyword is lost after the first element (C53_lax_refuted). C53_processed_partial: without it. C53_first says what happens with it: it is in force for one element and no other. The rest (C53_frame, C53_success, C53_failure) holds for all sub-filters."
 },
 "C45": {
  "status": "partial",
  "note": "The code violates the property: every encased reference is refused with ValueError by the lasso (C45_encased_refuted, C45_witness_refuted). Proved: parsing gives the same fields for references without filters; double quotes around a reference ending in a colon fail (C45_colon_refuted)."
 },
 "C54": {
  "status": "partial",
  "note": "The code violates the property when texts and numbers are mixed, because numpy turns all into texts (C54_mixed_refuted). Proved for values that numpy keeps; deeper than two dimensions, dropping trivial dimensions may fail (C54_deeper_refuted). Integers and booleans together keep their numbers (C54_numbers); with texts all become their texts (C54_texts). C54_exact: exactly which values are kept."
 },
 "C56": {
  "status": "partial",
  "note": "The result always ends with an accepted extension and never fails on a non-empty name; idempotence holds for plain extensions on named files and fails for extensions with inner dots, folder paths and dot-less extensions in regex mode (refuted with witnesses)."
 },
 "C57": {
  "status": "partial",
  "note": "Proved for every schedule of any number of concurrent calls while others at most create the directory; fails when another process creates a file in between or the path is a dangling link (refuted). os.makedirs is one atomic step."
 },
 "C69": {
  "status": "partial",
  "note": "The code ignores the generator given: refuted; holds for the default generator."
 },
 "C48": {
  "status": "partial",
  "note": "The code violates the property (C48_default_refuted): a sheet added without ids is also registered under the 'no sheet' id, so it closes the other sheets of its workbook added so. Proved: exactly the sheets under the registered ids are closed, all others stay."
 },
 "C63": {
  "status": "proved",
  "note": "Letter case: the extension is compared in upper case (a long s counts as s, as in Python's IGNORECASE). One newline may follow, as for every Python regex ending in $. C63_bid states which paths the backend bids for: the extension may be anywhere before a word boundary."
 },
 "C72": {
  "status": "partial",
  "note": "The code violates the property (C72_sibling_refuted): naming a sheet next to a base sheet raises UnboundLocalError. Proved for the other cases."
 },
 "C59": {
  "status": "partial",
  "note": "The code violates the property for units in angle brackets that have a closing parenthesis (C59_parenthesis_refuted); otherwise the exact set of accepted texts and their reading is proved."
 },
 "C61": {
  "status": "partial",
  "note": "The code violates the property exactly for payloads that mix CR LF with other LF bytes (C61_payload_partial is an iff; C61_mixed_refuted, C61_crlf_refuted). Pickling and JSON are parameters assumed to round-trip; the quoted-printable coder is modelled after CPython and compared with it on 200000 random strings."
 },
 "C62": {
  "status": "partial",
  "note": "The code violates the property for property names with a slash or tilde, which are not escaped (C62_slash_refuted); C62_paths holds for every schema. C62_written_exact: a path splits to its names exactly if none of them has a slash, ~0 or ~1 in it."
 },
 "C25": {
  "status": "partial",
  "note": "Proved for objects whose common keys hold mergeable values. A text over a list is spread into characters and a scalar over an object or list is a TypeError: see C25_text_over_list_refuted and C25_scalar_refuted. C25_exact: the result is the earlier model overridden by the later one exactly if no text comes over a list."
 },
 "C29": {
  "status": "partial",
  "note": "The effect is proved in full for the rule; validating again changes nothing unless nulls are removed from a property that is filled in when missing (C29_again_refuted); schema flags alone do not install the rule (C29_schema_flag_refuted). The default is filled in for a missing property whatever its type, although the documentation limits it to types that do not support nulls (C29_nullable_refuted). C29_again_exact says for which schemas validating again never changes anything more."
 },
 "C30": {
  "status": "partial",
  "note": "Proved for every set of patterns except the single empty pattern, which is taken for no patterns (C30_empty_pattern_refuted). The regex library is a parameter that treats joined patterns as alternatives. C30_extras_exact says which properties are additional whatever the patterns."
 },
 "C28": {
  "status": "partial",
  "note": "Proved on a heap with sharing for validations and curations that do not write to the objects that were there, and for schemas without defaults. The default validator fills in defaults in the submodels (C28_prevalidation_refuted) and, through shared inner objects, when the unified model is validated (C28_validation_refuted)."
 },
 "C74": {
  "status": "partial",
  "note": "As for C53, a lax keyword of the sub-filters is lost after the first reference (C74_lax_refuted); C74_references_replaced_partial is without it, C74_first says what happens with it. The rest holds for all sub-filters."
 },
 "C20": {
  "status": "partial",
  "note": "C20_reread_partial: for every state, path and intervening reads, re-reading a chain of attributes gives the same steps and leaves the state alone, provided no step on it has an empty text. C20_empty_refuted: a step with empty text is made anew on each reading, losing its children (the code tests truth of a str)."
 },
 "C21": {
  "status": "partial",
  "note": "C21_lock_raises and C21_texts_are_fixed hold fully; C21_locks_hold_partial: locks hold along every history that assigns no text against a lock. C21_locked_renamed_refuted, C21_locked_moved_refuted: assigning a text or a step to an attribute renames or relocates a locked step without error."
 },
 "C22": {
  "status": "partial",
  "note": "C22_mappings_kept_partial: mappings keep standing for the same tree along every history except one that assigns a text to an attribute of a step having children and sharing the mappings. C22_renaming_refuted: then the caller's mappings are changed."
 },
 "C60": {
  "status": "proved",
  "note": "Components named '' are excluded where the inputs are spelled out: they report nothing they read (C60_empty_name_refuted). Component functions are lists of uses of their steps."
 },
 "C78": {
  "status": "proved",
  "note": "Assigning a step with an empty text loses its children (C78_empty_step_refuted); assigning a step below itself, or to itself, makes its paths infinite (C78_ancestor_refuted, C78_self_refuted)."
 },
 "C79": {
  "status": "partial",
  "note": "C79_opens_meant_partial: holds for plain paths whose absolute text has at most 200 characters. C79_long_path_refuted: longer paths get a suffix and are never opened. C79_special_characters_refuted: paths with %, #, ?, backslash, tab, first blank, a colon in the first segment, a double slash."
 },
 "C80": {
  "status": "partial",
  "note": "C80_file_url_opens_partial, and C80_any_encoding_partial for any other way of percent-encoding: holds up to 200 characters; C80_long_url_refuted: fails for every longer path."
 },
 "C81": {
  "status": "partial",
  "note": "C81_url_stable_partial: plain paths and percent-encoded file URLs. C81_url_stable_refuted: a remote URL without path changes each time."
 },
 "C82": {
  "status": "partial",
  "note": "C82_remote_unchanged_partial: URLs of any scheme but file, with a host (which http, https and ftp may lack), a normal path and no parameters. C82_remote_refuted: empty paths, empty segments, no host with a scheme unknown to Python, parameters."
 },
 "C83": {
  "status": "partial",
  "note": "C83_all_closed_partial: every sheet opened is closed, with its workbook unless another sheet was opened meanwhile; C83_one_sheet_partial: with one sheet opened its workbook is released. C83_workbook_refuted: a workbook referred to by the name of a sheet and then by the sheet's number is opened twice, and the first is only unloaded."
 },
 "C84": {
  "status": "partial",
  "note": "C84_given_factory, C84_given_sheet_partial: the sheet of the context is not closed. C84_sibling_refuted: a reference to another sheet of the workbook of the context releases that workbook."
 },
 "C85": {
  "status": "partial",
  "note": "C85_default_opts; C85_base_opts_partial: options other than 'read' are in effect as documented. C85_base_opts_refuted, C85_filters_refuted: what is given replaces the defaults."
 },
 "C88": {
  "status": "partial",
  "note": "C88_array_all: proved for arrays. C88_xlrd_all_partial: in Excel files the end of the sheet counts, blank or not; C88_xlrd_refuted."
 },
 "C90": {
  "status": "partial",
  "note": "C90_verdict_partial, C90_same_verdict_partial: when no `required`, `propertyNames` or `enum` comes before a keyword that may change what they found, and enumerations are of scalars other than 0 and 1; C90_again_partial: unless a property is removed when null and filled in when missing. C90_order_refuted: with `required` before `properties` both directions fail."
 },
 "C91": {
  "status": "partial",
  "note": "C91_enum_partial: unless booleans meet the numbers 0 and 1; C91_true_refuted: True passes where only 1 is listed. C91_exact says exactly what is accepted."
 },
 "C92": {
  "status": "partial",
  "note": "C92_writes, C92_others: what is written in general; C92_scalars_partial: the property, for scalar defaults. C92_shared_refuted: a default that is an object is put into documents itself, and changed there."
 },
 "C93": {
  "status": "partial",
  "note": "C93_cells_partial: without skiprows, columns by number, captures that are not empty. Refuted: with skiprows blank cells take skipped or header texts (C93_skiprows_refuted); usecols as letters always fails (C93_letters_refuted); an empty capture is a ValueError (C93_empty_refuted); captured lists are changed even when pandas fails (C93_in_place_refuted); a list index without header always fails (C93_headless_refuted)."
 },
 "C94": {
  "status": "partial",
  "note": "As for C53, a lax keyword of the sub-filters is lost after the first element (C94_lax_refuted); C94_evaluated_partial is without it, C94_first says what happens with it. The rest holds for all sub-filters. Expressions that change objects in place are not modelled."
 },
 "C96": {
  "status": "partial",
  "note": "C96_write_partial: unless the text ends with many line endings, of which more than one is removed (C96_many_refuted). C96_exact: an iff."
 },
 "C97": {
  "status": "partial",
  "note": "C97_told_partial: keys that do not end with a blank and have no equals sign between blanks, and pairs of one line; else different pairs may give the same text (C97_ambiguous_refuted)."
 },
 "C98": {
  "status": "partial",
  "note": "C98_exact: exactly which files are found, in which order. C98_which_partial: when no executable file has that name followed by .bat, com or .exe, unless the program is in the same folder or an earlier one; else such files in earlier folders win, also on POSIX (C98_endings_refuted). Empty parts of the path, which mean the current folder, are ignored (C98_current_folder_refuted). C98_command: where there is a command `where`, its answer is taken."
 },
 "C99": {
  "status": "partial",
  "note": "C99_every_branch holds for any tree, C99_pairs for trees read from mappings. C99_rebuilt_partial needs names that do not start with a dot (C99_dots_refuted) and plain relative aliases; steps assigned to other attributes keep their original names, so that their pairs collide (C99_assigned_refuted)."
 },
 "C100": {
  "status": "partial",
  "note": "C100_rows_partial: rows of children of the root. For nested paths the attributes are set on a child called by the whole rest of the path (C100_nested_refuted); names of methods of texts make the call fail (C100_method_refuted); so does a row that says nothing (C100_blank_refuted)."
 },
 "C67": {
  "status": "partial",
  "note": "The code violates the property: a reference with a first edge only that cannot be resolved raises TypeError while composing the message of the ValueError (C67_one_edge_refuted); proved for all others, and that this is the only exception."
 },
 "C101": {
  "status": "partial",
  "note": "C101_stages_partial: for references that are texts, with the stage that failed, or the values read when there is no filter. After a filter, the lasso before it is remembered, not the final one as documented (C101_filtered_refuted); a reference that is no text leaves what was there (C101_text_refuted). C101_pipe: in a pipe, the filter that failed or the last one, with what it was given."
 },
 "C103": {
  "status": "partial",
  "note": "Holds for files with different names: C103_imported_partial, C103_atomic, C103_refused, C103_names. Violated: of files with the same name in different folders only one is imported (C103_same_name_refuted); a module is lost from the open workbook when its file cannot be imported (C103_lost_refuted)."
 },
 "C104": {
  "status": "partial",
  "note": "Proved for new names, for macro-enabled workbooks saved before or never, and for names not ending with m. Violated for empty new names (C104_empty_refuted) and for other extensions that end with m (C104_html_refuted)."
 },
 "C105": {
  "status": "partial",
  "note": "Holds unless saving itself fails; then alerts stay off (C105_alerts_refuted)."
 },
 "C106": {
  "status": "partial",
  "note": "Nothing else is removed (C106_only) and without names all modules are (C106_all). With names, modules are only removed if they come first and in the order of the names (C106_first_partial); violated otherwise (C106_named_refuted)."
 },
 "C109": {
  "status": "partial",
  "note": "C109_series_partial, C109_nested_partial, C109_last_partial: objects and Series, with cells that override each other; C109_anything: exactly what merging anything with a Series gives; C109_without: without Series it is the merging of C25. Violated: objects in cells are replaced, not merged (C109_cells_refuted); lists and scalars are added under their positions instead of overwriting (C109_list_refuted, C109_scalar_refuted). Types of cells (dtype) and DataFrames are not modelled."
 },
 "C111": {
  "status": "partial",
  "note": "C111_verdict_partial: without defaults; C111_lazy holds with defaults too. With defaults the property is violated: alternatives that do not apply leave their defaults in the document (C111_trace_refuted), and a document may be accepted that is not as the schema asks, and refused the next time (C111_verdict_refuted)."
 },
 "C112": {
  "status": "partial",
  "note": "C112_meaning and C112_form hold for all paths. C112_again_partial, C112_slash_partial and C112_absolute_partial: without backslashes and newlines, and at most one slash at the end. C112_again_exact, C112_slash_exact and C112_absolute_exact say, of all paths, exactly where normalising again changes nothing and which paths end with a slash when normalised or made absolute. Violated otherwise (C112_refuted): 'a//' loses its slashes, 'a\\\\' becomes a folder, and a file again when normalised again."
 },
 "C113": {
  "status": "partial",
  "note": "C113_variables_partial: shares not directly after variables, and no '_UNC_PATH_HERE' in the path; C113_plain: without the flags. Violated otherwise (C113_refuted): '$A$\\\\b' is not expanded, 'd_UNC_PATH_HERE_b' becomes 'd$\\\\b'."
 },
 "C114": {
  "status": "partial",
  "note": "C114_drive_partial: paths that stay below the root of the drive, without characters that mean something in URLs; C114_prefix. Violated otherwise (C114_refuted): 'C:\\\\..\\\\a' leaves the drive, '#' begins a fragment."
 },
 "C115": {
  "status": "partial",
  "note": "C115_back_partial: paths of up to 200 characters, not beginning with the prefix for long paths, not ending with a backslash or a newline. Violated otherwise (C115_refuted): longer paths come back with the prefix put at their end, 'a\\\\' comes back as 'a\\\\/', and of the prefix a backslash stays. C115_characters holds for all paths. C115_back_exact says, of all paths, exactly which come back."
 },
 "C116": {
  "status": "partial",
  "note": "C116_equal and C116_congruence hold for all mappings; C116_map_partial: mappings in which the regexes that match the same step are in the same order. Violated otherwise (C116_order_refuted): regexes are tried in their order, and comparing does not look at it."
 },
 "C117": {
  "status": "partial",
  "note": "C117_columns holds for all tables without repeated labels. C117_cells_partial, C117_rows_partial and C117_last_partial: for the rows of the first table. Violated otherwise (C117_refuted): rows that only a later table has are lost, and so are values for the columns of an earlier table without rows. Submodels of which only one is a DataFrame, repeated labels and types of columns are not modelled."
 },
 "C118": {
  "status": "partial",
  "note": "C118_dict and C118_series hold for all tables of two columns. C118_refused_partial: what is made of rows but not of two columns is refused. Violated otherwise (C118_refuted): a column of texts of two characters is not refused, the texts are taken apart."
 },
 "C120": {
  "status": "partial",
  "note": "C120_one_type and C120_documents hold for all values. C120_types_partial, C120_null_partial: but for arrays that are not of one dimension, and for Python's own NaN. Violated there: an array of any number of dimensions is an array (C120_dims_refuted), float('nan') is a number and not null (C120_nan_refuted). C120_exact says what every value is taken for."
 },
 "C121": {
  "status": "partial",
  "note": "C121_merged_partial, C121_built_partial and C121_origin_partial: when no rule removes values and no text meets a list; C121_prevalidation says when prevalidation may not change what is given. Violated otherwise (C121_refuted): when submodels are prevalidated, the defaults of the schema are put into the last submodel and from there over what earlier submodels give."
 },
 "C122": {
  "status": "partial",
  "note": "C122_installed_partial and C122_last: for calls in which a whole ModelOperations is given. Violated for keywords: on a new maker they raise an AttributeError (C122_new_refuted), later they are without effect, as the result of _replace is dropped (C122_keywords_refuted); operations that are not given in the last call are removed (C122_empty_refuted)."
 },
 "C124": {
  "status": "partial",
  "note": "C124_dates_partial: all dates of workbooks in the system of 1900, but for the 29th of February 1900, which Python does not have; C124_times: all times. Violated for workbooks in the system of 1904 (C124_1904_refuted): none of their dates is read as shown, because sheets are not told about the system; C124_told shows that they could be. Negative numbers are not modelled."
 },
 "C125": {
  "status": "partial",
  "note": "C125_submodels_partial: for validations and curations that do not write to the objects of others; C125_build_partial: for schemas without defaults. Violated otherwise (C125_refuted): the defaults filled into a built model are written to the inner objects of the submodels, and merged over by later builds. Builds are run to their end; changes that the user makes to submodels are left out."
 },
 "C126": {
  "status": "partial",
  "note": "C126_flag, C126_reports, C126_later and C126_one_go hold for all histories in which the last build begun is the one advanced; C126_submodels_partial and C126_build_partial need careful validations, as C125. Violated when an iteration is resumed after another was begun (C126_resumed_refuted): the flag is shared, so that it goes on with later phases after an error."
 },
 "C127": {
  "status": "proved",
  "note": "Other processes at most make directories (see C57 for files). Permissions, '.', '..' and links are left out."
 },
 "C128": {
  "status": "partial",
  "note": "Closed sheets are served: when `close()` raises midway the sheets closed before are still cached (C128_served_refuted). The rest is proved."
 },
 "C130": {
  "status": "partial",
  "note": "Steps that are copies of each other share one schema (C130_copy_refuted); names are not checked (C130_names_refuted) and the type is not derived (C130_type_refuted). The rest is proved: only such copies share."
 },
 "C131": {
  "status": "partial",
  "note": "C131_stable_partial misses calls that add fixed paths to the lists: each call declares them once more (C131_fixed_refuted). The rest is proved in full."
 },
 "C132": {
  "status": "partial",
  "note": "C132_apart_partial asks that files are made at once; without that two callers get the same name (C132_race_refuted). The rest is proved in full."
 },
 "C133": {
  "status": "partial",
  "note": "C133_more_stack_partial asks that nothing is lax: a lax reference to its own row gives a value under any limit, and another one for each limit (C133_lax_refuted). Where no reference leads to itself lax calls are covered (C133_settles). Expressions of pyeval are taken not to use the ranger."
 },
 "C134": {
  "status": "partial",
  "note": "C134_same and C134_workbook are complete. C134_closed_partial: a call closes a returned sheet only if it opens the same sheet anew; that it closes none is false (C134_closed_refuted). C134_sibling_partial: siblings are served unless an object for them was closed; without this it is false (C134_sibling_refuted), but not for siblings asked for by their name or number (C134_sibling_named). Workbooks do not change, a URL computed again is itself (see C81), and sheet names of a workbook differ."
 },
 "C135": {
  "status": "partial",
  "note": "C135_history is complete for calls without a sheet in the context. C135_same_partial: with a sheet in the context, other sheets of its workbook must be named by name; by number it is false (C135_number_refuted). Filters are any for which both forms, fetching from the factory and opening anew, agree; they do not add sheets of their own. It also shows that the rangers of C74, C86 and C133, for which fetching is a function, stand for the rangers on a factory."
 },
 "C138": {
  "status": "partial",
  "note": "C138_own_cell_partial: where the table has all of the captured rows. With a header, as the df filter makes by default, references in cells are resolved relative to a cell as many rows above as the header has (C138_header_refuted, C138_references). The rest (C138_processed, C138_labels, C138_kept, C138_not_selected, C138_success, C138_failure) is proved in full. Cells that are tables themselves, tables inside dictionaries and lists, duplicate labels and dtypes are not modelled."
 },
 "C139": {
  "status": "partial",
  "note": "C139_errors_partial (an iff) and C139_place_partial: when no `required`, `propertyNames` or `enum` comes before a keyword that may change what they found, and enumerations are of scalars other than 0 and 1, as for C90. Otherwise errors are reported that the document left does not have, and the other way round (C139_order_refuted). C139_leads: paths lead to a value whatever the order. C139_breaches: there is something to report exactly if the document is not as the schema asks. Errors of names carry the path of the object, as jsonschema is not told the name. C139_once: no two errors say the same of the same place, whatever the order. With keywords that combine schemas: C139_combined_partial (an iff), C139_combined_place_partial, without defaults, and C139_combined_breaches."
 },
 "C141": {
  "status": "partial",
  "note": "C141_order_partial: true when the first edge ends on a full cell, which it does whenever it has moves and no `+` (C141_first_full) or a single move (C141_first_full_one). From an empty cell the two orders find different cells: `A1:..(RD)` on an empty A1, and `A1(RD+):..(RD)` when the corner of the two runs is empty (C141_order_refuted)."
 },
 "C142": {
  "status": "proved",
  "note": "`include` and `exclude` of other values than texts (numbers, mixed lists) are outside the model."
 },
 "C143": {
  "status": "partial",
  "note": "C143_first_partial, C143_second_partial: exactly one direction or two across each other, then + or ? or nothing, is accepted. C143_opposite: opposite pairs are refused. The documented modifier - is refused after every cell and moves (C143_minus_refuted; ? is read in its place, see C37_second_edge for what it does), and spaces in front of the reference are read (C143_spaces_refuted)."
 },
 "C144": {
  "status": "partial",
  "note": "C144_shifted_partial: the rectangle, for any two sheets with the same full cells moved. C144_margins: the margins. C144_sheets_partial: with the margins of each sheet. C144_padded, C144_values, C144_lasso_partial: for arrays, all outcomes of a lasso without filters; C144_excel_values, C144_excel_lasso_partial: the same for sheets of Excel files, which count all cells up to the end of the sheet. Excluded are references that count back over more lines than there are: numpy wraps the landing cell around (C144_counting_back_refuted)."
 },
 "C145": {
  "status": "partial",
  "note": "C145_reads_partial: reading an attribute of a step without mappings. C145_read_back_partial: reading what was assigned. C145_pandas_names: the two names that pandas looks for raise AttributeError and make no step, as the code says. Violated for names of methods of texts, such as index and title (C145_methods_refuted), and for the empty text, whose step is replaced by a new one without children (C145_empty_refuted)."
 },
 "C146": {
  "status": "partial",
  "note": "C146_written_is_read_partial: for steps without mappings, whose names have none of the characters special in pointers. C146_mapped_partial: for steps made from mappings, where of different mapped paths neither leads through the other. C146_slashes_refuted: a step renamed to a text with an (escaped) slash has a path that addresses another value than its text. C146_through_refuted: with /a mapped to x and /b to x/y, setting /x/y replaces the value set at /x."
 },
 "C148": {
  "status": "partial",
  "note": "C148_verdict_partial (and C148_series_partial, C148_frame_partial for one Series or DataFrame): without defaults, for enumerations of values other than booleans, 0 and 1, and schemas that take no nulls where all there is is one NaN among numbers. C148_columns_refuted, C148_enum_refuted, C148_nan_refuted, C148_raises_refuted: the columns are objects as well as arrays; a 0 in a Series passes for `false`; a single NaN is null and an array; enumerations raise for a whole Series. C148_errors_partial: the errors are the breaches of C139 in what the document stands for, at the same places. C148_repeated_refuted: labels that are there more than once. C148_plain: documents without such objects are validated exactly as ever, whatever is listed."
 },
 "C149": {
  "status": "partial",
  "note": "C149_closed_partial, C149_again_partial: for backends that give names to all workbooks and open none without a name; replacing a sheet closes without raising. C149_nameless_refuted: a sheet of a workbook without a name is not registered and stays open."
 },
 "C150": {
  "status": "partial",
  "note": "C150_same_partial and C150_history_partial: for cells (and values that filters make) without references to a sheet of the workbook at hand by its number; for those it is false (C150_number_refuted). Expressions of pyeval do not use the ranger; nesting up to any stack limit n, one more filter being a RecursionError."
 },
 "C151": {
  "status": "partial",
  "note": "Proved when each workbook is always written in the same way and each sheet is given by name, number or no id. Refuted otherwise: with two texts for a workbook, or the first sheet both with no id and by its number as text, in turn, every call opens the workbook again and closes the sheet returned before."
 },
 "C152": {
  "status": "partial",
  "note": "Proved for every order: a returned sheet is the right one, and an error of opening is one that opening gives. If no two calls ask for the same sheet, nothing is closed and no call fails otherwise. Refuted: with calls for the same sheet a returned sheet may be closed, and a call may fail with RuntimeError or KeyError; even for different sheets of a workbook what was fetched may be lost from the factory. Calls one after the other are proved to be the single-threaded function. C152_ends: a call that is given turns again and again ends, whatever the other threads do."
 },
 "C153": {
  "status": "partial",
  "note": "Violated: the first call pops lax from the keywords of the caller (C153_lax_refuted), also inside the arguments of pipes (C153_pipe_refuted). C153_as_first_partial: for call-specs without lax. C153_history says what happens with it: a call gets what it would as the first one, with the call-specs that were used before stripped of lax. C153_own_filters: references that name their filter are not concerned."
 },
 "C154": {
  "status": "partial",
  "note": "Violated: cells are replaced in the captured lists themselves, so that the lasso returned has the cells before the failing one replaced (C154_refuted). C154_unchanged_partial: when it fails at the first reference. C154_cells and C154_evaluated say exactly what is returned, for recurse and for pyeval with eval_all; C154_all: without failures all are replaced. C154_agrees and C154_outcome: calls that are not lax, or whose filter does not fail, are as in Model/Lasso, which does not change values in place. C154_values: what is left of any values, dictionaries too; C154_refused, C154_no_stack: nothing is changed when no cell was looked at; C154_lasso: whole lassos."
 },
 "C155": {
  "status": "partial",
  "note": "Violated when the contents change meanwhile: a thread that was about to remember what it read earlier replaces the newer answer that others got already, and later ones get the old contents again (C155_refuted). C155_same_partial and C155_unchanged_partial: without changes every answer is that of a thread alone. With changes, each answer is of some time until then (C155_states_true, C155_margins_true). C155_waits_for_none: eight operations of its own suffice. C155_alone: operations in a row are the method as modelled for C95."
 },
 "C156": {
  "status": "partial",
  "note": "C156_called_partial, C156_options_only and C156_refused are about all references with filters; C156_redim and C156_redim_refused about all arguments of redim (floats as dimensions are left out). C156_xlwings_partial: for array sheets whose cells in the rectangle are of one kind, or some of which numpy can only hold as objects; otherwise it is violated: numpy makes texts of the numbers of a row that has both (C156_xlwings_refuted, as for C54). Lax calls of filters that change values in place before they fail return what these left, see C154."
 },
 "C157": {
  "status": "proved",
  "note": "C157_children: names and steps listed. C157_order: their order; failing operations add none. C157_dir: a child named as a method of texts (assigned to, since it cannot be made by reading) is listed twice. C157_paths: any history, unlike C19, C24 and C77 which say more for trees that were only read; with a step below itself the paths are a RecursionError, with and without original names. C157_orig_tells: for names without parentheses (and original ones without slash and >)."
 },
 "C158": {
  "status": "partial",
  "note": "C158_written_partial: what is captured, which filters run on what, and what the outcome is. C158_settled: what filters come to is settled (the relation is a function). C158_nested: both directions, up to stack for one more filter within another. Violated for lax pipes: filters that go through the values change the captured lists themselves, so that a lax pipe that fails returns what the filters before made of them (C158_lax_left, for all such pipes; C158_lax_refuted, a witness). C158_lax_detached: what filters do after one that returned other values is not seen."
 },
 "C159": {
  "status": "proved",
  "note": "C159_whole: around what is captured no line has a full cell, and all linked cells are in it. C159_found, C159_within (and _excel): exactly the table and its values. C159_single (and _excel, for sheets that end with the table): the same as a lone `:`. C159_colon_excel: what a lone `:` captures in general."
 },
 "C160": {
  "status": "proved",
  "note": "C160_opened: both ways of naming open the same sheet. C160_alike: the two calls end alike. References have no filters, since a filter may look at how the sheet was named."
 },
 "C161": {
  "status": "proved",
  "note": "C161_again: any kind of sheet. C161_cells, C161_cells_excel: cell by cell. Coordinates below zero, which C32_never_negative_refuted shows to be possible, have no cell name."
 },
 "C162": {
  "status": "proved",
  "note": "C162_none_matters: with None in two submodels at one place, one order of submodels that nowhere disagree builds a model and another one does not, so the condition on None is needed."
 },
 "C163": {
  "status": "proved",
  "note": "The same margins are needed for ^, _ and rows or columns counted from the end: these depend on cells anywhere. An example shows that a full cell next to the table does change what is captured."
 },
 "C164": {
  "status": "partial",
  "note": "C164_same, C164_throw, C164_pipe, C164_ends and C164_uninterrupted hold in full. For what is remembered only C164_remembered_partial holds: C164_own_refuted shows a thread that failed and finds the stage of a lasso of another thread. Fetching and asking sheets are functions here: threads that share a factory or a sheet are in C152 and C155."
 },
 "C165": {
  "status": "partial",
  "note": "C165_alone, C165_ends, C165_kept and C165_reread hold in full, with and without mappings. C165_texts_partial: the texts are right for steps without mappings. C165_alias_refuted: a mapped name may be lost. C165_paths_refuted: chains read may be missing from the paths reported. Assignments by threads are not modelled."
 },
 "C166": {
  "status": "partial",
  "note": "C166_added, C166_build, C166_alone, C166_ends and C166_model hold in full. C166_returned_partial: what is returned is a merge of some of the submodels; C166_returned_refuted: it need not be the merge of all of them, nor pass the validation. C166_raised_partial: an error raised belongs to some submodels or to a merge of some of them, or tells of another thread's; C166_raised_refuted: building alone may raise none. Curate-functions, and defaults that validation fills in, are not modelled with threads."
 },
 "C167": {
  "status": "partial",
  "note": "C167_right_sheet, C167_raised, C167_close_ends_with, C167_ends, C167_fetch_in_turn and C167_close_in_turn hold in full. C167_close_partial: closing that nobody interrupts closes what the factory holds and empties it. C167_quiet_partial: closing succeeds and closes all that was held as long as nothing is put in the factory or taken out meanwhile, however others mix in. Refuted otherwise: a sheet may be left open and out of reach (C167_lost_refuted), a closed sheet may be put in the factory and returned later (C167_dead_refuted), closing may fail with RuntimeError and close nothing (C167_size_refuted) or only some sheets, which stay in the factory (C167_half_refuted), and fetching may fail with KeyError (C167_missing_refuted). Fetching siblings of a sheet, and sheets whose closing raises, are not modelled with threads."
 },
 "C169": {
  "status": "partial",
  "note": "C169_told_partial: patterns that take at most 200 characters when written; longer ones are cut off by the standard library, so that different mappings are shown as the same text (C169_long_refuted)."
 }
}