{"id": "C01", "title": "JSON-pointer escaping is a faithful code", "statement": "Unescaping an escaped json-pointer part gives the part back, an escaped part never contains a slash, and two different parts never escape to the same text.", "quantifier": "every string part", "why_tests_cant": "infinitely many strings; escape order bugs show only for particular mixes of ~0, ~1, ~ and /", "anchors": ["pandalone/pandata.py:escape_jsonpointer_part", "pandalone/pandata.py:unescape_jsonpointer_part"]}
{"id": "C02", "title": "Building a pointer from parts and splitting it gives the parts back", "statement": "Writing each part escaped and preceded by '/' and then iterating the pointer yields exactly those parts in order; the relaxed iteration yields the same parts preceded by one '' step; a pointer that is neither empty nor starts with '/' is rejected by the strict iteration and by nothing else.", "quantifier": "every finite list of string parts, including empty strings and parts full of ~ and /; every pointer string", "why_tests_cant": "lists and strings are unbounded", "anchors": ["pandalone/pandata.py:iter_jsonpointer_parts", "pandalone/pandata.py:iter_jsonpointer_parts_relaxed"]}
{"id": "C03", "title": "Resolving a pointer walks exactly the addressed keys and indexes", "statement": "Resolving the pointer written from a sequence of object keys and array indexes returns exactly the value reached by following these keys and indexes from the document root (Python indexing: negative numbers count from the end, strings are entered by character), and raises RefResolutionError exactly when some step of the walk is missing.", "quantifier": "every JSON-like document of any depth and every list of keys/indexes", "why_tests_cant": "unbounded nesting and document size", "anchors": ["pandalone/pandata.py:resolve_jsonpointer"]}
{"id": "C04", "title": "A default suppresses exactly the unresolvable-path error", "statement": "With a default, resolving returns the same value as without it when the pointer resolves, and the default when it does not; a malformed pointer (not starting with '/') is still rejected even when a default is given.", "quantifier": "every document, pointer and default", "why_tests_cant": "needs all documents and pointers; tests only sample", "anchors": ["pandalone/pandata.py:resolve_jsonpointer"]}
{"id": "C05", "title": "A value set at a pointer is the value read back there", "statement": "After a successful set at a pointer, resolving the same pointer on the modified document returns the value that was set; '-' appends to the list it is set in.", "quantifier": "every JSON-like document and value, every pointer whose list positions are written as non-negative numbers (or '-')", "why_tests_cant": "branch creation, list append, and scalar replacement interact at arbitrary depths", "anchors": ["pandalone/pandata.py:set_jsonpointer", "pandalone/pandata.py:resolve_jsonpointer"]}
{"id": "C06", "title": "Setting at a pointer leaves everything off the path unchanged", "statement": "A successful set changes nothing that is not on the path of the pointer: any pointer which leaves the set path at an object key or list index that differs resolves to exactly what it resolved before.", "quantifier": "every document, every pair of pointers that diverge, every value", "why_tests_cant": "a frame property over all documents and all other pointers", "anchors": ["pandalone/pandata.py:set_jsonpointer"]}
{"id": "C07", "title": "Setting at the empty pointer is reported as a reference error", "statement": "Setting a value at the empty pointer raises RefResolutionError, as the documented contract says.", "quantifier": "every document and value", "why_tests_cant": "claims an error for every input on a code path that tests do not reach", "anchors": ["pandalone/pandata.py:set_jsonpointer"]}
{"id": "C08", "title": "Relative, absolute and defaulted path resolution agree with the pointer rules", "statement": "Resolving a relative path starts at the document, an absolute path starts at the given root (or the document without one), a default is returned exactly when resolution fails, and on documents without attribute-branches absolute resolution agrees with json-pointer resolution.", "quantifier": "every document, root, path and default", "why_tests_cant": "unbounded documents and paths; fallback order of resolvers matters at each step", "anchors": ["pandalone/pandata.py:resolve_path"]}
{"id": "C09", "title": "Joining steps normalises paths", "statement": "Joining any steps yields a path in normal form: an absolute path with no dot or dot-dot steps, or a relative path whose dot-dots are all at the left; '.' is produced exactly for the empty relative path. An absolute result never climbs above the root.", "quantifier": "every finite list of steps", "why_tests_cant": "unbounded lists mixing '', '.', '..' and names", "anchors": ["pandalone/mappings.py:_append_step", "pandalone/mappings.py:_join_paths"]}
{"id": "C10", "title": "Joining means walking", "statement": "The joined path is the text of the location reached by walking the steps one after the other ('' goes to the root, '.' stays, '..' goes to the parent, a name enters a child), so joining in two batches is the same as joining at once, and re-joining a joined path changes nothing.", "quantifier": "every list of steps, every split of it in two", "why_tests_cant": "compositionality over all lists", "anchors": ["pandalone/mappings.py:_append_step", "pandalone/mappings.py:_join_paths"]}
{"id": "C11", "title": "Merging mappings lets the later win and loses nothing", "statement": "Merging two mapping hierarchies yields at every node the alias of the later if it has one, else the alias of the earlier; every child of either is present, recursively merged when in both; the regular-expression children of the later come last, in the later's order.", "quantifier": "every pair of mapping hierarchies of any size and depth", "why_tests_cant": "recursive structure of unbounded depth; ordering matters", "anchors": ["pandalone/mappings.py:Pmod._merge", "pandalone/mappings.py:Pmod._override_steps", "pandalone/mappings.py:Pmod._override_regxs"]}
{"id": "C12", "title": "Merging mappings is associative and idempotent", "statement": "Merging three hierarchies gives the same hierarchy however they are grouped; merging a hierarchy with itself or with an empty one gives it back.", "quantifier": "every triple of mapping hierarchies", "why_tests_cant": "algebraic law over all trees", "anchors": ["pandalone/mappings.py:Pmod._merge"]}
{"id": "C13", "title": "Descending and alias lookup agree, exact names beat expressions", "statement": "The alias a child gets is the alias of its exact mapping if any, otherwise that of the last declared matching regular expression having an alias, with groups expanded; descending and plain alias look-up always give the same alias; descending yields no child mapping exactly when neither an exact nor an expression child matches.", "quantifier": "every mapping hierarchy, every step name, every regular-expression engine", "why_tests_cant": "ranges over all hierarchies and all match behaviours", "anchors": ["pandalone/mappings.py:Pmod.descend", "pandalone/mappings.py:Pmod.alias", "pandalone/mappings.py:Pmod._match_regxs"]}
{"id": "C14", "title": "Mappings built from tuples hold exactly the last alias given for each path", "statement": "In the hierarchy built from (from, to) tuples, the alias stored at a from-path is the 'to' of the last tuple with that from-path and there is no alias where no tuple put one; tuples with a missing side or both sides empty change nothing.", "quantifier": "every list of tuples, every from-path", "why_tests_cant": "histories of insertions of any length into a shared tree", "anchors": ["pandalone/mappings.py:pmods_from_tuples", "pandalone/mappings.py:Pmod._append_into_steps", "pandalone/mappings.py:Pmod._append_into_regxs"]}
{"id": "C15", "title": "Regular-expression children are kept in order of last declaration", "statement": "At every node of a hierarchy built from tuples, the expression children are ordered by their last mention in the tuples, without repetition.", "quantifier": "every list of tuples and every node", "why_tests_cant": "order of a mutable dictionary under arbitrary histories", "anchors": ["pandalone/mappings.py:Pmod._append_into_regxs", "pandalone/mappings.py:pmods_from_tuples"]}
{"id": "C16", "title": "Mapping a path without applicable mappings leaves it unchanged", "statement": "A normal path none of whose steps has a mapping is mapped to itself.", "quantifier": "every hierarchy and every path with no matching step", "why_tests_cant": "infinitely many paths and hierarchies", "anchors": ["pandalone/mappings.py:Pmod.map_path"]}
{"id": "C17", "title": "A rename mapping renames exactly the mapped step", "statement": "With a single (from,to) rename, a path through the from-path has exactly that step replaced by the 'to' steps, and every other path is unchanged.", "quantifier": "every from-path, to-path and mapped path made of plain steps", "why_tests_cant": "unbounded paths", "anchors": ["pandalone/mappings.py:Pmod.map_path", "pandalone/mappings.py:pmods_from_tuples"]}
{"id": "C18", "title": "Mapping a folder path keeps it a folder", "statement": "A path ending with a slash is mapped to a path ending with a slash.", "quantifier": "every hierarchy and folder path", "why_tests_cant": "dead code in the implementation; needs a claim over all inputs", "anchors": ["pandalone/mappings.py:Pmod.map_path"]}
{"id": "C19", "title": "The paths of a step hierarchy are exactly its leaves", "statement": "After any sequence of attribute accesses on an unmapped root step, the reported paths are exactly the maximal accessed paths, sorted and without repetition.", "quantifier": "every finite sequence of attribute accesses, by names that are ordinary steps of paths (no dots, no slashes)", "why_tests_cant": "histories of mutations building a tree", "anchors": ["pandalone/mappings.py:Pstep.__getattr__", "pandalone/mappings.py:Pstep._paths", "pandalone/mappings.py:Pstep._iter_hierarchy"]}
{"id": "C20", "title": "Re-reading a step gives the same step and changes nothing", "statement": "Accessing an already accessed attribute path returns the step that is there and does not alter the hierarchy.", "quantifier": "every history of accesses and assignments, every existing step", "why_tests_cant": "depends on any prior history", "anchors": ["pandalone/mappings.py:Pstep.__getattr__", "pandalone/mappings.py:Pstep._Pstep__make_cstep"]}
{"id": "C21", "title": "Locks are enforced", "statement": "A step marked as locked keeps its original name and a step marked as rename-only is never relocated, whatever is done afterwards; setting a stricter lock on a step already renamed or relocated raises ValueError and leaves the lock as it was.", "quantifier": "every history of lock, fix, rename and access operations", "why_tests_cant": "all histories", "anchors": ["pandalone/mappings.py:Pstep._locked", "pandalone/mappings.py:Pstep._fix", "pandalone/mappings.py:Pstep._lock", "pandalone/mappings.py:Pstep.__setattr__"]}
{"id": "C22", "title": "Creating and renaming steps does not alter the mappings they came from", "statement": "No operation on steps created from a mapping hierarchy changes what this hierarchy maps afterwards.", "quantifier": "every mapping hierarchy and every history of step operations", "why_tests_cant": "aliasing of mutable objects across histories", "anchors": ["pandalone/mappings.py:Pstep._Pstep__make_cstep", "pandalone/mappings.py:Pmod.step"]}
{"id": "C23", "title": "Tags form a set", "statement": "After any sequence of tag and untag operations a step carries a tag exactly when the last operation mentioning that tag added it.", "quantifier": "every sequence of tag operations", "why_tests_cant": "all histories", "anchors": ["pandalone/mappings.py:Pstep._tag", "pandalone/mappings.py:Pstep._tag_remove"]}
{"id": "C24", "title": "Step paths equal the mapped original paths", "statement": "For a step tree made from a mapping hierarchy, the paths reported by the steps are the original paths mapped by the same hierarchy.", "quantifier": "every mapping hierarchy with plain relative aliases and every accessed path", "why_tests_cant": "two independent implementations must agree on all trees", "anchors": ["pandalone/mappings.py:Pstep.__new__", "pandalone/mappings.py:Pmod.map_path", "pandalone/mappings.py:Pmod.map_paths"]}
{"id": "C25", "title": "Merging submodels overrides recursively, key by key", "statement": "The merged model has at every object key the value of the later submodel, merged recursively when both have an object there, and the earlier value when the later has none or null; lists and scalars of the later replace those of the earlier.", "quantifier": "every pair of JSON-like models of any depth", "why_tests_cant": "unbounded recursion over two trees", "anchors": ["pandalone/pandata.py:Pandel._clone_and_merge_submodels"]}
{"id": "C26", "title": "Merging submodels is associative on compatible models", "statement": "Merging three submodels in order does not depend on grouping.", "quantifier": "every triple of models that merge without error", "why_tests_cant": "algebraic law over all trees", "anchors": ["pandalone/pandata.py:Pandel._clone_and_merge_submodels"]}
{"id": "C27", "title": "A build yields a model exactly when no step reports an error", "statement": "Building returns a model exactly when no phase reports any error; otherwise it raises the first reported error; phases run in the fixed order and no phase starts after a phase that reported an error.", "quantifier": "every list of submodels, validator behaviour and curation callback", "why_tests_cant": "error behaviour over all combinations of phase outcomes", "anchors": ["pandalone/pandata.py:Pandel.build", "pandalone/pandata.py:Pandel.build_iter"]}
{"id": "C28", "title": "Building does not change the submodels that were added", "statement": "Building a unified model leaves every added submodel as it was.", "quantifier": "every list of submodels, schema and validation settings", "why_tests_cant": "sharing of nested objects shows only for some shapes of input", "anchors": ["pandalone/pandata.py:Pandel.build_iter", "pandalone/pandata.py:Pandel._clone_and_merge_submodels", "pandalone/pandata.py:PandelVisitor"]}
{"id": "C29", "title": "Auto-defaults fill only what is missing or null", "statement": "With auto-default/auto-null/auto-remove enabled, validation adds the schema default to missing properties, replaces null by the applicable null-replacement, removes null properties that may not be null, and changes no other property; repeating it changes nothing more.", "quantifier": "every instance object, schema and flag combination", "why_tests_cant": "ranges over all instances, schemas and flags", "anchors": ["pandalone/pandata.py:_rule_auto_defaults_properties", "pandalone/pandata.py:_is_null_in_type", "pandalone/pandata.py:first_defined"]}
{"id": "C30", "title": "Additional properties are exactly those neither declared nor pattern-matched", "statement": "The reported additional properties are precisely the instance keys that are not declared properties and match no pattern property; with additionalProperties false the error appears exactly when there is one.", "quantifier": "every instance and schema", "why_tests_cant": "all key sets and patterns", "anchors": ["pandalone/pandata.py:_find_additional_properties", "pandalone/pandata.py:_rule_additionalProperties"]}
{"id": "C31", "title": "Column names and numbers are in bijection", "statement": "Converting a zero-based column number to its letters and back gives the number, and converting any non-empty letters (any case) to a number and back gives the upper-cased letters; likewise for rows, and for whole coordinates written as an A1 cell and resolved again, where each may be one of the symbols ^ _ . too; anything else is refused.", "quantifier": "every natural number and every letter string", "why_tests_cant": "infinite; off-by-one at powers of 26", "anchors": ["pandalone/xleash/_capture.py:_col2num", "pandalone/xleash/_capture.py:_row2num", "pandalone/xleash/_capture.py:coords2Cell", "pandalone/xleash/_capture.py:_resolve_cell"]}
{"id": "C32", "title": "Coordinates resolve as documented", "statement": "A numeric coordinate n>0 resolves to n-1, n<0 to the n-th from the lower/right margin, '^' and '_' to the margins, '.' to the base coordinate, and everything else is rejected; resolved coordinates are never negative.", "quantifier": "every coordinate text, margins and base", "why_tests_cant": "ranges over all margins and texts; negative overflow is not caught", "anchors": ["pandalone/xleash/_capture.py:_resolve_coord", "pandalone/xleash/_capture.py:_resolve_cell", "pandalone/xleash/_capture.py:_row2num", "pandalone/xleash/_capture.py:_col2num"]}
{"id": "C33", "title": "Targeting from an empty cell finds the first full cell in walking order", "statement": "Starting from an empty landing-cell, targeting with one or two directions returns the first full cell met when walking the primary direction within lines visited along the second direction, and fails exactly when there is none.", "quantifier": "every sheet contents of any size, every landing cell, every direction pair", "why_tests_cant": "searches in unbounded grids in 12 direction combinations", "anchors": ["pandalone/xleash/_capture.py:_target_opposite", "pandalone/xleash/_capture.py:_mov_vector_slices", "pandalone/xleash/_capture.py:_extract_states_vector"]}
{"id": "C34", "title": "Targeting from a full cell stops at the last contiguous full cell", "statement": "Starting from a full landing-cell, each move extends to the last cell of the contiguous run of full cells through the landing cell; the order of two moves is irrelevant.", "quantifier": "every sheet contents, landing cell and moves", "why_tests_cant": "unbounded grids", "anchors": ["pandalone/xleash/_capture.py:_target_same", "pandalone/xleash/_capture.py:_target_same_vector"]}
{"id": "C35", "title": "Unlimited expansion computes the least enclosing rectangle", "statement": "Expanding a rectangle without limit in a set of directions terminates and yields the smallest rectangle containing it whose adjacent lines in all these directions are empty; the order of the directions does not matter.", "quantifier": "every sheet contents of any size, every start rectangle, every direction set", "why_tests_cant": "a fixpoint computation on unbounded grids with interacting directions", "anchors": ["pandalone/xleash/_capture.py:_expand_rect"]}
{"id": "C36", "title": "Limited expansion moves at most the given number of times and only over non-empty lines", "statement": "Each limited expansion move extends the rectangle by at most its repeat count in each of its directions, each time only if the adjacent line has a full cell; the rectangle never shrinks.", "quantifier": "every sheet, rectangle and expansion-move sequence", "why_tests_cant": "all sequences of moves", "anchors": ["pandalone/xleash/_capture.py:_expand_rect", "pandalone/xleash/_parse.py:parse_expansion_moves"]}
{"id": "C37", "title": "A resolved capture rectangle is ordered and inside what was asked", "statement": "The resolved capture-rectangle has its first corner above-left of its second; a reference of two plain in-sheet cells resolves to the rectangle between them whatever the order in which its corners are given.", "quantifier": "every sheet and every pair of edges", "why_tests_cant": "all sheets and edges", "anchors": ["pandalone/xleash/_capture.py:resolve_capture_rect", "pandalone/xleash/_capture.py:_sort_rect"]}
{"id": "C38", "title": "Sheet margins are the tight bounding box of the full cells", "statement": "The margins of a sheet bound every full cell, and each of the four bounds is attained by a full cell; an all-empty sheet has margins at the origin.", "quantifier": "every states matrix", "why_tests_cant": "unbounded grids", "anchors": ["pandalone/xleash/io/backend.py:margin_coords_from_states_matrix", "pandalone/xleash/io/backend.py:ABCSheet.get_margin_coords"]}
{"id": "C39", "title": "Reading a rectangle returns exactly the cells of the sheet", "statement": "Reading a rectangle of an array sheet returns, at each position, the value of the sheet at the corresponding coordinates.", "quantifier": "every sheet and every in-sheet rectangle", "why_tests_cant": "unbounded grids", "anchors": ["pandalone/xleash/io/backend.py:ArraySheet.read_rect", "pandalone/xleash/io/_xlrd.py:XlrdSheet.read_rect"]}
{"id": "C40", "title": "Expansion-move strings are parsed losslessly", "statement": "An expansion-move string is read, in order, as single directions followed by a repeat count ('?' meaning one) and maximal runs of directions without a count, which are unlimited; every string of this shape is accepted and every other string without line breaks is rejected.", "quantifier": "every list of groups, every string", "why_tests_cant": "all strings; the split-by-regex shortcut is subtle", "anchors": ["pandalone/xleash/_parse.py:parse_expansion_moves", "pandalone/xleash/_parse.py:_repeat_moves"]}
{"id": "C41", "title": "Well-formed references parse to their fields", "statement": "A reference fragment written from an optional sheet name, one or two edges with optional targeting moves and modifiers, optional expansion moves and optional filter JSON parses back to exactly these fields, upper-cased; only when there is no sheet name must the filter text be free of '!'.", "quantifier": "every combination of field texts", "why_tests_cant": "backtracking grammar over unbounded strings", "anchors": ["pandalone/xleash/_parse.py:parse_xlref_fragment", "pandalone/xleash/_parse.py:_regular_xlref_regex", "pandalone/xleash/_parse.py:_parse_edge", "pandalone/xleash/_parse.py:Edge_new"]}
{"id": "C42", "title": "Parsing is case-insensitive in coordinates and moves", "statement": "Changing the case of letters in cell coordinates and moves does not change the parse result.", "quantifier": "every reference and every re-casing of it", "why_tests_cant": "all strings and casings", "anchors": ["pandalone/xleash/_parse.py:parse_xlref_fragment", "pandalone/xleash/_parse.py:Edge_new"]}
{"id": "C43", "title": "A missing edge defaults as documented", "statement": "In a range reference a missing first edge means the top-left of the sheet and a missing second edge the bottom-right; without a colon there is no second edge; an empty reference with only a sheet means the whole sheet.", "quantifier": "every reference lacking an edge", "why_tests_cant": "all remaining field contents", "anchors": ["pandalone/xleash/_parse.py:parse_xlref_fragment", "pandalone/xleash/_parse.py:_parse_edge"]}
{"id": "C44", "title": "Call specifications normalise uniquely", "statement": "A filter specification is accepted exactly in the documented forms (name; list of name with optional arguments and keywords in either order; object with func, args, kwds) and normalises to (name, list, object); everything else raises ValueError.", "quantifier": "every JSON value", "why_tests_cant": "all JSON values", "anchors": ["pandalone/xleash/_parse.py:parse_call_spec"]}
{"id": "C45", "title": "An encased reference means the same as the bare one", "statement": "A reference encased in one of the supported quote characters is lassoed to the same result as the bare reference.", "quantifier": "every valid reference and every encasing character", "why_tests_cant": "needs every reference; combines the parser with the later merge of its fields", "anchors": ["pandalone/xleash/_parse.py:parse_xlref", "pandalone/xleash/_parse.py:_encase_regex", "pandalone/xleash/_lasso.py:Ranger._parse_and_merge_with_context"]}
{"id": "C46", "title": "The sheets cache never serves a closed or stale sheet", "statement": "Whatever sequence of fetch, add and close operations is performed, a sheet held in the cache is open, and a lookup by any of the ids a sheet was last added with returns that sheet.", "quantifier": "every history of factory operations and every backend behaviour", "why_tests_cant": "all histories of a mutable cache", "anchors": ["pandalone/xleash/io/backend.py:SheetsFactory.fetch_sheet", "pandalone/xleash/io/backend.py:SheetsFactory.add_sheet", "pandalone/xleash/io/backend.py:SheetsFactory._close_sheet", "pandalone/xleash/io/backend.py:SheetsFactory.close", "pandalone/xleash/io/backend.py:SheetsFactory._cache_get", "pandalone/xleash/io/backend.py:SheetsFactory._cache_put"]}
{"id": "C47", "title": "Fetching twice opens once", "statement": "A second fetch with the same workbook and sheet ids returns the very same sheet without opening anything, as long as nothing was closed or replaced in between.", "quantifier": "every cache history", "why_tests_cant": "all histories", "anchors": ["pandalone/xleash/io/backend.py:SheetsFactory.fetch_sheet"]}
{"id": "C48", "title": "Adding a sheet keeps other sheets available", "statement": "Adding a sheet with default ids does not close or evict other cached sheets of the same workbook.", "quantifier": "every cache history", "why_tests_cant": "histories with several sheets per workbook", "anchors": ["pandalone/xleash/io/backend.py:SheetsFactory.add_sheet", "pandalone/xleash/io/backend.py:SheetsFactory._derive_sheet_keys", "pandalone/utils.py:as_list"]}
{"id": "C49", "title": "The best bidding backend wins", "statement": "The chosen backend is one with the maximum bid, the last one among equals, and an error is raised exactly when none bids.", "quantifier": "every list of backends and bids", "why_tests_cant": "all lists of bids", "anchors": ["pandalone/xleash/io/backend.py:SimpleSheetsFactory.decide_backend"]}
{"id": "C50", "title": "Filter calls return a lasso or raise, leniently or not", "statement": "A filter call either returns a lasso or raises ValueError; in lax mode it never raises and returns the lasso unchanged when the filter fails.", "quantifier": "every filter behaviour, lax setting and lasso", "why_tests_cant": "ranges over arbitrary filter functions", "anchors": ["pandalone/xleash/_lasso.py:Ranger.make_call"]}
{"id": "C51", "title": "A pipe of filters is their composition", "statement": "Running a pipe of filters equals running them one after the other, each on the output of the previous; a pipe of a concatenation is the composition of the pipes; a strict failure stops the pipe.", "quantifier": "every list of filters with arbitrary behaviours", "why_tests_cant": "all lists and behaviours", "anchors": ["pandalone/xleash/_filter.py:pipe_filter", "pandalone/xleash/_lasso.py:Ranger.make_call"]}
{"id": "C52", "title": "Options of a reference override base options and keep the rest", "statement": "The options in force while lassoing are the base options overridden by those in the reference's filter.", "quantifier": "every base options and reference options", "why_tests_cant": "all option maps", "anchors": ["pandalone/xleash/_lasso.py:Ranger._parse_and_merge_with_context"]}
{"id": "C53", "title": "Element-wise filtering respects structure, depth and key selection", "statement": "Element-wise filtering applies the function to exactly the elements selected by include/exclude and depth, keeps the nesting structure, order and keys, and leaves everything else unchanged.", "quantifier": "every nested value, every selection and depth, every element function", "why_tests_cant": "unbounded nested structures", "anchors": ["pandalone/xleash/_filter.py:run_filter_elementwise"]}
{"id": "C54", "title": "Redimensioning keeps all values in order", "statement": "Changing the dimensionality of a captured table never loses, adds or reorders values, and the result has the asked number of dimensions whenever the shape permits it.", "quantifier": "every table shape and target dimension", "why_tests_cant": "all shapes", "anchors": ["pandalone/xleash/_filter.py:_redim", "pandalone/xleash/_filter.py:_updim", "pandalone/xleash/_filter.py:_downdim", "pandalone/xleash/_filter.py:redim_filter"]}
{"id": "C55", "title": "Unique file names are free and minimal", "statement": "The unique file name returned does not exist and is the original or the first free numbered variation.", "quantifier": "every set of existing files and every name", "why_tests_cant": "all file-system contents", "anchors": ["pandalone/utils.py:make_unique_filename", "pandalone/utils.py:generate_filenames"]}
{"id": "C56", "title": "Ensuring a file extension is idempotent", "statement": "Applying the extension twice is the same as once, and the result always ends with an accepted extension.", "quantifier": "every file name and extension", "why_tests_cant": "all strings", "anchors": ["pandalone/utils.py:ensure_file_ext"]}
{"id": "C57", "title": "After ensuring a directory it is a directory", "statement": "When ensuring a directory succeeds, the path is a directory, whatever other processes did meanwhile.", "quantifier": "every schedule of other processes' creations and removals", "why_tests_cant": "interleavings", "anchors": ["pandalone/utils.py:ensure_dir_exists"]}
{"id": "C58", "title": "Boolean texts are recognised consistently", "statement": "A text is read as False exactly when, apart from letter case and surrounding white space, it is empty, no, false, off or 0, and as True otherwise (in particular for yes, true and on); anything that is not text raises ValueError; the lenient variant gives False for anything empty or zero.", "quantifier": "every string", "why_tests_cant": "all strings", "anchors": ["pandalone/utils.py:str2bool", "pandalone/utils.py:obj2bool"]}
{"id": "C59", "title": "Values with units parse back", "statement": "A text made of a name followed by units in square or angle brackets parses to this name and these units, whatever spaces surround them.", "quantifier": "every name and units text", "why_tests_cant": "all strings through a regular expression", "anchors": ["pandalone/pandata.py:parse_value_with_units"]}
{"id": "C60", "title": "Building a component twice gives the same inputs and outputs", "statement": "Rebuilding a component with the same mappings yields the same input and output paths; an assembly's inputs and outputs are the sorted union of those of its parts in any order.", "quantifier": "every component function and mapping, every list of components", "why_tests_cant": "all component behaviours", "anchors": ["pandalone/components.py:FuncComponent._build", "pandalone/components.py:Assembly._build"]}
{"id": "C61", "title": "Objects survive JSON encoding", "statement": "Any pickled payload put in JSON text by the codec is decoded to the same payload.", "quantifier": "every byte string produced by pickling", "why_tests_cant": "all byte strings through quoted-printable coding", "anchors": ["pandalone/pandata.py:JSONCodec"]}
{"id": "C62", "title": "Schema paths name the declared leaves", "statement": "The paths built from a schema, split by the pointer rules, are exactly the chains of property names leading to schema leaves.", "quantifier": "every schema tree", "why_tests_cant": "all trees and property names", "anchors": ["pandalone/pandata.py:build_all_jsonpaths"]}
{"id": "C63", "title": "Excel files are recognised by extension exactly", "statement": "A file is considered Excel exactly when its name ends, in any case, with one of the known Excel extensions.", "quantifier": "every file name", "why_tests_cant": "all strings through a regular expression", "anchors": ["pandalone/xlsutils.py:is_excel_file", "pandalone/xleash/io/_xlrd.py:XlrdBackend.bid"]}
{"id": "C64", "title": "Opening a sheet by text prefers its name over its index", "statement": "Opening a sheet by a text id opens the sheet with that name if there is one, else the sheet with that index, else fails; no id opens the first sheet.", "quantifier": "every workbook and sheet id", "why_tests_cant": "all workbooks", "anchors": ["pandalone/xleash/io/_xlrd.py:_open_sheet_by_name_or_index"]}
{"id": "C65", "title": "Lassoing a two-cell reference returns exactly that block", "statement": "Lassoing '#A1:B3'-like references on an array sheet returns exactly the block of values between the two cells, end to end from text to values.", "quantifier": "every sheet and every pair of in-sheet cells", "why_tests_cant": "end-to-end over parser, resolver and reader for all sizes", "anchors": ["pandalone/xleash/_lasso.py:Ranger.do_lasso", "pandalone/xleash/_parse.py:parse_xlref", "pandalone/xleash/_capture.py:resolve_capture_rect", "pandalone/xleash/io/backend.py:ArraySheet.read_rect"]}
{"id": "C66", "title": "Reading a path of a built model returns the value there", "statement": "Getting a path from a built Pandel returns the value at that path.", "quantifier": "every model and path", "why_tests_cant": "all models and paths; the method lacks a return statement", "anchors": ["pandalone/pandata.py:Pandel.get"]}
{"id": "C67", "title": "A failing lasso raises only the documented errors", "statement": "A failing lasso raises SyntaxError only for a text that is no reference, EmptyCaptureException only when the no_empty option is set, an error of reading the sheet, and ValueError in every other case; an empty capture without no_empty gives an empty list.", "quantifier": "every reference text, context, options, sheet and filter behaviour", "why_tests_cant": "ranges over arbitrary backends and filters", "anchors": ["pandalone/xleash/_lasso.py:Ranger.do_lasso", "pandalone/xleash/_lasso.py:Ranger._parse_and_merge_with_context", "pandalone/xleash/_lasso.py:Ranger._resolve_capture_rect", "pandalone/xleash/_lasso.py:Ranger._run_filters"]}
{"id": "C68", "title": "A reference is completed by its context", "statement": "Each part written in a reference (workbook, sheet, edges, expansion, filters) wins over the context given to the lasso, and each part that is missing is taken from the context.", "quantifier": "every reference and context", "why_tests_cant": "all combinations of present and missing parts", "anchors": ["pandalone/xleash/_lasso.py:Ranger._parse_and_merge_with_context", "pandalone/xleash/_lasso.py:Ranger._make_init_Lasso"]}
{"id": "C69", "title": "The generator given for unique file names is used", "statement": "The unique file name is the first free name produced by the generator given by the caller.", "quantifier": "every generator, file name and set of existing files", "why_tests_cant": "ranges over arbitrary generator functions", "anchors": ["pandalone/utils.py:make_unique_filename"]}
{"id": "C70", "title": "Command names are the class names in small letters with separators", "statement": "The command name of a class has no capital and no underscore; without separators it is the class name in small letters; converting a snake-case name again changes nothing.", "quantifier": "every name", "why_tests_cant": "all strings", "anchors": ["pandalone/utils.py:camel_to_snake_case", "pandalone/utils.py:camel_to_cmd_name"]}
{"id": "C71", "title": "The first line of a text is its first line with content", "statement": "The first line is the first line of the text that has something besides white space, without the white space around it; there is none exactly when the text is blank.", "quantifier": "every text", "why_tests_cant": "all strings", "anchors": ["pandalone/utils.py:first_line"]}
{"id": "C72", "title": "The factory without cache serves siblings of a sheet", "statement": "Fetching with the plain factory gives the base sheet when nothing is named, opens the named workbook when one is named, and gives the named sibling of the base sheet when only a sheet is named.", "quantifier": "every workbook and sheet ids, base sheet and backend behaviour", "why_tests_cant": "ranges over arbitrary backends", "anchors": ["pandalone/xleash/io/backend.py:SimpleSheetsFactory.fetch_sheet"]}
{"id": "C73", "title": "A cell counts as full exactly when reading it gives a value", "statement": "A cell of a sheet is full exactly when reading it alone gives something other than None; so zeros, empty texts and False are full in an array sheet, and blank cells of an Excel sheet are empty.", "quantifier": "every sheet and position in it", "why_tests_cant": "all sheets", "anchors": ["pandalone/xleash/io/backend.py:ArraySheet._read_states_matrix", "pandalone/xleash/io/backend.py:ArraySheet.read_rect", "pandalone/xleash/io/_xlrd.py:XlrdSheet._read_states_matrix", "pandalone/xleash/io/_xlrd.py:XlrdSheet.read_rect", "pandalone/xleash/io/_xlrd.py:_parse_cell"]}
{"id": "C74", "title": "The recursive filter expands references and nothing else", "statement": "Applying the recursive filter replaces every text inside the values that is a reference by the values captured there (after the sub-filters), leaves texts that are not references and all other values alone, and fails when a reference cannot be captured.", "quantifier": "every nested value, every selection and depth, every outcome of the lassos", "why_tests_cant": "unbounded nested structures and arbitrary inner lassos", "anchors": ["pandalone/xleash/_filter.py:recursive_filter", "pandalone/xleash/_filter.py:_recurse_element_func"]}
{"id": "C75", "title": "A text is refused as a reference exactly when it is not one, and nothing is read that was not written", "statement": "Parsing a reference fragment raises SyntaxError exactly when the text cannot be written as spaces, an optional sheet, optional edges (numbers not starting with zero, letters, or the special coordinates), optional expansion moves and optional filters; and what is parsed are those parts. Filters that are no such JSON raise ValueError, and no other error is raised.", "quantifier": "every text", "why_tests_cant": "all strings through a regular expression", "anchors": ["pandalone/xleash/_parse.py:parse_xlref_fragment", "pandalone/xleash/_parse.py:_parse_edge", "pandalone/xleash/_parse.py:Edge_new"]}
{"id": "C76", "title": "A reference is a workbook, a hash and a fragment", "statement": "A text is read as a reference by taking what precedes the first hash for the workbook (none when empty) and what follows it for the fragment, with curly double quotes taken for straight ones; without a hash, or with nothing after it, it is refused with SyntaxError.", "quantifier": "every text", "why_tests_cant": "all strings", "anchors": ["pandalone/xleash/_parse.py:parse_xlref", "pandalone/xleash/_parse.py:_parse_xlref"]}
{"id": "C77", "title": "The paths with a tag are exactly those tagged", "statement": "After reading any chains of attributes from a root step and tagging the steps they lead to, the paths reported for a tag are exactly the chains tagged with it (mapped by the hierarchy, if the root has mappings), sorted and without repetition.", "quantifier": "every finite sequence of chains and tags, every tag, with or without mappings having plain relative aliases", "why_tests_cant": "histories of mutations building a tree", "anchors": ["pandalone/mappings.py:Pstep._paths", "pandalone/mappings.py:Pstep._tag"]}
{"id": "C78", "title": "Assigning to an attribute of a step replaces that child and nothing else", "statement": "Assigning a text to an attribute of a step renames that child: it keeps its children, tags and lock, and the paths that any step reports are those before with that text replaced. Assigning another step that is not empty places a copy of it there, under the attribute's name, with its children, tags and lock. No other step changes; an assignment that fails changes no step.", "quantifier": "every history of operations in which no step is assigned to itself, every step, attribute and value", "why_tests_cant": "histories of mutations of shared objects", "anchors": ["pandalone/mappings.py:Pstep.__setattr__", "pandalone/mappings.py:Pstep.__make_cstep", "pandalone/mappings.py:Pstep.__new__", "pandalone/mappings.py:Pstep._paths"]}
{"id": "C79", "title": "A workbook named by a path is the file that is opened", "statement": "Naming a workbook by a path opens the file that the path means in the working folder, with '.' and '..' resolved.", "quantifier": "every working folder and path (on POSIX)", "why_tests_cant": "all texts, through several rounds of splitting, joining and decoding", "anchors": ["pandalone/utils.py:path2url", "pandalone/utils.py:urlpath2path", "pandalone/utils.py:normpath", "pandalone/xleash/io/_xlrd.py:XlrdBackend._open_book"]}
{"id": "C80", "title": "A workbook named by a file URL is the file that is opened", "statement": "Naming a workbook by the percent-encoded 'file:' URL of an absolute path opens that path, whatever characters its names have.", "quantifier": "every absolute path and working folder (on POSIX)", "why_tests_cant": "all texts, through encoding and decoding", "anchors": ["pandalone/utils.py:path2url", "pandalone/utils.py:urlpath2path", "pandalone/xleash/io/_xlrd.py:XlrdBackend._open_book"]}
{"id": "C81", "title": "The URL of a workbook does not change when computed again", "statement": "The URL computed for a URL that was computed for a workbook is that same URL, so backends bid for the very URL that is opened.", "quantifier": "every path or URL, and working folders", "why_tests_cant": "all texts", "anchors": ["pandalone/utils.py:path2url", "pandalone/xleash/io/backend.py:SimpleSheetsFactory.decide_backend", "pandalone/xleash/io/backend.py:SimpleSheetsFactory.fetch_sheet"]}
{"id": "C82", "title": "Remote URLs pass through", "statement": "A remote URL is left unchanged, and it is what is read.", "quantifier": "every remote URL and working folder", "why_tests_cant": "all texts", "anchors": ["pandalone/utils.py:path2url", "pandalone/xleash/io/_xlrd.py:XlrdBackend._open_book"]}
{"id": "C83", "title": "A call of lasso() without a factory leaves no workbook open", "statement": "When lasso() ends, normally or by an exception, every workbook that it opened has been released, including those opened by filters that follow references.", "quantifier": "every reference, context, options, filters (any programs fetching sheets) and behaviour of backends", "why_tests_cant": "arbitrary filters nesting lassos, failures at any point", "anchors": ["pandalone/xleash/_lasso.py:lasso", "pandalone/xleash/_lasso.py:Ranger.do_lasso", "pandalone/xleash/io/backend.py:SheetsFactory.close", "pandalone/xleash/io/backend.py:SheetsFactory.fetch_sheet"]}
{"id": "C84", "title": "lasso() does not close what it was given", "statement": "A factory given to lasso() is not closed by it, and a sheet given in the context is still usable afterwards.", "quantifier": "every reference, context, options, filters and behaviour of backends", "why_tests_cant": "arbitrary filters nesting lassos", "anchors": ["pandalone/xleash/_lasso.py:lasso", "pandalone/xleash/io/backend.py:SheetsFactory.fetch_sheet", "pandalone/xleash/io/backend.py:SheetsFactory.close"]}
{"id": "C85", "title": "Options and filters given to lasso() override the default ones", "statement": "The options and the filters in effect are the given ones, and the default ones for the names not given.", "quantifier": "all given options and filters", "why_tests_cant": "all dictionaries", "anchors": ["pandalone/xleash/_lasso.py:lasso", "pandalone/xleash/_lasso.py:make_default_Ranger", "pandalone/xleash/_lasso.py:get_default_opts"]}
{"id": "C86", "title": "Lassoing a written reference captures what its parts mean", "statement": "Lassoing a reference without filters gives the values of the rectangle between the edges written (the first full corner and the last one for absent edges), with their moves, expanded by the moves written, on the sheet and workbook written or those of the context; an empty capture gives an empty list and any other failure to resolve is an error (a ValueError, except for C67).", "quantifier": "every written reference without filters, sheet, context and factory", "why_tests_cant": "all texts composed with all sheets", "anchors": ["pandalone/xleash/_lasso.py:Ranger.do_lasso", "pandalone/xleash/_lasso.py:lasso", "pandalone/xleash/_parse.py:parse_xlref", "pandalone/xleash/_capture.py:resolve_capture_rect"]}
{"id": "C87", "title": "A table is captured whole from any cell above and left of it", "statement": "On a sheet whose full cells form one table, the references 'A1(DR):..(DR)' and 'A1(DR):..:RD' (moves in any order and case, any cell above and left of the table for A1) capture exactly the table and its values.", "quantifier": "every sheet with one table, every cell above and left of it, both kinds of sheets", "why_tests_cant": "all sheets, tables and cells", "anchors": ["pandalone/xleash/_lasso.py:Ranger.do_lasso", "pandalone/xleash/_capture.py:resolve_capture_rect", "pandalone/xleash/io/backend.py:ArraySheet", "pandalone/xleash/io/_xlrd.py:XlrdSheet"]}
{"id": "C88", "title": "'#:' captures exactly the used area of a sheet", "statement": "The reference '#:' captures the smallest rectangle that has all full cells of the sheet.", "quantifier": "every sheet having a full cell, both kinds of sheets", "why_tests_cant": "all sheets", "anchors": ["pandalone/xleash/_lasso.py:Ranger.do_lasso", "pandalone/xleash/_capture.py:resolve_capture_rect", "pandalone/xleash/io/backend.py:ABCSheet.get_margin_coords", "pandalone/xleash/io/_xlrd.py:XlrdSheet._read_margin_coords"]}
{"id": "C89", "title": "What validation does to a document", "statement": "Validating leaves the document with its declared properties filled in, replaced or removed as the arguments and the schema say, and so on inside of properties, additional properties and items that have a schema; everything else is unchanged.", "quantifier": "every schema of the modelled keywords in any order and nesting, every document and combination of flags", "why_tests_cant": "recursive schemas and documents", "anchors": ["pandalone/pandata.py:PandelVisitor", "pandalone/pandata.py:_rule_auto_defaults_properties", "pandalone/pandata.py:_rule_additionalProperties", "pandalone/pandata.py:_rule_propertyNames"]}
{"id": "C90", "title": "The verdict of a validation is about the document that it leaves", "statement": "Validation reports no error exactly when the document it leaves conforms to the schema; validating again changes nothing and gives the same verdict; a model that was built conforms to its schema.", "quantifier": "every schema of the modelled keywords, every document and combination of flags", "why_tests_cant": "recursive schemas and documents, order of keywords, filling in while checking", "anchors": ["pandalone/pandata.py:PandelVisitor", "pandalone/pandata.py:_rule_auto_defaults_properties", "pandalone/pandata.py:Pandel.build"]}
{"id": "C91", "title": "An enumeration accepts exactly the values listed", "statement": "A value passes an enumeration exactly when it is one of the values listed, as JSON values.", "quantifier": "every list of values and every value", "why_tests_cant": "all documents, booleans and numbers being equal in Python", "anchors": ["pandalone/pandata.py:rule_enum"]}
{"id": "C92", "title": "Validating a document changes neither the schema nor other documents", "statement": "Filling in defaults writes only to the document being validated: the defaults in the schema and other documents that share no object with it stay as they are, and documents do not come to share objects.", "quantifier": "every heap of objects, schema and documents", "why_tests_cant": "arbitrary sharing of objects and later histories", "anchors": ["pandalone/pandata.py:_rule_auto_defaults_properties", "pandalone/pandata.py:PandelVisitor"]}
{"id": "C93", "title": "The df filter hands pandas exactly the captured table", "statement": "The 'df' filter makes a DataFrame of exactly the captured cells, None being an empty text and blank cells of a many-column index repeating the cell above, with the arguments given; an empty capture gives an empty DataFrame, numbers and lists of numbers give none, and when it fails the captured values are as before.", "quantifier": "every captured table and combination of arguments, whatever pandas does", "why_tests_cant": "all tables, header and index positions", "anchors": ["pandalone/xleash/_pandas_filters.py:_df_filter", "pandalone/xleash/_pandas_filters.py:_maybe_convert_usecols"]}
{"id": "C94", "title": "Evaluating filters replace exactly the texts that can be evaluated", "statement": "'pyeval' replaces every text it looks at that evaluates without error by its result, after the sub-filters, and leaves everything else as it is; with eval_all it fails when a text cannot be evaluated. 'py' evaluates its expression on the whole capture. Options are kept when the result brings none.", "quantifier": "every nested value, evaluator, selection, depth and list of sub-filters", "why_tests_cant": "recursive values, arbitrary expressions", "anchors": ["pandalone/xleash/_filter.py:pyeval_filter", "pandalone/xleash/_filter.py:py_filter"]}
{"id": "C95", "title": "A sheet asked many times answers the same", "statement": "However often and in whatever order a sheet is asked for its states and its margins, all successful answers are the same; each is what the sheet had at some time until then, exactly what it has if it did not change; margins that a backend does not report are those of the states answered; a failure is never remembered.", "quantifier": "every history of questions and changes of the contents, and every backend", "why_tests_cant": "all histories of a cache with changes from outside", "anchors": ["pandalone/xleash/io/backend.py:ABCSheet.get_states_matrix", "pandalone/xleash/io/backend.py:ABCSheet.get_margin_coords"]}
{"id": "C96", "title": "A logger as an output stream logs what is written", "statement": "What is written to a logger is logged as one message without its line ending, if there is more than that.", "quantifier": "every text", "why_tests_cant": "all texts", "anchors": ["pandalone/utils.py:LoggerWriter"]}
{"id": "C97", "title": "Pairs as text can be told apart", "statement": "Pairs are formatted as one line for each, in order: the key in a column as wide as the smallest fitting multiple of the indentation, an equals sign and the value; different pairs give different texts.", "quantifier": "every list of pairs and every indentation", "why_tests_cant": "all texts", "anchors": ["pandalone/utils.py:format_pairs"]}
{"id": "C98", "title": "which finds the program that the system would run", "statement": "'which' gives the executable file of that name in the first folder of the search path that has one, and None if there is none.", "quantifier": "every search path, name and file system, on POSIX", "why_tests_cant": "all file systems and paths", "anchors": ["pandalone/utils.py:which", "pandalone/utils.py:where", "pandalone/utils.py:py_where"]}
{"id": "C99", "title": "Mapping pairs can be taken from steps and give the same mappings", "statement": "The pairs derived from a step are, in order of their paths, one for each branch of steps below it: the path of the original names, and the text of the last step. Mappings rebuilt from the pairs of steps made from mappings take the path of every chain of attributes that was read to the same path as these.", "quantifier": "every tree of steps; every hierarchy of mappings and every chains read from steps made from them", "why_tests_cant": "all trees and histories", "anchors": ["pandalone/mappings.py:Pstep._derrive_map_tuples", "pandalone/mappings.py:Pstep._iter_hierarchy", "pandalone/mappings.py:pmods_from_tuples", "pandalone/mappings.py:Pmod.map_path"]}
{"id": "C100", "title": "A dataframe of names gives steps with these names and attributes", "statement": "The step made from a dataframe has a child for every path in the index; its text is the name in the row, its attributes are the values in the other columns of the row (for a path given more than once, those of the last row). No other step has attributes.", "quantifier": "every dataframe of names and other columns", "why_tests_cant": "all dataframes, with any number of rows and repeated paths", "anchors": ["pandalone/mappings.py:pstep_from_df", "pandalone/mappings.py:pmods_from_tuples", "pandalone/mappings.py:Pstep.__getattr__"]}
{"id": "C101", "title": "The ranger remembers how far the last lasso got", "statement": "After throwing a lasso, however it ended, intermediate_lasso names the last stage of it (context, parse, open, capture, read_rect, or the filter called) and holds the lasso produced by that stage. If lassoing failed before filtering, it is the lasso that the next stage could not be made from; if all is well, it is the final lasso.", "quantifier": "every reference, context, ranger, sheet and filters", "why_tests_cant": "all references, sheets and filters, and every point of failure", "anchors": ["pandalone/xleash/_lasso.py:Ranger.intermediate_lasso", "pandalone/xleash/_lasso.py:Ranger._relasso", "pandalone/xleash/_lasso.py:Ranger.do_lasso", "pandalone/xleash/_lasso.py:Ranger.make_call"]}
{"id": "C102", "title": "A broken plugin does not harm the others", "statement": "Discovering plugins loads all of them, in the order of their names, and then calls the installers they gave, in the same order. A plugin that fails at loading or installing neither stops the discovery nor changes how far any other plugin gets, and the record of plugins says for each how many stages it completed (0, 1 or 2). Without any plugin there is an error.", "quantifier": "every collection of plugins, failing at any stage", "why_tests_cant": "all collections of plugins and all points of failure", "anchors": ["pandalone/xleash/__init__.py:_init_plugins", "pandalone/xleash/__init__.py:_plugins_installed"]}
{"id": "C103", "title": "Importing VBA files replaces the modules called like them and nothing else", "statement": "After importing files into a workbook, it has for every file exactly one module with the name of the file (without folder and extension) and the code of the file, and every other component is as it was. If anything fails, nothing is saved, and the workbook keeps its modules.", "quantifier": "every collection of files, workbook and point of failure; names compared the way Excel does", "why_tests_cant": "all workbooks and collections of files, and all points of failure", "anchors": ["pandalone/xlsutils.py:import_vba_into_excel_workbook", "pandalone/xlsutils.py:_import_vba_files", "pandalone/xlsutils.py:_gather_files"]}
{"id": "C104", "title": "An updated workbook is saved where the documentation says", "statement": "A workbook into which files were imported is saved once: under the new name if one is given, otherwise in place if it is macro-enabled, otherwise as a copy with '.xlsm' appended to its name.", "quantifier": "every workbook, new name and collection of files", "why_tests_cant": "all names of workbooks", "anchors": ["pandalone/xlsutils.py:_save_excel_as_macro_enabled", "pandalone/xlsutils.py:_save_workbook", "pandalone/xlsutils.py:import_vba_into_excel_workbook"]}
{"id": "C105", "title": "Importing VBA leaves Excel's alerts on", "statement": "If Excel shows alerts before files are imported into a workbook, it does so afterwards, whether importing succeeds or fails.", "quantifier": "every workbook, collection of files and point of failure", "why_tests_cant": "all points of failure", "anchors": ["pandalone/xlsutils.py:_save_workbook", "pandalone/xlsutils.py:import_vba_into_excel_workbook"]}
{"id": "C106", "title": "Removing VBA modules removes those named", "statement": "Removing modules by names removes all modules with these names, in whatever case, and no other component; without names it removes all modules and nothing else.", "quantifier": "every workbook and list of names", "why_tests_cant": "all lists of modules and of names", "anchors": ["pandalone/xlsutils.py:_remove_vba_modules"]}
{"id": "C107", "title": "The command for importing VBA understands its arguments as documented", "statement": "The command imports files when it is given one to three arguments, of which the first is no option or is --pandalone (the files of the package); the second names the workbook (the active one if missing) and the third its new name. Otherwise nothing is imported.", "quantifier": "every list of arguments", "why_tests_cant": "all lists of arguments", "anchors": ["pandalone/xlsutils.py:main", "pandalone/xlsutils.py:import_vba_into_excel_workbook"]}
{"id": "C108", "title": "Assemblies can be nested and regrouped freely", "statement": "An assembly of components and other assemblies, nested to any depth, builds like the assembly of just the components in it: its inputs and outputs are the sorted union of theirs, and it fails when and as that one does. Grouping and order of the components make no difference to inputs and outputs.", "quantifier": "every tree of assemblies and components, mappings and history of builds", "why_tests_cant": "all trees of assemblies", "anchors": ["pandalone/components.py:Assembly._build", "pandalone/components.py:FuncComponent._build"]}
{"id": "C109", "title": "Submodels that are Series are merged label by label", "statement": "When one of two submodels (or of two values under the same keys) is a pandas Series, the other one is converted to a Series, and the merged Series has the labels of both; under each label is the value of the later one unless it has none or a missing one there, merged with the value of the earlier one as everywhere else. Lists and scalars just overwrite.", "quantifier": "every pair and sequence of submodels made of objects, Series, lists and scalars", "why_tests_cant": "all submodels, depths and orders of merging", "anchors": ["pandalone/pandata.py:Pandel._clone_and_merge_submodels", "pandalone/pandata.py:Pandel._merge"]}
{"id": "C110", "title": "Validating never changes what is given, and adds nothing but defaults", "statement": "Whatever the schema (also with allOf, anyOf, oneOf, not, if, $ref, patterns), the arguments of the validator, and wherever the validation stops (at its end, at the first error, or with an exception), every value of the document that is not null is still there afterwards: scalars are the same, objects are objects, lists have the same length. Nulls that are items of lists, or under keys that are no properties in the schema or only such that may be null, are kept as well. What appears under keys that were missing or null are defaults of the schema for properties of that name.", "quantifier": "every schema, set of referred schemas, document, arguments and point of stopping; every place in the document", "why_tests_cant": "all schemas and documents of any depth, and all points where a validation may stop", "anchors": ["pandalone/pandata.py:PandelVisitor", "pandalone/pandata.py:_rule_auto_defaults_properties"]}
{"id": "C111", "title": "Keywords that combine schemas mean what JSON-schema says", "statement": "A document is accepted exactly if it is as the schema asks: as all, as at least one, as exactly one, as none of the combined schemas, and as one that depends on a condition. Validations that stop at the first error accept the same documents, and report of the others the first of the errors that are reported otherwise. Schemas the document is not like leave no trace in it.", "quantifier": "every schema, recursive or not, document and arguments of the validator", "why_tests_cant": "all combinations of schemas and documents of any depth", "anchors": ["pandalone/pandata.py:PandelVisitor", "pandalone/pandata.py:_rule_auto_defaults_properties"]}
{"id": "C112", "title": "Normalising a path keeps what it means", "statement": "normpath() gives a path that means the same file in every working folder, with nothing left in it that can be left out; normalising again changes nothing; it ends with a slash exactly if the given path does (or means the root). abspath() gives the path of the file that is meant, from the root, keeping a last slash in the same way.", "quantifier": "every path and every working folder", "why_tests_cant": "all paths", "anchors": ["pandalone/utils.py:normpath", "pandalone/utils.py:abspath", "pandalone/utils.py:_is_dir_regex"]}
{"id": "C113", "title": "Variables in paths are expanded and all the rest is kept", "statement": "convpath() replaces $name and ${name} by the values of the variables that are set, and keeps everything else of the path, also variables that are not set and names of hidden Windows shares (ending with $), before it normalises the path or makes it absolute. What is not asked for is not done.", "quantifier": "every path with any number of variables and shares, every environment, working folder and flags", "why_tests_cant": "all paths and environments", "anchors": ["pandalone/utils.py:convpath", "pandalone/utils.py:normpath", "pandalone/utils.py:abspath"]}
{"id": "C114", "title": "Paths with drive letters become URLs of files on the drive", "statement": "path2url() gives for a path with a drive letter the file-URL of the file it means on that drive, from its root: with slashes or backslashes, absolute or not, with . and .. walked along, and with a last slash kept. The prefix for long paths counts as the root.", "quantifier": "every path with a drive letter and every working folder", "why_tests_cant": "all paths", "anchors": ["pandalone/utils.py:path2url"]}
{"id": "C115", "title": "Paths survive being put into URLs", "statement": "urlpath2path() gives back the path that was given to path2urlpath(), so different paths have different URLs; whatever the path, its URL has only characters that are allowed in the paths of URLs.", "quantifier": "every path", "why_tests_cant": "all paths", "anchors": ["pandalone/utils.py:path2urlpath", "pandalone/utils.py:urlpath2path", "pandalone/utils.py:_is_dir_regex"]}
{"id": "C116", "title": "Equal mappings map paths alike", "statement": "Two Pmods compare equal exactly if they have the same names and regexes, with the same aliases, at all places; then they map every path to the same path, and merging equal mappings gives equal mappings.", "quantifier": "all pairs of mappings, all paths", "why_tests_cant": "all pairs of mappings and all paths", "anchors": ["pandalone/mappings.py:Pmod.__eq__", "pandalone/mappings.py:Pmod.map_path", "pandalone/mappings.py:Pmod._merge"]}
{"id": "C117", "title": "Merging DataFrames keeps all cells, the last one winning", "statement": "When submodels that are DataFrames are merged, every cell of the merged DataFrame has the value of the last submodel in which that cell is not missing, and every row and column of every submodel is kept; columns are not repeated, and those of earlier submodels come first.", "quantifier": "every list of DataFrames, every order in which sets of columns are listed", "why_tests_cant": "all DataFrames", "anchors": ["pandalone/pandata.py:Pandel._clone_and_merge_submodels", "pandalone/pandata.py:Pandel._merge"]}
{"id": "C118", "title": "Two columns become a dictionary or a Series", "statement": "The filters dict, odict and sr make of a table of two columns a dictionary (Series) whose keys are the cells of the first column, in the order in which they first appear, each once, with the cell of the second column in the last row that has the key; keyword arguments of dict are like further rows. What is not a table of two columns is refused.", "quantifier": "all captured values and keyword arguments", "why_tests_cant": "all values", "anchors": ["pandalone/xleash/_filter.py:install_default_filters", "pandalone/xleash/_pandas_filters.py:install_filters"]}
{"id": "C119", "title": "Sorting keeps all items and puts them in order", "statement": "The filter sorted gives exactly the captured items, none after one that it is before (with reverse, none before), with equal items in the order in which they were captured; rows are compared by their first cells that differ. An item that cannot be compared with any other is refused with a TypeError.", "quantifier": "all captured lists and tables, in both directions", "why_tests_cant": "all lists and tables", "anchors": ["pandalone/xleash/_filter.py:install_default_filters"]}
{"id": "C120", "title": "Python, numpy and pandas values have the documented JSON types", "statement": "When a document is validated, None and NaN are null; lists, tuples, Series and arrays of one dimension are arrays; mappings and DataFrames are objects; booleans, integers and floats, of Python or numpy, are what they are called, booleans being no integers or numbers; and every value has at most one of the types, integers counting as numbers.", "quantifier": "all values, whatever they contain", "why_tests_cant": "all values", "anchors": ["pandalone/pandata.py:_is_array", "pandalone/pandata.py:_is_object", "pandalone/pandata.py:_is_null", "pandalone/pandata.py:PandelVisitor"]}
{"id": "C121", "title": "What submodels give is in the built model", "statement": "When a model is built, each place of the built model for which some submodel gives a scalar has the scalar given by the last such submodel; values that schemas give by default never take the place of given ones.", "quantifier": "all submodels, schemas and places", "why_tests_cant": "all submodels and schemas", "anchors": ["pandalone/pandata.py:Pandel._clone_and_merge_submodels", "pandalone/pandata.py:Pandel.build", "pandalone/pandata.py:Pandel._rule_auto_defaults"]}
{"id": "C122", "title": "Installed operations are those given last", "statement": "After mod_global_operations has been called any number of times, in either style, each of the operations inp, out and conv is the one given for it by the last call that gave it, and the others are what they were.", "quantifier": "all sequences of calls", "why_tests_cant": "all histories", "anchors": ["pandalone/pandata.py:ModelOperations", "pandalone/pandata.py:Pandel.mod_global_operations"]}
{"id": "C123", "title": "Listed sheets are those that can be opened", "statement": "Every sheet listed for a workbook can be opened by its name and by its place in the list, and both open this sheet of this workbook. Every sheet that can be opened is in the list. If listing fails, opening fails with the same error.", "quantifier": "all workbooks, backends and ways of naming a sheet", "why_tests_cant": "all workbooks", "anchors": ["pandalone/xleash/io/backend.py:SimpleSheetsFactory.list_sheetnames", "pandalone/xleash/io/backend.py:SimpleSheetsFactory._open_sheet", "pandalone/xleash/io/_xlrd.py:XlrdBackend.list_sheetnames"]}
{"id": "C124", "title": "Dates are read as Excel shows them", "statement": "A date cell is read as the date and the time of the day that Excel shows for it, in the date system (1900 or 1904) of the workbook; a number below one is read as a time.", "quantifier": "all numbers of days and parts of a day, in both date systems", "why_tests_cant": "all dates", "anchors": ["pandalone/xleash/io/_xlrd.py:_parse_cell", "pandalone/xleash/io/_xlrd.py:_open_sheet_by_name_or_index", "pandalone/xleash/io/_xlrd.py:XlrdSheet"]}
{"id": "C125", "title": "A model-maker can be used again and again", "statement": "What a model-maker builds depends only on the submodels added so far, as they were when they were added: not on whether, when and with which success it has built before.", "quantifier": "all sequences of adding submodels and building", "why_tests_cant": "all histories", "anchors": ["pandalone/pandata.py:Pandel.add_submodel", "pandalone/pandata.py:Pandel.build_iter"]}
{"id": "C126", "title": "An unfinished build does no harm to later ones", "statement": "The iteration over the errors of a build may be abandoned at any error. At any time the flag of the maker says whether the last build begun has reported an error, its errors are of one phase, and no later phase was begun after them. Read to its end it reports all errors of the submodels, each once and in order, or else all those of the merged model. What later builds do depends only on the submodels, not on builds that were abandoned.", "quantifier": "all sequences of adding submodels, beginning builds and asking for the next error; all validations that report errors one by one", "why_tests_cant": "all histories and all points at which a build is abandoned", "anchors": ["pandalone/pandata.py:Pandel.build_iter", "pandalone/pandata.py:Pandel.build", "pandalone/pandata.py:Pandel.add_submodel"]}
{"id": "C127", "title": "Many processes may ensure directories at once", "statement": "When many processes ensure directories at once, for paths that may have folders in common, each of them returns and its path and all the folders it is in are then directories; nothing else is made, and nothing is removed or replaced. With a file in the way no call returns.", "quantifier": "all paths, all file systems, all numbers of calls and all interleavings of their operations, with other processes that make directories", "why_tests_cant": "all schedules", "anchors": ["pandalone/utils.py:ensure_dir_exists"]}
{"id": "C128", "title": "A sheet that cannot be closed does not lose the others", "statement": "When closing a sheet fails, while a sheet is added that replaces it or while the factory is closed, the call raises and no open sheet is lost: the one that failed and all others not yet closed are still found under their ids, the new sheet is found under the ids it got so far, and closing the factory again closes them all. No closed sheet is served.", "quantifier": "all histories of a factory, all sheets and ids, all orders in which ids are visited, all sets of sheets whose closing fails", "why_tests_cant": "failures of closing are injected at every point of every history", "anchors": ["pandalone/xleash/io/backend.py:SheetsFactory._close_sheet", "pandalone/xleash/io/backend.py:SheetsFactory.close", "pandalone/xleash/io/backend.py:SheetsFactory.add_sheet"]}
{"id": "C129", "title": "Building and merging mappings alters no others", "statement": "Mappings are built by appending in place, and all mappings share the two empty dictionaries that are the default arguments of their constructor. Whatever mappings there are, and whether or not it fails, building mappings from tuples leaves all of them, and the default arguments, as they were; it makes a new object, which stands for what the tuples say, and it raises if a pattern does not compile. So does merging, though the merged mappings may share dictionaries with those they come from. So mappings keep their meaning through any history of building and merging. Appending into merged mappings (which no function of the library does) would alter the others.", "quantifier": "all lists of tuples, all states of objects and dictionaries in which the default arguments are empty, all pairs of mappings, all histories of building and merging, all regular-expression libraries", "why_tests_cant": "sharing goes unnoticed until one particular history shows it; tests build each mapping afresh", "anchors": ["pandalone/mappings.py:Pmod.__init__", "pandalone/mappings.py:Pmod._append_into_steps", "pandalone/mappings.py:Pmod._append_into_regxs", "pandalone/mappings.py:Pmod._merge", "pandalone/mappings.py:pmods_from_tuples"]}
{"id": "C130", "title": "The schema of a step is its own", "statement": "A step has a schema exactly if it was asked for it, or is a copy of a step that had one; asking whether it has one makes none. What is written into the schema of a step is there afterwards with all that was written before, and no other operation changes it: not reading, not creating, renaming, locking or tagging steps, and not writing into the schemas of other steps. A step that is renamed keeps its schema. As documented, names of attributes are checked, and the type of steps with children is 'object' unless given.", "quantifier": "all histories of operations on steps and on their schemas, all attributes and values", "why_tests_cant": "which steps share a schema depends on the whole history of copies", "anchors": ["pandalone/mappings.py:Pstep._schema", "pandalone/mappings.py:Pstep._schema_exists", "pandalone/mappings.py:_clone_attrs", "pandalone/pandata.py:JSchema.todict"]}
{"id": "C131", "title": "Components live apart", "statement": "A component is named as asked, or after its function without the prefix `cfunc_`. In any history of building and calling any number of components: a component that was never built raises an AttributeError when its function asks it for a step or a list; building it gives what building it alone gives, whatever was built or called before; and while its calls since the build succeed, the paths of its input and output steps are those of everything that its function read in the build and the calls together, as if it were read at once in one build alone, whatever is done with other components. A call that does only what was done before makes no step, and leaves the declared inputs and outputs as they are.", "quantifier": "every regex library, mappings, set of components, their functions, and history of builds (with any mappings) and calls (doing anything), whether they raise or not", "why_tests_cant": "A test builds and calls one or two components once; the claim is about every interleaving of builds and calls of all components, which share the heap of steps and mappings.", "anchors": ["pandalone/components.py:FuncComponent.__init__", "pandalone/components.py:FuncComponent.__call__", "pandalone/components.py:FuncComponent._build", "pandalone/components.py:FuncComponent.pinp", "pandalone/components.py:Assembly.__init__"]}
{"id": "C132", "title": "Unique file names for many processes", "statement": "However many calls of `make_unique_filename` run at once, with any names, and whatever files they and other processes make and remove meanwhile: the name that a call returns is free at the moment in which it is returned and is the name given or one of its numbered variations, the first one that is free if nobody removes files; a call returns after at most one operation more than there ever are different files; and if no file is removed and whoever gets a name makes its file before anything else happens, no two calls get the same name and no file is overwritten.", "quantifier": "every set of calls and of names given to them, set of files, and schedule of the operations of calls, their callers and other processes", "why_tests_cant": "A test makes one call, or two one after the other; the claim is about every interleaving of the checks and of the making of files.", "anchors": ["pandalone/utils.py:make_unique_filename", "pandalone/utils.py:generate_filenames"]}
{"id": "C133", "title": "References that lead to references", "statement": "Filters may call filters and follow references found in what is captured, whose filters do the same, up to the recursion limit of Python. If no reference leads to itself, the outcome of a call, be it a value or an error, does not depend on the recursion limit once it is large enough. Whatever the references: where nothing is lax, a call that returns a value under some recursion limit returns the same value under any greater one; and references that lead back to themselves, over any number of others, are a `ValueError` under any limit, never an endless loop and never a value in which they are left as they are.", "quantifier": "every sheet factory, backend, JSON parser, options and set of filters (those of the package and any others), every reference text, context, and recursion limit, with filters nested and references chained to any depth", "why_tests_cant": "A test has a few cells that refer to one another and one recursion limit; the claim is about chains and cycles of any length through any filters, and about every limit.", "anchors": ["pandalone/xleash/_lasso.py:Ranger.do_lasso", "pandalone/xleash/_lasso.py:Ranger.make_call", "pandalone/xleash/_filter.py:recursive_filter", "pandalone/xleash/_filter.py:pipe_filter", "pandalone/xleash/_filter.py:pyeval_filter", "pandalone/xleash/_filter.py:run_filter_elementwise"]}
{"id": "C134", "title": "A cache of sheets serves what opening would", "statement": "Whatever was fetched from a sheets-factory before, by paths, URLs, names, numbers or no id, and from base sheets, a sheet that it returns is the sheet that opening the workbook anew would give. Fetching a sheet of a workbook fails when opening it does, with the same error, and only then. A sibling of a sheet that was returned can be fetched whenever its workbook has it. A call does not close sheets that were returned before.", "quantifier": "every set of backends and workbooks, every history of calls of fetch_sheet with every workbook id, sheet id and base sheet, and every order in which the set of keys of a sheet is run through", "why_tests_cant": "The cache is keyed by what the caller wrote, so one sheet has many keys and a sheet fetched by another key is opened again; a test fetches a few sheets in one order.", "anchors": ["pandalone/xleash/io/backend.py:SheetsFactory.fetch_sheet", "pandalone/xleash/io/backend.py:SheetsFactory.add_sheet", "pandalone/xleash/io/backend.py:SheetsFactory._derive_sheet_keys", "pandalone/xleash/io/_xlrd.py:XlrdSheet.open_sibling_sheet", "pandalone/xleash/io/_xlrd.py:XlrdSheet._close"]}
{"id": "C135", "title": "What a reference captures does not depend on earlier captures", "statement": "Lassoing a reference with a sheets-factory that was used before, in any way, gives what opening all workbooks anew would give: the same values, the same lasso with an object for the same sheet, or the same error; also when filters fetch further sheets. In particular two factories with different pasts give the same.", "quantifier": "every set of workbooks, history of the factory, reference, context, options, and filters that may fetch sheets any number of times, depending on what they got", "why_tests_cant": "Histories and filters are unlimited, and which object is served, and which sheets are still loaded in its workbook, depends on them.", "anchors": ["pandalone/xleash/_lasso.py:lasso", "pandalone/xleash/_lasso.py:Ranger.do_lasso", "pandalone/xleash/_lasso.py:Ranger._open_sheet", "pandalone/xleash/io/backend.py:SheetsFactory.fetch_sheet"]}
{"id": "C136", "title": "Setting at a pointer writes into one object and nothing else", "statement": "Setting a value at a JSON-pointer writes into exactly one of the dictionaries and lists that exist, at one entry: an object on the way of the pointer, at the entry named by the part that follows. If it fails, nothing has been written. So every document that does not hold an object on the way is as before, and a document in which no object occurs twice becomes what the rules for plain documents (C05, C06) say.", "quantifier": "every heap of dictionaries and lists, shared and cyclic in any way, document, pointer and value", "why_tests_cant": "How objects are shared, how deep the pointer goes and where it leaves what exists are unlimited; a test sees one such heap, and only the objects that it looks at.", "anchors": ["pandalone/pandata.py:set_jsonpointer"]}
{"id": "C137", "title": "Values set at many pointers are all there", "statement": "Values set one after the other at pointers into an object, none of which is the beginning of another and which lead through objects only, are all read back afterwards, whatever the order of setting; what is under other keys stays; and the documents that different orders give are equal.", "quantifier": "every object, list of pointers and values, and order of setting them", "why_tests_cant": "The number of pointers, their common beginnings and the orders are unlimited; each setting may create or replace what others lead through.", "anchors": ["pandalone/pandata.py:set_jsonpointer", "pandalone/pandata.py:resolve_jsonpointer"]}
{"id": "C138", "title": "Element-wise filters reach the cells of tables", "statement": "An element-wise filter on a capture that was made a Series or DataFrame of pandas is applied to the cells whose label, or that of their column, is selected, within the depth limit: those it processes are replaced in place by the outcome, all others and all labels stay. A reference in a cell is resolved relative to the cell of the sheet that it was captured from. It fails only if the element function or a sub-filter fails on one of these cells.", "quantifier": "every table, element function, list of sub-filters, labels included and excluded, depth limit and values in the cells, nested in any way", "why_tests_cant": "The number of rows and columns, the labels selected and what is nested in cells are unlimited; a test sees some cells of one table and seldom where a reference in a cell is taken from.", "anchors": ["pandalone/xleash/_filter.py:run_filter_elementwise", "pandalone/xleash/_filter.py:recursive_filter"]}
{"id": "C139", "title": "Errors of a validation say what is wrong and where", "statement": "The errors that a validation reports are exactly the breaches of the schema by the document that it leaves: each keyword that is broken, at the value that breaks it, once per missing property, per property, item and name inside. The path of every error leads to a value in the document, and that value is not as its part of the schema asks.", "quantifier": "every schema of the modelled keywords in any nesting, every document and combination of flags, every error", "why_tests_cant": "recursive schemas and documents: a test compares the paths of some errors of one document", "anchors": ["pandalone/pandata.py:PandelVisitor", "pandalone/pandata.py:_rule_additionalProperties", "pandalone/pandata.py:_rule_propertyNames", "pandalone/pandata.py:_rule_auto_defaults_properties", "pandalone/pandata.py:rule_enum"]}
{"id": "C140", "title": "Captures treat rows and columns alike", "statement": "Turning a sheet over, so that its rows become its columns, and a reference with it (rows written as columns, left as up, right as down, in the edges and in the expansions) turns over the captured rectangle, or fails with the same error; the margins are turned as well, and so are the values that a lasso captures, from arrays as from Excel files.", "quantifier": "every sheet of any size, every pair of edges in any notation, moves, modifiers and expansions, every base", "why_tests_cant": "a relation between two runs over all sheets and references; tests compare single results", "anchors": ["pandalone/xleash/_capture.py:resolve_capture_rect", "pandalone/xleash/_capture.py:_expand_rect", "pandalone/xleash/_capture.py:_target_opposite", "pandalone/xleash/_capture.py:_target_same", "pandalone/xleash/_capture.py:_resolve_cell", "pandalone/xleash/_capture.py:_extract_states_vector", "pandalone/xleash/io/backend.py:margin_coords_from_states_matrix"]}
{"id": "C141", "title": "For a dependent second edge the order of the moves makes no difference", "statement": "The documentation says that with a second edge `..` the target rectangle is the same whether its two moves denote a row-by-row or a column-by-column traversal.", "quantifier": "every sheet, first edge, pair of perpendicular moves, modifier, expansions and base", "why_tests_cant": "quantifies over all sheets; the order is visible only from certain cells", "anchors": ["pandalone/xleash/_capture.py:resolve_capture_rect", "pandalone/xleash/_capture.py:_target_same", "pandalone/xleash/_capture.py:_target_opposite"]}
{"id": "C142", "title": "Arguments of element-wise filters mean what is documented", "statement": "The arguments of the filters `recurse` and `pyeval` may be given by place or by name. Missing filters are none; missing, null or empty `include` and `exclude` restrict nothing, and a text stands for the list of it; a missing, null or negative `depth` is no limit; `eval_all` is off unless asked for. Calls with surplus, unknown or doubled arguments are refused.", "quantifier": "every list of arguments and set of keywords, every captured value, ranger and context", "why_tests_cant": "all ways of distributing arguments over places and names; the depth is compared at every level of unbounded values", "anchors": ["pandalone/xleash/_filter.py:recursive_filter", "pandalone/xleash/_filter.py:pyeval_filter", "pandalone/xleash/_filter.py:run_filter_elementwise", "pandalone/utils.py:as_list"]}
{"id": "C143", "title": "Target moves and their modifiers are those documented", "statement": "In the parentheses after a cell a reference may have one direction, or two that are not on the same line, in any case, followed by + or - or by nothing; opposite pairs such as UD and LR, and anything else in the parentheses, raise SyntaxError. Spaces are allowed only in filters.", "quantifier": "every cell text, every text in the parentheses, first and second edge", "why_tests_cant": "all strings in the parentheses after all cells, through a regular expression with alternatives", "anchors": ["pandalone/xleash/_parse.py:parse_xlref_fragment", "pandalone/xleash/_parse.py:_regular_xlref_regex"]}
{"id": "C144", "title": "Inserting empty rows and columns moves captures and changes nothing else", "statement": "When empty rows are inserted above all that a sheet has, and empty columns before it, then a reference with its positive row and column numbers increased by as many captures the same values from the rectangle moved by as many, or fails with the same error; symbols for margins and the base, numbers counted from the end, moves, modifiers and expansions stay as they are. Empty rows and columns after the full cells do not matter.", "quantifier": "every sheet, every number of rows and columns inserted, every pair of edges, all expansions, every base", "why_tests_cant": "all sheets with all full cells, all references and all displacements at once", "anchors": ["pandalone/xleash/_capture.py:resolve_capture_rect", "pandalone/xleash/io/backend.py:margin_coords_from_states_matrix", "pandalone/xleash/_lasso.py:Ranger.do_lasso"]}
{"id": "C145", "title": "The public attributes of a path step are steps, those that were assigned", "statement": "Just referencing a public attribute of a path step gives a step: the child that it has under that name, or a new one with the name as its text, and it never fails. After a text is assigned to an attribute, reading the attribute gives a step with that text and changes nothing.", "quantifier": "every history of steps, every step, every name and every text", "why_tests_cant": "all names, texts and histories", "anchors": ["pandalone/mappings.py:Pstep.__getattr__", "pandalone/mappings.py:Pstep.__setattr__"]}
{"id": "C146", "title": "Documents are written and read through the paths of steps", "statement": "After reading any chains of attributes from an absolute path step, a value can be set at each of the paths that the step reports, in any document without lists on the way. Afterwards each of these pointers reads the value set there, and so does indexing the document with the steps of the chain, one after the other.", "quantifier": "all sets of chains, all documents, all values", "why_tests_cant": "all hierarchies of steps, in all orders of reading, and all documents", "anchors": ["pandalone/mappings.py:Pstep._paths", "pandalone/pandata.py:set_jsonpointer", "pandalone/pandata.py:resolve_jsonpointer"]}
{"id": "C147", "title": "The documented ways of capturing a table with headers agree", "statement": "On a sheet with a single table, `^^:__`, `A1(DR):__:U1` and `A1(RD):__:L1` all capture exactly the smallest rectangle around the full cells, from any cell above and left of it in place of A1, whether the cell where the header row and the index column meet is full or empty. On the sheet of an Excel file all three go on to the last cell of the sheet. On a sheet with several tables, a table whose first row and column have no gaps is captured by `corner:..(DR)` whatever else the sheet holds.", "quantifier": "all sheets (arrays and Excel files), all positions and sizes of the table, all gaps inside it, all cells to start from", "why_tests_cant": "all positions of empty cells inside the table and of other tables beside it", "anchors": ["pandalone/xleash/_capture.py:resolve_capture_rect", "pandalone/xleash/_lasso.py:lasso"]}
{"id": "C148", "title": "Series and DataFrames are validated as the objects and arrays they stand for", "statement": "A document that holds pandas Series and DataFrames and numpy arrays passes a validation exactly if the JSON document that it stands for is as the schema asks: a Series is the object with its labels as keys, or the array of its values; a DataFrame is the object with the names of its columns as keys and the arrays of their values; an array is the array of its values. The errors reported are those in that document, at the same places.", "quantifier": "all schemas, all documents with Series, DataFrames and arrays anywhere inside", "why_tests_cant": "all nestings of pandas objects, all labels and columns, all combinations of keywords", "anchors": ["pandalone/pandata.py:PandelVisitor", "pandalone/pandata.py:_rule_additionalProperties", "pandalone/pandata.py:_rule_propertyNames", "pandalone/pandata.py:rule_enum"]}
{"id": "C149", "title": "A with-block of a sheets factory closes what was opened in it", "statement": "However a with-block of a sheets factory is left, at its end all sheets that were opened by the factory or added to it, in the block or before, are closed, no others are, and the factory serves none of them; what the block returns or raises comes out unchanged, unless a sheet cannot be closed, in which case closing again closes the rest.", "quantifier": "all blocks (any sequence of fetching and adding sheets, depending in any way on what was fetched), left normally or by an exception, all histories of the factory before, all backends, all sheets that fail to close", "why_tests_cant": "a test leaves few blocks at few points; sheets leak only after particular sequences of fetching, replacing and failing", "anchors": ["pandalone/xleash/io/backend.py:SheetsFactory.__exit__", "pandalone/xleash/io/backend.py:SheetsFactory.close", "pandalone/xleash/io/backend.py:SheetsFactory.fetch_sheet"]}
{"id": "C150", "title": "Following references found in cells does not depend on what was fetched before", "statement": "If lassoing a reference runs the installed filters, those that follow the references found in the captured cells included, then the values returned, or the error raised, depend only on the workbooks, not on what was fetched from the sheets factory before or on which objects it has in its cache.", "quantifier": "all workbooks and cells, all references with any nesting of filters and of references to references, all histories of the factory, all filters and expressions of one's own that treat the objects of a sheet alike", "why_tests_cant": "a test follows few references on one new factory; what is in the cache depends on everything that was fetched before and on the order of the references in the cells", "anchors": ["pandalone/xleash/_filter.py:recursive_filter", "pandalone/xleash/_filter.py:pipe_filter", "pandalone/xleash/_filter.py:pyeval_filter", "pandalone/xleash/_filter.py:run_filter_elementwise", "pandalone/xleash/_lasso.py:Ranger.do_lasso", "pandalone/xleash/io/backend.py:SheetsFactory.fetch_sheet"]}
{"id": "C151", "title": "A factory opens a sheet once", "statement": "Lassoing many references with one sheets-factory opens each workbook that they refer to once per sheet: a reference to a workbook and sheet that were referred to before, directly or from another sheet of the workbook, opens nothing, closes nothing and uses a sheet object that was used before; all in all there are no more objects than different workbooks and sheets asked for. A sheet that a filter hands to the factory is the one that is served then.", "quantifier": "all histories of fetches by workbook, from base sheets and by lasso(), with any texts and ids, and any number of calls", "why_tests_cant": "how often something is opened depends on the whole history of the factory and on all ways of writing the same workbook", "anchors": ["pandalone/xleash/io/backend.py:SheetsFactory.fetch_sheet", "pandalone/xleash/io/backend.py:SheetsFactory.add_sheet", "pandalone/xleash/_lasso.py:lasso"]}
{"id": "C152", "title": "Threads that share a sheets-factory get the sheets they ask for", "statement": "When threads fetch sheets by workbook from one sheets-factory at the same time, each call that returns a sheet returns the sheet that opening the workbook gives, and each call for a sheet that can be opened returns one; no sheet that a call returned is closed by another call for the same workbook and sheet, and what was fetched stays in the factory. Calls that run one after the other do what a single thread does.", "quantifier": "all numbers of calls, started at any moments, and all orders in which their operations on the dictionaries of the factory mix", "why_tests_cant": "a test sees one of the orders in which the threads happen to run; the failing ones need a switch between two given bytecodes", "anchors": ["pandalone/xleash/io/backend.py:SheetsFactory.fetch_sheet", "pandalone/xleash/io/backend.py:SheetsFactory.add_sheet", "pandalone/xleash/io/backend.py:SheetsFactory._close_sheet", "pandalone/xleash/io/backend.py:SheetsFactory._cache_put"]}
{"id": "C153", "title": "Lassos thrown one after another with the same call-specs are thrown as if each were the first", "statement": "A caller may give a call-spec along with the reference, for references that do not name a filter themselves. Calls of do_lasso() one after another, with the same call-specs of the caller, each return or raise what they would if they were the first call, and the call-specs of the caller are left as they were.", "quantifier": "all histories of calls, all references, contexts, call-specs, sheets and filters that do not change their own arguments", "why_tests_cant": "depends on the whole history of calls that shared a call-spec; a test with one call per call-spec sees nothing", "anchors": ["pandalone/xleash/_lasso.py:Ranger.make_call", "pandalone/xleash/_lasso.py:Ranger.do_lasso", "pandalone/xleash/_filter.py:pipe_filter", "pandalone/xleash/_parse.py:parse_call_spec"]}
{"id": "C154", "title": "A lax element-wise filter that fails returns the values as they were captured", "statement": "When a filter that goes through the cells of a table (recurse, pyeval) is called leniently (lax) and fails, as at a reference that cannot be followed, the call returns the lasso with the values that were captured; when it does not fail, all cells are replaced by what they lead to.", "quantifier": "all tables of cells, all references in them and what these lead to, all filters, options and sheets; any stack left", "why_tests_cant": "whether the captured values survive depends on how many references were followed before the one that fails, for tables of any size; a test with the failing reference in the first cell sees nothing", "anchors": ["pandalone/xleash/_filter.py:run_filter_elementwise", "pandalone/xleash/_filter.py:recursive_filter", "pandalone/xleash/_filter.py:pyeval_filter", "pandalone/xleash/_lasso.py:Ranger.make_call"]}
{"id": "C155", "title": "Threads that share a sheet get what one thread would get", "statement": "Any number of threads may ask one sheet for its states and its margins at the same time: each gets the answer that it would get if it asked alone, none waits for another, and, as in one thread, an answer stays the answer for those who ask later.", "quantifier": "all contents of sheets, any number of threads and questions, all interleavings of their operations on the shared attributes and of changes of the contents from outside", "why_tests_cant": "races between looking at a remembered answer, reading the sheet and remembering depend on the scheduler; a test sees a few of the interleavings", "anchors": ["pandalone/xleash/io/backend.py:ABCSheet.get_states_matrix", "pandalone/xleash/io/backend.py:ABCSheet.get_margin_coords"]}
{"id": "C156", "title": "A filter written after a reference is called with what the reference captures", "statement": "A reference followed by a filter captures what it captures without it, and the filter is called once on it, with the arguments and under the options written: what it returns is the outcome; if it fails or does not exist the outcome is ValueError, or what was captured if the call is lax. If nothing can be captured, or the filter text is of no documented form, no filter is called. With the redim filter the values get the dimensions asked for the shape of the rectangle, by place or by name, and with the call-specification that imitates xlwings a single coordinate gives its value, one row or column the list of its values, other rectangles their rows.", "quantifier": "all well-written references with any sheet part, edges, expansion moves and filter text, all sheets, filters, options and contexts; all arguments of redim", "why_tests_cant": "references, filter texts, options and outcomes of filters combine without bound", "anchors": ["pandalone/xleash/_lasso.py:Ranger.do_lasso", "pandalone/xleash/_lasso.py:Ranger.make_call", "pandalone/xleash/_parse.py:parse_xlref", "pandalone/xleash/_filter.py:redim_filter", "pandalone/xleash/_filter.py:xlwings_dims_call_spec"]}
{"id": "C157", "title": "A path step shows its children and its paths as they are", "statement": "Whatever was done with steps, a step lists exactly its children, each under its name once, in the order in which the attributes were first read or assigned; dir adds their names to those of any text. The paths reported, with or without original names, are in order, each once, those of the branches below the step whose last step has the tag asked for, or no children if none is; and a path with original names tells the original name and the text of every step on it.", "quantifier": "all histories of operations on steps: creation with any mappings, reading, assigning, cloning, locking, tagging; all tags", "why_tests_cant": "histories of operations are unbounded and share objects; a test lists the children of a few trees", "anchors": ["pandalone/mappings.py:Pstep._steps", "pandalone/mappings.py:Pstep.__dir__", "pandalone/mappings.py:Pstep._paths", "pandalone/mappings.py:Pstep._iter_hierarchy"]}
{"id": "C158", "title": "A pipe written after a reference runs its filters on what the reference captures", "statement": "A reference followed by a pipe captures what it captures without it and runs the filters of the pipe from the first to the last, each on what the one before came to and under its own arguments; the outcome is what the last one came to. If one fails or cannot be read, later ones are not run and the outcome is ValueError, or, if the pipe is lax, what was captured, and not what the filters before made of it. Where nothing is lax, a pipe inside a pipe does what its filters do in its place.", "quantifier": "all references, sheets, contexts and options; all lists of filters, of any depth, of any of the documented forms; all filters available", "why_tests_cant": "pipes are of any length and depth, with any filters; a test runs a few", "anchors": ["pandalone/xleash/_filter.py:pipe_filter", "pandalone/xleash/_lasso.py:Ranger.make_call", "pandalone/xleash/_lasso.py:Ranger._run_filters", "pandalone/xleash/_parse.py:parse_call_spec"]}
{"id": "C159", "title": "A contiguous table is captured whole from any of its cells", "statement": "A reference such as `A1(DR):..(DR):RLDU` captures the whole of the table in which it finds its first full cell: exactly the smallest rectangle around the full cells that can be reached from there over shared sides, when no line around it has a full cell, with the values of its cells; neither the moves of the second edge, nor how the four directions of the expansion are written, nor other tables of the sheet make a difference. On a sheet whose full cells can all be reached so, a lone `:` captures the same, except that on the sheet of an Excel file it goes to the last cell of the sheet.", "quantifier": "all sheets (arrays and Excel files), tables of any shape and size, with gaps, among any others; all cells and moves to begin with, all moves of the second edge and all ways of writing the expansion", "why_tests_cant": "which cells a table has, where it begins and how its full cells hang together are unlimited; a test tries a few", "anchors": ["pandalone/xleash/_capture.py:resolve_capture_rect", "pandalone/xleash/_capture.py:_expand_rect", "pandalone/xleash/_capture.py:_target_opposite", "pandalone/xleash/_capture.py:_target_same", "pandalone/xleash/_lasso.py:Ranger.do_lasso"]}
{"id": "C160", "title": "A sheet is captured alike however it is named", "statement": "References without filters that have the same edges and expansion, and that name the same sheet of the same workbook, are lassoed alike: the same values, the same rectangle, or the same error. It does not matter whether the sheet is named by its name, by its number from 0 or back from the end (unless a sheet has that number for a name), or not at all when it is the first, nor which text with the same URL names the workbook, nor which sheets the factories of the two calls already hold.", "quantifier": "all workbooks, sheets, ways of naming them, references without filters, and factories used in any way before", "why_tests_cant": "the ways of naming a sheet, the references and the histories of the factories are unlimited; a test tries a few", "anchors": ["pandalone/xleash/io/_xlrd.py:_open_sheet_by_name_or_index", "pandalone/xleash/io/backend.py:SheetsFactory.fetch_sheet", "pandalone/xleash/_lasso.py:lasso"]}
{"id": "C161", "title": "What was captured can be captured again by its corners, and cell by cell", "statement": "Whatever moves, expansions and context a reference without filters was lassoed with, the coordinates that the lasso reports name what it captured: the names of the two corner cells, in either order, capture the same rectangle and values from the same sheet, and the name of the only cell does when there is no second edge. The value at each place of a captured rectangle is what the name of the cell there captures by itself.", "quantifier": "all sheets and references without filters that capture cells with names, in any context; for single cells array sheets and Excel sheets, and all places of the rectangle that are in the sheet", "why_tests_cant": "all references and all contents of sheets; a test compares a few", "anchors": ["pandalone/xleash/_lasso.py:Ranger.do_lasso", "pandalone/xleash/_capture.py:resolve_capture_rect", "pandalone/xleash/_capture.py:_resolve_cell", "pandalone/xleash/_capture.py:coords2Cell"]}
{"id": "C162", "title": "Submodels that nowhere disagree can be added in any order", "statement": "Submodels that give no two different values at any place, merged in whatever order and however often each, give the same model but for the order of its keys: the one that holds what all of them give, and nothing else. If they hold no None, they can always be merged. Unless the validator is asked for defaults, two models built from them in two orders are the same, and if one order builds a model so does any other, where no check of values looks at the order of keys and no validation ends with an exception.", "quantifier": "all lists of submodels that pairwise nowhere disagree, and all reorderings of them with or without repetitions; all schemas of the modelled keywords", "why_tests_cant": "all submodels and all orders; a test adds a few in one order", "anchors": ["pandalone/pandata.py:Pandel.add_submodel", "pandalone/pandata.py:Pandel.build", "pandalone/pandata.py:Pandel._clone_and_merge_submodels"]}
{"id": "C163", "title": "What is elsewhere on a sheet makes no difference to a capture", "statement": "A reference whose edges are given by numbers, letters or dots, or, if both sheets have the same margins, by anything that names no row or column before the first, with or without moves and expansions, captures the same values from the same rectangle, or fails with the same error, on any two sheets where the cells that its edges look at (from where they land to where they stop), the captured cells and the ones next to them are full or empty alike, and the captured cells have the same values: whatever the other cells are, and whatever the sizes of the sheets beyond the rectangle. This holds for arrays and for sheets of Excel files.", "quantifier": "all pairs of sheets alike in those cells, all references with such edges and no filters, all base cells", "why_tests_cant": "all contents of the rest of the sheets; a test edits a few cells of one sheet", "anchors": ["pandalone/xleash/_capture.py:resolve_capture_rect", "pandalone/xleash/_capture.py:_expand_rect", "pandalone/xleash/_capture.py:_target_opposite", "pandalone/xleash/_capture.py:_target_same", "pandalone/xleash/_lasso.py:Ranger.do_lasso"]}
{"id": "C164", "title": "Threads that share a Ranger throw their lassos as if each had its own", "statement": "When threads throw lassos with the same Ranger, each lasso returns the values, or raises the error, that it does with a Ranger of its own, however the threads are interleaved; also if filters call filters or throw lassos with the Ranger. No thread waits for another. What the Ranger remembers for inspection is always a stage of one of the lassos, and after a lasso that was not interrupted it is the one that C101 says; but after a failure it may be of the lasso of another thread.", "quantifier": "all numbers of threads, all references and contexts, all interleavings of accesses to the memory of the Ranger, all filters whose results do not depend on that memory", "why_tests_cant": "all interleavings; a test sees a few of them", "anchors": ["pandalone/xleash/_lasso.py:Ranger.do_lasso", "pandalone/xleash/_lasso.py:Ranger.make_call", "pandalone/xleash/_lasso.py:Ranger._relasso", "pandalone/xleash/_filter.py:pipe_filter"]}
{"id": "C165", "title": "Threads that share path steps read the steps that one thread would read", "statement": "When threads read chains of attributes from the same path steps, however they are interleaved: no thread raises or waits for another; steps that were there before stay the ones that everybody reads; the steps read have the texts that the names and the mappings give; and the paths reported afterwards are those of all chains read.", "quantifier": "all hierarchies of steps, all numbers of threads, all chains, all interleavings of accesses to what the threads share", "why_tests_cant": "all interleavings; a test sees a few of them", "anchors": ["pandalone/mappings.py:Pstep.__getattr__", "pandalone/mappings.py:Pstep.__make_cstep", "pandalone/mappings.py:Pstep.__new__"]}
{"id": "C166", "title": "Threads that share a model-maker", "statement": "When threads add submodels to one model-maker and build with it at once, however they are interleaved: no submodel is lost, every thread's own stay in their order, and what is built afterwards from submodels that nowhere disagree does not depend on the interleaving; every build ends; a build that nobody interrupts gives what it gives alone; and a build returns the merge of the submodels, or raises an error that they have.", "quantifier": "all model-makers without curate-functions whose validation only checks, all submodels, all numbers of threads, all interleavings of accesses to the attributes", "why_tests_cant": "all interleavings; a test sees a few of them", "anchors": ["pandalone/pandata.py:Pandel.add_submodel", "pandalone/pandata.py:Pandel.build_iter", "pandalone/pandata.py:Pandel.build", "pandalone/pandata.py:Pandel._prevalidate", "pandalone/pandata.py:Pandel._merge", "pandalone/pandata.py:Pandel._validate"]}
{"id": "C167", "title": "Closing a factory while threads fetch from it", "statement": "When threads fetch sheets from one factory and others close it, however they are interleaved: every call ends; a sheet returned is the one of that workbook and name; an error of opening is one that opening gives; closing closes every sheet fetched before it and leaves the factory empty; no sheet in the factory is closed, and none that was fetched is both open and out of its reach; and calls one after the other do what they do without threads.", "quantifier": "all workbooks, all numbers of threads that fetch or close, all interleavings of their accesses to the dictionaries and the attribute that holds them", "why_tests_cant": "all interleavings; a test sees a few of them", "anchors": ["pandalone/xleash/io/backend.py:SheetsFactory.close", "pandalone/xleash/io/backend.py:SheetsFactory.fetch_sheet", "pandalone/xleash/io/backend.py:SheetsFactory.add_sheet", "pandalone/xleash/io/backend.py:SheetsFactory._cache_get", "pandalone/xleash/io/backend.py:SheetsFactory._cache_put", "pandalone/xleash/io/backend.py:SheetsFactory._close_sheet"]}
{"id": "C168", "title": "Mapping several paths maps each of them", "statement": "Mapping several paths with a Pmod gives as many paths, in the same order, each the one that mapping the path alone gives; it fails exactly if mapping one of them fails, with the error of the first that does.", "quantifier": "all mappings, all lists of paths, all behaviours of regular expressions", "why_tests_cant": "all lists of paths; a test sees a few of them", "anchors": ["pandalone/mappings.py:Pmod.map_paths", "pandalone/mappings.py:Pmod.map_path"]}
{"id": "C169", "title": "Mappings that are shown can be told apart", "statement": "Two mappings (Pmods) that are shown as the same text have the same alias, if any, and the same mappings of steps and regular expressions, in the same order, at all depths.", "quantifier": "all mappings of any depth, all texts as aliases, steps and patterns, whichever characters can be printed", "why_tests_cant": "all pairs of mappings; a test sees a few of them", "anchors": ["pandalone/mappings.py:Pmod.__repr__"]}
