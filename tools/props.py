import json
P=[]
def p(title, statement, quant, why, *anchors):
    P.append(dict(id="C%02d"%(len(P)+1), title=title, statement=statement, quantifier=quant, why_tests_cant=why, anchors=list(anchors)))
PD="pandalone/pandata.py:"; MP="pandalone/mappings.py:"; CP="pandalone/xleash/_capture.py:"; PR="pandalone/xleash/_parse.py:"
LS="pandalone/xleash/_lasso.py:"; FI="pandalone/xleash/_filter.py:"; BE="pandalone/xleash/io/backend.py:"; XR="pandalone/xleash/io/_xlrd.py:"; UT="pandalone/utils.py:"; CO="pandalone/components.py:"; XU="pandalone/xlsutils.py:"; PF="pandalone/xleash/_pandas_filters.py:"
# --- json pointers
p("JSON-pointer escaping is a faithful code","Unescaping an escaped json-pointer part gives the part back, an escaped part never contains a slash, and two different parts never escape to the same text.","every string part","infinitely many strings; escape order bugs show only for particular mixes of ~0, ~1, ~ and /",PD+"escape_jsonpointer_part",PD+"unescape_jsonpointer_part")
p("Building a pointer from parts and splitting it gives the parts back","Writing each part escaped and preceded by '/' and then iterating the pointer yields exactly those parts in order; the relaxed iteration yields the same parts preceded by one '' step; a pointer that is neither empty nor starts with '/' is rejected by the strict iteration and by nothing else.","every finite list of string parts, including empty strings and parts full of ~ and /; every pointer string","lists and strings are unbounded",PD+"iter_jsonpointer_parts",PD+"iter_jsonpointer_parts_relaxed")
p("Resolving a pointer walks exactly the addressed keys and indexes","Resolving the pointer written from a sequence of object keys and array indexes returns exactly the value reached by following these keys and indexes from the document root (Python indexing: negative numbers count from the end, strings are entered by character), and raises RefResolutionError exactly when some step of the walk is missing.","every JSON-like document of any depth and every list of keys/indexes","unbounded nesting and document size",PD+"resolve_jsonpointer")
p("A default suppresses exactly the unresolvable-path error","With a default, resolving returns the same value as without it when the pointer resolves, and the default when it does not; a malformed pointer (not starting with '/') is still rejected even when a default is given.","every document, pointer and default","needs all documents and pointers; tests only sample",PD+"resolve_jsonpointer")
p("A value set at a pointer is the value read back there","After a successful set at a pointer, resolving the same pointer on the modified document returns the value that was set; '-' appends to the list it is set in.","every JSON-like document and value, every pointer whose list positions are written as non-negative numbers (or '-')","branch creation, list append, and scalar replacement interact at arbitrary depths",PD+"set_jsonpointer",PD+"resolve_jsonpointer")
p("Setting at a pointer leaves everything off the path unchanged","A successful set changes nothing that is not on the path of the pointer: any pointer which leaves the set path at an object key or list index that differs resolves to exactly what it resolved before.","every document, every pair of pointers that diverge, every value","a frame property over all documents and all other pointers",PD+"set_jsonpointer")
p("Setting at the empty pointer is reported as a reference error","Setting a value at the empty pointer raises RefResolutionError, as the documented contract says.","every document and value","claims an error for every input on a code path that tests do not reach",PD+"set_jsonpointer")
p("Relative, absolute and defaulted path resolution agree with the pointer rules","Resolving a relative path starts at the document, an absolute path starts at the given root (or the document without one), a default is returned exactly when resolution fails, and on documents without attribute-branches absolute resolution agrees with json-pointer resolution.","every document, root, path and default","unbounded documents and paths; fallback order of resolvers matters at each step",PD+"resolve_path")
# --- paths
p("Joining steps normalises paths","Joining any steps yields a path in normal form: an absolute path with no dot or dot-dot steps, or a relative path whose dot-dots are all at the left; '.' is produced exactly for the empty relative path. An absolute result never climbs above the root.","every finite list of steps","unbounded lists mixing '', '.', '..' and names",MP+"_append_step",MP+"_join_paths")
p("Joining means walking","The joined path is the text of the location reached by walking the steps one after the other ('' goes to the root, '.' stays, '..' goes to the parent, a name enters a child), so joining in two batches is the same as joining at once, and re-joining a joined path changes nothing.","every list of steps, every split of it in two","compositionality over all lists",MP+"_append_step",MP+"_join_paths")
# --- pmods
p("Merging mappings lets the later win and loses nothing","Merging two mapping hierarchies yields at every node the alias of the later if it has one, else the alias of the earlier; every child of either is present, recursively merged when in both; the regular-expression children of the later come last, in the later's order.","every pair of mapping hierarchies of any size and depth","recursive structure of unbounded depth; ordering matters",MP+"Pmod._merge",MP+"Pmod._override_steps",MP+"Pmod._override_regxs")
p("Merging mappings is associative and idempotent","Merging three hierarchies gives the same hierarchy however they are grouped; merging a hierarchy with itself or with an empty one gives it back.","every triple of mapping hierarchies","algebraic law over all trees",MP+"Pmod._merge")
p("Descending and alias lookup agree, exact names beat expressions","The alias a child gets is the alias of its exact mapping if any, otherwise that of the last declared matching regular expression having an alias, with groups expanded; descending and plain alias look-up always give the same alias; descending yields no child mapping exactly when neither an exact nor an expression child matches.","every mapping hierarchy, every step name, every regular-expression engine","ranges over all hierarchies and all match behaviours",MP+"Pmod.descend",MP+"Pmod.alias",MP+"Pmod._match_regxs")
p("Mappings built from tuples hold exactly the last alias given for each path","In the hierarchy built from (from, to) tuples, the alias stored at a from-path is the 'to' of the last tuple with that from-path and there is no alias where no tuple put one; tuples with a missing side or both sides empty change nothing.","every list of tuples, every from-path","histories of insertions of any length into a shared tree",MP+"pmods_from_tuples",MP+"Pmod._append_into_steps",MP+"Pmod._append_into_regxs")
p("Regular-expression children are kept in order of last declaration","At every node of a hierarchy built from tuples, the expression children are ordered by their last mention in the tuples, without repetition.","every list of tuples and every node","order of a mutable dictionary under arbitrary histories",MP+"Pmod._append_into_regxs",MP+"pmods_from_tuples")
p("Mapping a path without applicable mappings leaves it unchanged","A normal path none of whose steps has a mapping is mapped to itself.","every hierarchy and every path with no matching step","infinitely many paths and hierarchies",MP+"Pmod.map_path")
p("A rename mapping renames exactly the mapped step","With a single (from,to) rename, a path through the from-path has exactly that step replaced by the 'to' steps, and every other path is unchanged.","every from-path, to-path and mapped path made of plain steps","unbounded paths",MP+"Pmod.map_path",MP+"pmods_from_tuples")
p("Mapping a folder path keeps it a folder","A path ending with a slash is mapped to a path ending with a slash.","every hierarchy and folder path","dead code in the implementation; needs a claim over all inputs",MP+"Pmod.map_path")
# --- psteps
p("The paths of a step hierarchy are exactly its leaves","After any sequence of attribute accesses on an unmapped root step, the reported paths are exactly the maximal accessed paths, sorted and without repetition.","every finite sequence of attribute accesses, by names that are ordinary steps of paths (no dots, no slashes)","histories of mutations building a tree",MP+"Pstep.__getattr__",MP+"Pstep._paths",MP+"Pstep._iter_hierarchy")
p("Re-reading a step gives the same step and changes nothing","Accessing an already accessed attribute path returns the step that is there and does not alter the hierarchy.","every history of accesses and assignments, every existing step","depends on any prior history",MP+"Pstep.__getattr__",MP+"Pstep._Pstep__make_cstep")
p("Locks are enforced","A step marked as locked keeps its original name and a step marked as rename-only is never relocated, whatever is done afterwards; setting a stricter lock on a step already renamed or relocated raises ValueError and leaves the lock as it was.","every history of lock, fix, rename and access operations","all histories",MP+"Pstep._locked",MP+"Pstep._fix",MP+"Pstep._lock",MP+"Pstep.__setattr__")
p("Creating and renaming steps does not alter the mappings they came from","No operation on steps created from a mapping hierarchy changes what this hierarchy maps afterwards.","every mapping hierarchy and every history of step operations","aliasing of mutable objects across histories",MP+"Pstep._Pstep__make_cstep",MP+"Pmod.step")
p("Tags form a set","After any sequence of tag and untag operations a step carries a tag exactly when the last operation mentioning that tag added it.","every sequence of tag operations","all histories",MP+"Pstep._tag",MP+"Pstep._tag_remove")
p("Step paths equal the mapped original paths","For a step tree made from a mapping hierarchy, the paths reported by the steps are the original paths mapped by the same hierarchy.","every mapping hierarchy with plain relative aliases and every accessed path","two independent implementations must agree on all trees",MP+"Pstep.__new__",MP+"Pmod.map_path",MP+"Pmod.map_paths")
# --- merging / build
p("Merging submodels overrides recursively, key by key","The merged model has at every object key the value of the later submodel, merged recursively when both have an object there, and the earlier value when the later has none or null; lists and scalars of the later replace those of the earlier.","every pair of JSON-like models of any depth","unbounded recursion over two trees",PD+"Pandel._clone_and_merge_submodels")
p("Merging submodels is associative on compatible models","Merging three submodels in order does not depend on grouping.","every triple of models that merge without error","algebraic law over all trees",PD+"Pandel._clone_and_merge_submodels")
p("A build yields a model exactly when no step reports an error","Building returns a model exactly when no phase reports any error; otherwise it raises the first reported error; phases run in the fixed order and no phase starts after a phase that reported an error.","every list of submodels, validator behaviour and curation callback","error behaviour over all combinations of phase outcomes",PD+"Pandel.build",PD+"Pandel.build_iter")
p("Building does not change the submodels that were added","Building a unified model leaves every added submodel as it was.","every list of submodels, schema and validation settings","sharing of nested objects shows only for some shapes of input",PD+"Pandel.build_iter",PD+"Pandel._clone_and_merge_submodels",PD+"PandelVisitor")
p("Auto-defaults fill only what is missing or null","With auto-default/auto-null/auto-remove enabled, validation adds the schema default to missing properties, replaces null by the applicable null-replacement, removes null properties that may not be null, and changes no other property; repeating it changes nothing more.","every instance object, schema and flag combination","ranges over all instances, schemas and flags",PD+"_rule_auto_defaults_properties",PD+"_is_null_in_type",PD+"first_defined")
p("Additional properties are exactly those neither declared nor pattern-matched","The reported additional properties are precisely the instance keys that are not declared properties and match no pattern property; with additionalProperties false the error appears exactly when there is one.","every instance and schema","all key sets and patterns",PD+"_find_additional_properties",PD+"_rule_additionalProperties")
# --- capture
p("Column names and numbers are in bijection","Converting a zero-based column number to its letters and back gives the number, and converting any non-empty letters (any case) to a number and back gives the upper-cased letters; likewise for rows, and for whole coordinates written as an A1 cell and resolved again, where each may be one of the symbols ^ _ . too; anything else is refused.","every natural number and every letter string","infinite; off-by-one at powers of 26",CP+"_col2num",CP+"_row2num",CP+"coords2Cell",CP+"_resolve_cell")
p("Coordinates resolve as documented","A numeric coordinate n>0 resolves to n-1, n<0 to the n-th from the lower/right margin, '^' and '_' to the margins, '.' to the base coordinate, and everything else is rejected; resolved coordinates are never negative.","every coordinate text, margins and base","ranges over all margins and texts; negative overflow is not caught",CP+"_resolve_coord",CP+"_resolve_cell",CP+"_row2num",CP+"_col2num")
p("Targeting from an empty cell finds the first full cell in walking order","Starting from an empty landing-cell, targeting with one or two directions returns the first full cell met when walking the primary direction within lines visited along the second direction, and fails exactly when there is none.","every sheet contents of any size, every landing cell, every direction pair","searches in unbounded grids in 12 direction combinations",CP+"_target_opposite",CP+"_mov_vector_slices",CP+"_extract_states_vector")
p("Targeting from a full cell stops at the last contiguous full cell","Starting from a full landing-cell, each move extends to the last cell of the contiguous run of full cells through the landing cell; the order of two moves is irrelevant.","every sheet contents, landing cell and moves","unbounded grids",CP+"_target_same",CP+"_target_same_vector")
p("Unlimited expansion computes the least enclosing rectangle","Expanding a rectangle without limit in a set of directions terminates and yields the smallest rectangle containing it whose adjacent lines in all these directions are empty; the order of the directions does not matter.","every sheet contents of any size, every start rectangle, every direction set","a fixpoint computation on unbounded grids with interacting directions",CP+"_expand_rect")
p("Limited expansion moves at most the given number of times and only over non-empty lines","Each limited expansion move extends the rectangle by at most its repeat count in each of its directions, each time only if the adjacent line has a full cell; the rectangle never shrinks.","every sheet, rectangle and expansion-move sequence","all sequences of moves",CP+"_expand_rect",PR+"parse_expansion_moves")
p("A resolved capture rectangle is ordered and inside what was asked","The resolved capture-rectangle has its first corner above-left of its second; a reference of two plain in-sheet cells resolves to the rectangle between them whatever the order in which its corners are given.","every sheet and every pair of edges","all sheets and edges",CP+"resolve_capture_rect",CP+"_sort_rect")
p("Sheet margins are the tight bounding box of the full cells","The margins of a sheet bound every full cell, and each of the four bounds is attained by a full cell; an all-empty sheet has margins at the origin.","every states matrix","unbounded grids",BE+"margin_coords_from_states_matrix",BE+"ABCSheet.get_margin_coords")
p("Reading a rectangle returns exactly the cells of the sheet","Reading a rectangle of an array sheet returns, at each position, the value of the sheet at the corresponding coordinates.","every sheet and every in-sheet rectangle","unbounded grids",BE+"ArraySheet.read_rect",XR+"XlrdSheet.read_rect")
# --- parsing
p("Expansion-move strings are parsed losslessly","An expansion-move string is read, in order, as single directions followed by a repeat count ('?' meaning one) and maximal runs of directions without a count, which are unlimited; every string of this shape is accepted and every other string without line breaks is rejected.","every list of groups, every string","all strings; the split-by-regex shortcut is subtle",PR+"parse_expansion_moves",PR+"_repeat_moves")
p("Well-formed references parse to their fields","A reference fragment written from an optional sheet name, one or two edges with optional targeting moves and modifiers, optional expansion moves and optional filter JSON parses back to exactly these fields, upper-cased; only when there is no sheet name must the filter text be free of '!'.","every combination of field texts","backtracking grammar over unbounded strings",PR+"parse_xlref_fragment",PR+"_regular_xlref_regex",PR+"_parse_edge",PR+"Edge_new")
p("Parsing is case-insensitive in coordinates and moves","Changing the case of letters in cell coordinates and moves does not change the parse result.","every reference and every re-casing of it","all strings and casings",PR+"parse_xlref_fragment",PR+"Edge_new")
p("A missing edge defaults as documented","In a range reference a missing first edge means the top-left of the sheet and a missing second edge the bottom-right; without a colon there is no second edge; an empty reference with only a sheet means the whole sheet.","every reference lacking an edge","all remaining field contents",PR+"parse_xlref_fragment",PR+"_parse_edge")
p("Call specifications normalise uniquely","A filter specification is accepted exactly in the documented forms (name; list of name with optional arguments and keywords in either order; object with func, args, kwds) and normalises to (name, list, object); everything else raises ValueError.","every JSON value","all JSON values",PR+"parse_call_spec")
p("An encased reference means the same as the bare one","A reference encased in one of the supported quote characters is lassoed to the same result as the bare reference.","every valid reference and every encasing character","needs every reference; combines the parser with the later merge of its fields",PR+"parse_xlref",PR+"_encase_regex",LS+"Ranger._parse_and_merge_with_context")
# --- sheets
p("The sheets cache never serves a closed or stale sheet","Whatever sequence of fetch, add and close operations is performed, a sheet held in the cache is open, and a lookup by any of the ids a sheet was last added with returns that sheet.","every history of factory operations and every backend behaviour","all histories of a mutable cache",BE+"SheetsFactory.fetch_sheet",BE+"SheetsFactory.add_sheet",BE+"SheetsFactory._close_sheet",BE+"SheetsFactory.close",BE+"SheetsFactory._cache_get",BE+"SheetsFactory._cache_put")
p("Fetching twice opens once","A second fetch with the same workbook and sheet ids returns the very same sheet without opening anything, as long as nothing was closed or replaced in between.","every cache history","all histories",BE+"SheetsFactory.fetch_sheet")
p("Adding a sheet keeps other sheets available","Adding a sheet with default ids does not close or evict other cached sheets of the same workbook.","every cache history","histories with several sheets per workbook",BE+"SheetsFactory.add_sheet",BE+"SheetsFactory._derive_sheet_keys",UT+"as_list")
p("The best bidding backend wins","The chosen backend is one with the maximum bid, the last one among equals, and an error is raised exactly when none bids.","every list of backends and bids","all lists of bids",BE+"SimpleSheetsFactory.decide_backend")
# --- ranger
p("Filter calls return a lasso or raise, leniently or not","A filter call either returns a lasso or raises ValueError; in lax mode it never raises and returns the lasso unchanged when the filter fails.","every filter behaviour, lax setting and lasso","ranges over arbitrary filter functions",LS+"Ranger.make_call")
p("A pipe of filters is their composition","Running a pipe of filters equals running them one after the other, each on the output of the previous; a pipe of a concatenation is the composition of the pipes; a strict failure stops the pipe.","every list of filters with arbitrary behaviours","all lists and behaviours",FI+"pipe_filter",LS+"Ranger.make_call")
p("Options of a reference override base options and keep the rest","The options in force while lassoing are the base options overridden by those in the reference's filter.","every base options and reference options","all option maps",LS+"Ranger._parse_and_merge_with_context")
p("Element-wise filtering respects structure, depth and key selection","Element-wise filtering applies the function to exactly the elements selected by include/exclude and depth, keeps the nesting structure, order and keys, and leaves everything else unchanged.","every nested value, every selection and depth, every element function","unbounded nested structures",FI+"run_filter_elementwise")
p("Redimensioning keeps all values in order","Changing the dimensionality of a captured table never loses, adds or reorders values, and the result has the asked number of dimensions whenever the shape permits it.","every table shape and target dimension","all shapes",FI+"_redim",FI+"_updim",FI+"_downdim",FI+"redim_filter")
# --- utils
p("Unique file names are free and minimal","The unique file name returned does not exist and is the original or the first free numbered variation.","every set of existing files and every name","all file-system contents",UT+"make_unique_filename",UT+"generate_filenames")
p("Ensuring a file extension is idempotent","Applying the extension twice is the same as once, and the result always ends with an accepted extension.","every file name and extension","all strings",UT+"ensure_file_ext")
p("After ensuring a directory it is a directory","When ensuring a directory succeeds, the path is a directory, whatever other processes did meanwhile.","every schedule of other processes' creations and removals","interleavings",UT+"ensure_dir_exists")
p("Boolean texts are recognised consistently","A text is read as False exactly when, apart from letter case and surrounding white space, it is empty, no, false, off or 0, and as True otherwise (in particular for yes, true and on); anything that is not text raises ValueError; the lenient variant gives False for anything empty or zero.","every string","all strings",UT+"str2bool",UT+"obj2bool")
p("Values with units parse back","A text made of a name followed by units in square or angle brackets parses to this name and these units, whatever spaces surround them.","every name and units text","all strings through a regular expression",PD+"parse_value_with_units")
# --- components
p("Building a component twice gives the same inputs and outputs","Rebuilding a component with the same mappings yields the same input and output paths; an assembly's inputs and outputs are the sorted union of those of its parts in any order.","every component function and mapping, every list of components","all component behaviours",CO+"FuncComponent._build",CO+"Assembly._build")
# --- codec
p("Objects survive JSON encoding","Any pickled payload put in JSON text by the codec is decoded to the same payload.","every byte string produced by pickling","all byte strings through quoted-printable coding",PD+"JSONCodec")
# --- others
p("Schema paths name the declared leaves","The paths built from a schema, split by the pointer rules, are exactly the chains of property names leading to schema leaves.","every schema tree","all trees and property names",PD+"build_all_jsonpaths")
p("Excel files are recognised by extension exactly","A file is considered Excel exactly when its name ends, in any case, with one of the known Excel extensions.","every file name","all strings through a regular expression",XU+"is_excel_file",XR+"XlrdBackend.bid")
p("Opening a sheet by text prefers its name over its index","Opening a sheet by a text id opens the sheet with that name if there is one, else the sheet with that index, else fails; no id opens the first sheet.","every workbook and sheet id","all workbooks",XR+"_open_sheet_by_name_or_index")
p("Lassoing a two-cell reference returns exactly that block","Lassoing '#A1:B3'-like references on an array sheet returns exactly the block of values between the two cells, end to end from text to values.","every sheet and every pair of in-sheet cells","end-to-end over parser, resolver and reader for all sizes",LS+"Ranger.do_lasso",PR+"parse_xlref",CP+"resolve_capture_rect",BE+"ArraySheet.read_rect")
p("Reading a path of a built model returns the value there","Getting a path from a built Pandel returns the value at that path.","every model and path","all models and paths; the method lacks a return statement",PD+"Pandel.get")
# --- appended while modelling
p("A failing lasso raises only the documented errors","A failing lasso raises SyntaxError only for a text that is no reference, EmptyCaptureException only when the no_empty option is set, an error of reading the sheet, and ValueError in every other case; an empty capture without no_empty gives an empty list.","every reference text, context, options, sheet and filter behaviour","ranges over arbitrary backends and filters",LS+"Ranger.do_lasso",LS+"Ranger._parse_and_merge_with_context",LS+"Ranger._resolve_capture_rect",LS+"Ranger._run_filters")
p("A reference is completed by its context","Each part written in a reference (workbook, sheet, edges, expansion, filters) wins over the context given to the lasso, and each part that is missing is taken from the context.","every reference and context","all combinations of present and missing parts",LS+"Ranger._parse_and_merge_with_context",LS+"Ranger._make_init_Lasso")
p("The generator given for unique file names is used","The unique file name is the first free name produced by the generator given by the caller.","every generator, file name and set of existing files","ranges over arbitrary generator functions",UT+"make_unique_filename")
p("Command names are the class names in small letters with separators","The command name of a class has no capital and no underscore; without separators it is the class name in small letters; converting a snake-case name again changes nothing.","every name","all strings",UT+"camel_to_snake_case",UT+"camel_to_cmd_name")
p("The first line of a text is its first line with content","The first line is the first line of the text that has something besides white space, without the white space around it; there is none exactly when the text is blank.","every text","all strings",UT+"first_line")
p("The factory without cache serves siblings of a sheet","Fetching with the plain factory gives the base sheet when nothing is named, opens the named workbook when one is named, and gives the named sibling of the base sheet when only a sheet is named.","every workbook and sheet ids, base sheet and backend behaviour","ranges over arbitrary backends",BE+"SimpleSheetsFactory.fetch_sheet")
p("A cell counts as full exactly when reading it gives a value","A cell of a sheet is full exactly when reading it alone gives something other than None; so zeros, empty texts and False are full in an array sheet, and blank cells of an Excel sheet are empty.","every sheet and position in it","all sheets",BE+"ArraySheet._read_states_matrix",BE+"ArraySheet.read_rect",XR+"XlrdSheet._read_states_matrix",XR+"XlrdSheet.read_rect",XR+"_parse_cell")
p("The recursive filter expands references and nothing else","Applying the recursive filter replaces every text inside the values that is a reference by the values captured there (after the sub-filters), leaves texts that are not references and all other values alone, and fails when a reference cannot be captured.","every nested value, every selection and depth, every outcome of the lassos","unbounded nested structures and arbitrary inner lassos",FI+"recursive_filter",FI+"_recurse_element_func")
p("A text is refused as a reference exactly when it is not one, and nothing is read that was not written","Parsing a reference fragment raises SyntaxError exactly when the text cannot be written as spaces, an optional sheet, optional edges (numbers not starting with zero, letters, or the special coordinates), optional expansion moves and optional filters; and what is parsed are those parts. Filters that are no such JSON raise ValueError, and no other error is raised.","every text","all strings through a regular expression",PR+"parse_xlref_fragment",PR+"_parse_edge",PR+"Edge_new")
p("A reference is a workbook, a hash and a fragment","A text is read as a reference by taking what precedes the first hash for the workbook (none when empty) and what follows it for the fragment, with curly double quotes taken for straight ones; without a hash, or with nothing after it, it is refused with SyntaxError.","every text","all strings",PR+"parse_xlref",PR+"_parse_xlref")
p("The paths with a tag are exactly those tagged",
  "After reading any chains of attributes from a root step and tagging the steps they lead to, the paths reported for a tag are exactly the chains tagged with it (mapped by the hierarchy, if the root has mappings), sorted and without repetition.",
  "every finite sequence of chains and tags, every tag, with or without mappings having plain relative aliases",
  "histories of mutations building a tree",
  "pandalone/mappings.py:Pstep._paths", "pandalone/mappings.py:Pstep._tag")
p("Assigning to an attribute of a step replaces that child and nothing else",
  "Assigning a text to an attribute of a step renames that child: it keeps its children, tags and lock, and the paths that any step reports are those before with that text replaced. Assigning another step that is not empty places a copy of it there, under the attribute's name, with its children, tags and lock. No other step changes; an assignment that fails changes no step.",
  "every history of operations in which no step is assigned to itself, every step, attribute and value",
  "histories of mutations of shared objects",
  "pandalone/mappings.py:Pstep.__setattr__", "pandalone/mappings.py:Pstep.__make_cstep", "pandalone/mappings.py:Pstep.__new__", "pandalone/mappings.py:Pstep._paths")
p("A workbook named by a path is the file that is opened",
  "Naming a workbook by a path opens the file that the path means in the working folder, with '.' and '..' resolved.",
  "every working folder and path (on POSIX)",
  "all texts, through several rounds of splitting, joining and decoding",
  "pandalone/utils.py:path2url", "pandalone/utils.py:urlpath2path", "pandalone/utils.py:normpath", "pandalone/xleash/io/_xlrd.py:XlrdBackend._open_book")
p("A workbook named by a file URL is the file that is opened",
  "Naming a workbook by the percent-encoded 'file:' URL of an absolute path opens that path, whatever characters its names have.",
  "every absolute path and working folder (on POSIX)",
  "all texts, through encoding and decoding",
  "pandalone/utils.py:path2url", "pandalone/utils.py:urlpath2path", "pandalone/xleash/io/_xlrd.py:XlrdBackend._open_book")
p("The URL of a workbook does not change when computed again",
  "The URL computed for a URL that was computed for a workbook is that same URL, so backends bid for the very URL that is opened.",
  "every path or URL, and working folders",
  "all texts",
  "pandalone/utils.py:path2url", "pandalone/xleash/io/backend.py:SimpleSheetsFactory.decide_backend", "pandalone/xleash/io/backend.py:SimpleSheetsFactory.fetch_sheet")
p("Remote URLs pass through",
  "A remote URL is left unchanged, and it is what is read.",
  "every remote URL and working folder",
  "all texts",
  "pandalone/utils.py:path2url", "pandalone/xleash/io/_xlrd.py:XlrdBackend._open_book")

p("A call of lasso() without a factory leaves no workbook open",
  "When lasso() ends, normally or by an exception, every workbook that it opened has been released, including those opened by filters that follow references.",
  "every reference, context, options, filters (any programs fetching sheets) and behaviour of backends",
  "arbitrary filters nesting lassos, failures at any point",
  LS+"lasso", LS+"Ranger.do_lasso", BE+"SheetsFactory.close", BE+"SheetsFactory.fetch_sheet")
p("lasso() does not close what it was given",
  "A factory given to lasso() is not closed by it, and a sheet given in the context is still usable afterwards.",
  "every reference, context, options, filters and behaviour of backends",
  "arbitrary filters nesting lassos",
  LS+"lasso", BE+"SheetsFactory.fetch_sheet", BE+"SheetsFactory.close")
p("Options and filters given to lasso() override the default ones",
  "The options and the filters in effect are the given ones, and the default ones for the names not given.",
  "all given options and filters",
  "all dictionaries",
  LS+"lasso", LS+"make_default_Ranger", LS+"get_default_opts")
p("Lassoing a written reference captures what its parts mean",
  "Lassoing a reference without filters gives the values of the rectangle between the edges written (the first full corner and the last one for absent edges), with their moves, expanded by the moves written, on the sheet and workbook written or those of the context; an empty capture gives an empty list and any other failure to resolve is an error (a ValueError, except for C67).",
  "every written reference without filters, sheet, context and factory",
  "all texts composed with all sheets",
  LS+"Ranger.do_lasso", LS+"lasso", PR+"parse_xlref", CP+"resolve_capture_rect")
p("A table is captured whole from any cell above and left of it",
  "On a sheet whose full cells form one table, the references 'A1(DR):..(DR)' and 'A1(DR):..:RD' (moves in any order and case, any cell above and left of the table for A1) capture exactly the table and its values.",
  "every sheet with one table, every cell above and left of it, both kinds of sheets",
  "all sheets, tables and cells",
  LS+"Ranger.do_lasso", CP+"resolve_capture_rect", BE+"ArraySheet", XR+"XlrdSheet")
p("'#:' captures exactly the used area of a sheet",
  "The reference '#:' captures the smallest rectangle that has all full cells of the sheet.",
  "every sheet having a full cell, both kinds of sheets",
  "all sheets",
  LS+"Ranger.do_lasso", CP+"resolve_capture_rect", BE+"ABCSheet.get_margin_coords", XR+"XlrdSheet._read_margin_coords")

p("What validation does to a document",
  "Validating leaves the document with its declared properties filled in, replaced or removed as the arguments and the schema say, and so on inside of properties, additional properties and items that have a schema; everything else is unchanged.",
  "every schema of the modelled keywords in any order and nesting, every document and combination of flags",
  "recursive schemas and documents",
  PD+"PandelVisitor", PD+"_rule_auto_defaults_properties", PD+"_rule_additionalProperties", PD+"_rule_propertyNames")
p("The verdict of a validation is about the document that it leaves",
  "Validation reports no error exactly when the document it leaves conforms to the schema; validating again changes nothing and gives the same verdict; a model that was built conforms to its schema.",
  "every schema of the modelled keywords, every document and combination of flags",
  "recursive schemas and documents, order of keywords, filling in while checking",
  PD+"PandelVisitor", PD+"_rule_auto_defaults_properties", PD+"Pandel.build")
p("An enumeration accepts exactly the values listed",
  "A value passes an enumeration exactly when it is one of the values listed, as JSON values.",
  "every list of values and every value",
  "all documents, booleans and numbers being equal in Python",
  PD+"rule_enum")
p("Validating a document changes neither the schema nor other documents",
  "Filling in defaults writes only to the document being validated: the defaults in the schema and other documents that share no object with it stay as they are, and documents do not come to share objects.",
  "every heap of objects, schema and documents",
  "arbitrary sharing of objects and later histories",
  PD+"_rule_auto_defaults_properties", PD+"PandelVisitor")

p("The df filter hands pandas exactly the captured table",
  "The 'df' filter makes a DataFrame of exactly the captured cells, None being an empty text and blank cells of a many-column index repeating the cell above, with the arguments given; an empty capture gives an empty DataFrame, numbers and lists of numbers give none, and when it fails the captured values are as before.",
  "every captured table and combination of arguments, whatever pandas does",
  "all tables, header and index positions",
  PF+"_df_filter", PF+"_maybe_convert_usecols")
p("Evaluating filters replace exactly the texts that can be evaluated",
  "'pyeval' replaces every text it looks at that evaluates without error by its result, after the sub-filters, and leaves everything else as it is; with eval_all it fails when a text cannot be evaluated. 'py' evaluates its expression on the whole capture. Options are kept when the result brings none.",
  "every nested value, evaluator, selection, depth and list of sub-filters",
  "recursive values, arbitrary expressions",
  FI+"pyeval_filter", FI+"py_filter")

p("A sheet asked many times answers the same",
  "However often and in whatever order a sheet is asked for its states and its margins, all successful answers are the same; each is what the sheet had at some time until then, exactly what it has if it did not change; margins that a backend does not report are those of the states answered; a failure is never remembered.",
  "every history of questions and changes of the contents, and every backend",
  "all histories of a cache with changes from outside",
  BE+"ABCSheet.get_states_matrix", BE+"ABCSheet.get_margin_coords")
p("A logger as an output stream logs what is written",
  "What is written to a logger is logged as one message without its line ending, if there is more than that.",
  "every text",
  "all texts",
  UT+"LoggerWriter")
p("Pairs as text can be told apart",
  "Pairs are formatted as one line for each, in order: the key in a column as wide as the smallest fitting multiple of the indentation, an equals sign and the value; different pairs give different texts.",
  "every list of pairs and every indentation",
  "all texts",
  UT+"format_pairs")
p("which finds the program that the system would run",
  "'which' gives the executable file of that name in the first folder of the search path that has one, and None if there is none.",
  "every search path, name and file system, on POSIX",
  "all file systems and paths",
  UT+"which", UT+"where", UT+"py_where")

p("Mapping pairs can be taken from steps and give the same mappings",
  "The pairs derived from a step are, in order of their paths, one for each branch of steps below it: the path of the original names, and the text of the last step. Mappings rebuilt from the pairs of steps made from mappings take the path of every chain of attributes that was read to the same path as these.",
  "every tree of steps; every hierarchy of mappings and every chains read from steps made from them",
  "all trees and histories",
  MP+"Pstep._derrive_map_tuples", MP+"Pstep._iter_hierarchy", MP+"pmods_from_tuples", MP+"Pmod.map_path")

p("A dataframe of names gives steps with these names and attributes",
  "The step made from a dataframe has a child for every path in the index; its text is the name in the row, its attributes are the values in the other columns of the row (for a path given more than once, those of the last row). No other step has attributes.",
  "every dataframe of names and other columns",
  "all dataframes, with any number of rows and repeated paths",
  MP+"pstep_from_df", MP+"pmods_from_tuples", MP+"Pstep.__getattr__")

p("The ranger remembers how far the last lasso got",
  "After throwing a lasso, however it ended, intermediate_lasso names the last stage of it (context, parse, open, capture, read_rect, or the filter called) and holds the lasso produced by that stage. If lassoing failed before filtering, it is the lasso that the next stage could not be made from; if all is well, it is the final lasso.",
  "every reference, context, ranger, sheet and filters",
  "all references, sheets and filters, and every point of failure",
  LS+"Ranger.intermediate_lasso", LS+"Ranger._relasso", LS+"Ranger.do_lasso", LS+"Ranger.make_call")

p("A broken plugin does not harm the others",
  "Discovering plugins loads all of them, in the order of their names, and then calls the installers they gave, in the same order. A plugin that fails at loading or installing neither stops the discovery nor changes how far any other plugin gets, and the record of plugins says for each how many stages it completed (0, 1 or 2). Without any plugin there is an error.",
  "every collection of plugins, failing at any stage",
  "all collections of plugins and all points of failure",
  "pandalone/xleash/__init__.py:_init_plugins", "pandalone/xleash/__init__.py:_plugins_installed")

p("Importing VBA files replaces the modules called like them and nothing else",
  "After importing files into a workbook, it has for every file exactly one module with the name of the file (without folder and extension) and the code of the file, and every other component is as it was. If anything fails, nothing is saved, and the workbook keeps its modules.",
  "every collection of files, workbook and point of failure; names compared the way Excel does",
  "all workbooks and collections of files, and all points of failure",
  XU+"import_vba_into_excel_workbook", XU+"_import_vba_files", XU+"_gather_files")
p("An updated workbook is saved where the documentation says",
  "A workbook into which files were imported is saved once: under the new name if one is given, otherwise in place if it is macro-enabled, otherwise as a copy with '.xlsm' appended to its name.",
  "every workbook, new name and collection of files",
  "all names of workbooks",
  XU+"_save_excel_as_macro_enabled", XU+"_save_workbook", XU+"import_vba_into_excel_workbook")
p("Importing VBA leaves Excel's alerts on",
  "If Excel shows alerts before files are imported into a workbook, it does so afterwards, whether importing succeeds or fails.",
  "every workbook, collection of files and point of failure",
  "all points of failure",
  XU+"_save_workbook", XU+"import_vba_into_excel_workbook")
p("Removing VBA modules removes those named",
  "Removing modules by names removes all modules with these names, in whatever case, and no other component; without names it removes all modules and nothing else.",
  "every workbook and list of names",
  "all lists of modules and of names",
  XU+"_remove_vba_modules")
p("The command for importing VBA understands its arguments as documented",
  "The command imports files when it is given one to three arguments, of which the first is no option or is --pandalone (the files of the package); the second names the workbook (the active one if missing) and the third its new name. Otherwise nothing is imported.",
  "every list of arguments",
  "all lists of arguments",
  XU+"main", XU+"import_vba_into_excel_workbook")

p("Assemblies can be nested and regrouped freely",
  "An assembly of components and other assemblies, nested to any depth, builds like the assembly of just the components in it: its inputs and outputs are the sorted union of theirs, and it fails when and as that one does. Grouping and order of the components make no difference to inputs and outputs.",
  "every tree of assemblies and components, mappings and history of builds",
  "all trees of assemblies",
  CO+"Assembly._build", CO+"FuncComponent._build")

p("Submodels that are Series are merged label by label",
  "When one of two submodels (or of two values under the same keys) is a pandas Series, the other one is converted to a Series, and the merged Series has the labels of both; under each label is the value of the later one unless it has none or a missing one there, merged with the value of the earlier one as everywhere else. Lists and scalars just overwrite.",
  "every pair and sequence of submodels made of objects, Series, lists and scalars",
  "all submodels, depths and orders of merging",
  PD+"Pandel._clone_and_merge_submodels", PD+"Pandel._merge")

p("Validating never changes what is given, and adds nothing but defaults",
  "Whatever the schema (also with allOf, anyOf, oneOf, not, if, $ref, patterns), the arguments of the validator, and wherever the validation stops (at its end, at the first error, or with an exception), every value of the document that is not null is still there afterwards: scalars are the same, objects are objects, lists have the same length. Nulls that are items of lists, or under keys that are no properties in the schema or only such that may be null, are kept as well. What appears under keys that were missing or null are defaults of the schema for properties of that name.",
  "every schema, set of referred schemas, document, arguments and point of stopping; every place in the document",
  "all schemas and documents of any depth, and all points where a validation may stop",
  PD+"PandelVisitor", PD+"_rule_auto_defaults_properties")
p("Keywords that combine schemas mean what JSON-schema says",
  "A document is accepted exactly if it is as the schema asks: as all, as at least one, as exactly one, as none of the combined schemas, and as one that depends on a condition. Validations that stop at the first error accept the same documents, and report of the others the first of the errors that are reported otherwise. Schemas the document is not like leave no trace in it.",
  "every schema, recursive or not, document and arguments of the validator",
  "all combinations of schemas and documents of any depth",
  PD+"PandelVisitor", PD+"_rule_auto_defaults_properties")

p("Normalising a path keeps what it means",
  "normpath() gives a path that means the same file in every working folder, with nothing left in it that can be left out; normalising again changes nothing; it ends with a slash exactly if the given path does (or means the root). abspath() gives the path of the file that is meant, from the root, keeping a last slash in the same way.",
  "every path and every working folder",
  "all paths",
  UT+"normpath", UT+"abspath", UT+"_is_dir_regex")
p("Variables in paths are expanded and all the rest is kept",
  "convpath() replaces $name and ${name} by the values of the variables that are set, and keeps everything else of the path, also variables that are not set and names of hidden Windows shares (ending with $), before it normalises the path or makes it absolute. What is not asked for is not done.",
  "every path with any number of variables and shares, every environment, working folder and flags",
  "all paths and environments",
  UT+"convpath", UT+"normpath", UT+"abspath")
p("Paths with drive letters become URLs of files on the drive",
  "path2url() gives for a path with a drive letter the file-URL of the file it means on that drive, from its root: with slashes or backslashes, absolute or not, with . and .. walked along, and with a last slash kept. The prefix for long paths counts as the root.",
  "every path with a drive letter and every working folder",
  "all paths",
  UT+"path2url")

p("Paths survive being put into URLs",
  "urlpath2path() gives back the path that was given to path2urlpath(), so different paths have different URLs; whatever the path, its URL has only characters that are allowed in the paths of URLs.",
  "every path",
  "all paths",
  UT+"path2urlpath", UT+"urlpath2path", UT+"_is_dir_regex")
p("Equal mappings map paths alike",
  "Two Pmods compare equal exactly if they have the same names and regexes, with the same aliases, at all places; then they map every path to the same path, and merging equal mappings gives equal mappings.",
  "all pairs of mappings, all paths",
  "all pairs of mappings and all paths",
  MP+"Pmod.__eq__", MP+"Pmod.map_path", MP+"Pmod._merge")

p("Merging DataFrames keeps all cells, the last one winning",
  "When submodels that are DataFrames are merged, every cell of the merged DataFrame has the value of the last submodel in which that cell is not missing, and every row and column of every submodel is kept; columns are not repeated, and those of earlier submodels come first.",
  "every list of DataFrames, every order in which sets of columns are listed",
  "all DataFrames",
  PD+"Pandel._clone_and_merge_submodels", PD+"Pandel._merge")
p("Two columns become a dictionary or a Series",
  "The filters dict, odict and sr make of a table of two columns a dictionary (Series) whose keys are the cells of the first column, in the order in which they first appear, each once, with the cell of the second column in the last row that has the key; keyword arguments of dict are like further rows. What is not a table of two columns is refused.",
  "all captured values and keyword arguments",
  "all values",
  "pandalone/xleash/_filter.py:install_default_filters", "pandalone/xleash/_pandas_filters.py:install_filters")
p("Sorting keeps all items and puts them in order",
  "The filter sorted gives exactly the captured items, none after one that it is before (with reverse, none before), with equal items in the order in which they were captured; rows are compared by their first cells that differ. An item that cannot be compared with any other is refused with a TypeError.",
  "all captured lists and tables, in both directions",
  "all lists and tables",
  "pandalone/xleash/_filter.py:install_default_filters")

p("Python, numpy and pandas values have the documented JSON types",
  "When a document is validated, None and NaN are null; lists, tuples, Series and arrays of one dimension are arrays; mappings and DataFrames are objects; booleans, integers and floats, of Python or numpy, are what they are called, booleans being no integers or numbers; and every value has at most one of the types, integers counting as numbers.",
  "all values, whatever they contain",
  "all values",
  PD+"_is_array", PD+"_is_object", PD+"_is_null", PD+"PandelVisitor")
p("What submodels give is in the built model",
  "When a model is built, each place of the built model for which some submodel gives a scalar has the scalar given by the last such submodel; values that schemas give by default never take the place of given ones.",
  "all submodels, schemas and places",
  "all submodels and schemas",
  PD+"Pandel._clone_and_merge_submodels", PD+"Pandel.build", PD+"Pandel._rule_auto_defaults")
p("Installed operations are those given last",
  "After mod_global_operations has been called any number of times, in either style, each of the operations inp, out and conv is the one given for it by the last call that gave it, and the others are what they were.",
  "all sequences of calls",
  "all histories",
  PD+"ModelOperations", PD+"Pandel.mod_global_operations")
p("Listed sheets are those that can be opened",
  "Every sheet listed for a workbook can be opened by its name and by its place in the list, and both open this sheet of this workbook. Every sheet that can be opened is in the list. If listing fails, opening fails with the same error.",
  "all workbooks, backends and ways of naming a sheet",
  "all workbooks",
  BE+"SimpleSheetsFactory.list_sheetnames", BE+"SimpleSheetsFactory._open_sheet", XR+"XlrdBackend.list_sheetnames")
p("Dates are read as Excel shows them",
  "A date cell is read as the date and the time of the day that Excel shows for it, in the date system (1900 or 1904) of the workbook; a number below one is read as a time.",
  "all numbers of days and parts of a day, in both date systems",
  "all dates",
  XR+"_parse_cell", XR+"_open_sheet_by_name_or_index", XR+"XlrdSheet")

p("A model-maker can be used again and again",
  "What a model-maker builds depends only on the submodels added so far, as they were when they were added: not on whether, when and with which success it has built before.",
  "all sequences of adding submodels and building",
  "all histories",
  PD+"Pandel.add_submodel", PD+"Pandel.build_iter")

p("An unfinished build does no harm to later ones",
  "The iteration over the errors of a build may be abandoned at any error. At any time the flag of the maker says whether the last build begun has reported an error, its errors are of one phase, and no later phase was begun after them. Read to its end it reports all errors of the submodels, each once and in order, or else all those of the merged model. What later builds do depends only on the submodels, not on builds that were abandoned.",
  "all sequences of adding submodels, beginning builds and asking for the next error; all validations that report errors one by one",
  "all histories and all points at which a build is abandoned",
  PD+"Pandel.build_iter", PD+"Pandel.build", PD+"Pandel.add_submodel")

p("Many processes may ensure directories at once",
  "When many processes ensure directories at once, for paths that may have folders in common, each of them returns and its path and all the folders it is in are then directories; nothing else is made, and nothing is removed or replaced. With a file in the way no call returns.",
  "all paths, all file systems, all numbers of calls and all interleavings of their operations, with other processes that make directories",
  "all schedules",
  UT+"ensure_dir_exists")

p("A sheet that cannot be closed does not lose the others",
  "When closing a sheet fails, while a sheet is added that replaces it or while the factory is closed, the call raises and no open sheet is lost: the one that failed and all others not yet closed are still found under their ids, the new sheet is found under the ids it got so far, and closing the factory again closes them all. No closed sheet is served.",
  "all histories of a factory, all sheets and ids, all orders in which ids are visited, all sets of sheets whose closing fails",
  "failures of closing are injected at every point of every history",
  BE+"SheetsFactory._close_sheet",BE+"SheetsFactory.close",BE+"SheetsFactory.add_sheet")

p("Building and merging mappings alters no others",
  "Mappings are built by appending in place, and all mappings share the two empty dictionaries that are the default arguments of their constructor. Whatever mappings there are, and whether or not it fails, building mappings from tuples leaves all of them, and the default arguments, as they were; it makes a new object, which stands for what the tuples say, and it raises if a pattern does not compile. So does merging, though the merged mappings may share dictionaries with those they come from. So mappings keep their meaning through any history of building and merging. Appending into merged mappings (which no function of the library does) would alter the others.",
  "all lists of tuples, all states of objects and dictionaries in which the default arguments are empty, all pairs of mappings, all histories of building and merging, all regular-expression libraries",
  "sharing goes unnoticed until one particular history shows it; tests build each mapping afresh",
  MP+"Pmod.__init__",MP+"Pmod._append_into_steps",MP+"Pmod._append_into_regxs",MP+"Pmod._merge",MP+"pmods_from_tuples")

p("The schema of a step is its own",
  "A step has a schema exactly if it was asked for it, or is a copy of a step that had one; asking whether it has one makes none. What is written into the schema of a step is there afterwards with all that was written before, and no other operation changes it: not reading, not creating, renaming, locking or tagging steps, and not writing into the schemas of other steps. A step that is renamed keeps its schema. As documented, names of attributes are checked, and the type of steps with children is 'object' unless given.",
  "all histories of operations on steps and on their schemas, all attributes and values",
  "which steps share a schema depends on the whole history of copies",
  MP+"Pstep._schema",MP+"Pstep._schema_exists",MP+"_clone_attrs",PD+"JSchema.todict")

p("Components live apart",
  "A component is named as asked, or after its function without the prefix `cfunc_`. In any history of building and calling any number of components: a component that was never built raises an AttributeError when its function asks it for a step or a list; building it gives what building it alone gives, whatever was built or called before; and while its calls since the build succeed, the paths of its input and output steps are those of everything that its function read in the build and the calls together, as if it were read at once in one build alone, whatever is done with other components. A call that does only what was done before makes no step, and leaves the declared inputs and outputs as they are.",
  "every regex library, mappings, set of components, their functions, and history of builds (with any mappings) and calls (doing anything), whether they raise or not",
  "A test builds and calls one or two components once; the claim is about every interleaving of builds and calls of all components, which share the heap of steps and mappings.",
  CO+"FuncComponent.__init__",CO+"FuncComponent.__call__",CO+"FuncComponent._build",CO+"FuncComponent.pinp",CO+"Assembly.__init__")

p("Unique file names for many processes",
  "However many calls of `make_unique_filename` run at once, with any names, and whatever files they and other processes make and remove meanwhile: the name that a call returns is free at the moment in which it is returned and is the name given or one of its numbered variations, the first one that is free if nobody removes files; a call returns after at most one operation more than there ever are different files; and if no file is removed and whoever gets a name makes its file before anything else happens, no two calls get the same name and no file is overwritten.",
  "every set of calls and of names given to them, set of files, and schedule of the operations of calls, their callers and other processes",
  "A test makes one call, or two one after the other; the claim is about every interleaving of the checks and of the making of files.",
  UT+"make_unique_filename",UT+"generate_filenames")

p("References that lead to references",
  "Filters may call filters and follow references found in what is captured, whose filters do the same, up to the recursion limit of Python. If no reference leads to itself, the outcome of a call, be it a value or an error, does not depend on the recursion limit once it is large enough. Whatever the references: where nothing is lax, a call that returns a value under some recursion limit returns the same value under any greater one; and references that lead back to themselves, over any number of others, are a `ValueError` under any limit, never an endless loop and never a value in which they are left as they are.",
  "every sheet factory, backend, JSON parser, options and set of filters (those of the package and any others), every reference text, context, and recursion limit, with filters nested and references chained to any depth",
  "A test has a few cells that refer to one another and one recursion limit; the claim is about chains and cycles of any length through any filters, and about every limit.",
  LS+"Ranger.do_lasso",LS+"Ranger.make_call",FI+"recursive_filter",FI+"pipe_filter",FI+"pyeval_filter",FI+"run_filter_elementwise")

p("A cache of sheets serves what opening would",
  "Whatever was fetched from a sheets-factory before, by paths, URLs, names, numbers or no id, and from base sheets, a sheet that it returns is the sheet that opening the workbook anew would give. Fetching a sheet of a workbook fails when opening it does, with the same error, and only then. A sibling of a sheet that was returned can be fetched whenever its workbook has it. A call does not close sheets that were returned before.",
  "every set of backends and workbooks, every history of calls of fetch_sheet with every workbook id, sheet id and base sheet, and every order in which the set of keys of a sheet is run through",
  "The cache is keyed by what the caller wrote, so one sheet has many keys and a sheet fetched by another key is opened again; a test fetches a few sheets in one order.",
  BE+"SheetsFactory.fetch_sheet",BE+"SheetsFactory.add_sheet",BE+"SheetsFactory._derive_sheet_keys",XR+"XlrdSheet.open_sibling_sheet",XR+"XlrdSheet._close")

p("What a reference captures does not depend on earlier captures",
  "Lassoing a reference with a sheets-factory that was used before, in any way, gives what opening all workbooks anew would give: the same values, the same lasso with an object for the same sheet, or the same error; also when filters fetch further sheets. In particular two factories with different pasts give the same.",
  "every set of workbooks, history of the factory, reference, context, options, and filters that may fetch sheets any number of times, depending on what they got",
  "Histories and filters are unlimited, and which object is served, and which sheets are still loaded in its workbook, depends on them.",
  LS+"lasso",LS+"Ranger.do_lasso",LS+"Ranger._open_sheet",BE+"SheetsFactory.fetch_sheet")

p("Setting at a pointer writes into one object and nothing else",
  "Setting a value at a JSON-pointer writes into exactly one of the dictionaries and lists that exist, at one entry: an object on the way of the pointer, at the entry named by the part that follows. If it fails, nothing has been written. So every document that does not hold an object on the way is as before, and a document in which no object occurs twice becomes what the rules for plain documents (C05, C06) say.",
  "every heap of dictionaries and lists, shared and cyclic in any way, document, pointer and value",
  "How objects are shared, how deep the pointer goes and where it leaves what exists are unlimited; a test sees one such heap, and only the objects that it looks at.",
  PD+"set_jsonpointer")

p("Values set at many pointers are all there",
  "Values set one after the other at pointers into an object, none of which is the beginning of another and which lead through objects only, are all read back afterwards, whatever the order of setting; what is under other keys stays; and the documents that different orders give are equal.",
  "every object, list of pointers and values, and order of setting them",
  "The number of pointers, their common beginnings and the orders are unlimited; each setting may create or replace what others lead through.",
  PD+"set_jsonpointer",PD+"resolve_jsonpointer")

p("Element-wise filters reach the cells of tables",
  "An element-wise filter on a capture that was made a Series or DataFrame of pandas is applied to the cells whose label, or that of their column, is selected, within the depth limit: those it processes are replaced in place by the outcome, all others and all labels stay. A reference in a cell is resolved relative to the cell of the sheet that it was captured from. It fails only if the element function or a sub-filter fails on one of these cells.",
  "every table, element function, list of sub-filters, labels included and excluded, depth limit and values in the cells, nested in any way",
  "The number of rows and columns, the labels selected and what is nested in cells are unlimited; a test sees some cells of one table and seldom where a reference in a cell is taken from.",
  FI+"run_filter_elementwise",FI+"recursive_filter")

p("Errors of a validation say what is wrong and where",
  "The errors that a validation reports are exactly the breaches of the schema by the document that it leaves: each keyword that is broken, at the value that breaks it, once per missing property, per property, item and name inside. The path of every error leads to a value in the document, and that value is not as its part of the schema asks.",
  "every schema of the modelled keywords in any nesting, every document and combination of flags, every error",
  "recursive schemas and documents: a test compares the paths of some errors of one document",
  PD+"PandelVisitor",PD+"_rule_additionalProperties",PD+"_rule_propertyNames",PD+"_rule_auto_defaults_properties",PD+"rule_enum")

p("Captures treat rows and columns alike",
  "Turning a sheet over, so that its rows become its columns, and a reference with it (rows written as columns, left as up, right as down, in the edges and in the expansions) turns over the captured rectangle, or fails with the same error; the margins are turned as well, and so are the values that a lasso captures, from arrays as from Excel files.",
  "every sheet of any size, every pair of edges in any notation, moves, modifiers and expansions, every base",
  "a relation between two runs over all sheets and references; tests compare single results",
  CP+"resolve_capture_rect",CP+"_expand_rect",CP+"_target_opposite",CP+"_target_same",CP+"_resolve_cell",CP+"_extract_states_vector",BE+"margin_coords_from_states_matrix")

p("For a dependent second edge the order of the moves makes no difference",
  "The documentation says that with a second edge `..` the target rectangle is the same whether its two moves denote a row-by-row or a column-by-column traversal.",
  "every sheet, first edge, pair of perpendicular moves, modifier, expansions and base",
  "quantifies over all sheets; the order is visible only from certain cells",
  CP+"resolve_capture_rect",CP+"_target_same",CP+"_target_opposite")

p("Arguments of element-wise filters mean what is documented",
  "The arguments of the filters `recurse` and `pyeval` may be given by place or by name. Missing filters are none; missing, null or empty `include` and `exclude` restrict nothing, and a text stands for the list of it; a missing, null or negative `depth` is no limit; `eval_all` is off unless asked for. Calls with surplus, unknown or doubled arguments are refused.",
  "every list of arguments and set of keywords, every captured value, ranger and context",
  "all ways of distributing arguments over places and names; the depth is compared at every level of unbounded values",
  FI+"recursive_filter",FI+"pyeval_filter",FI+"run_filter_elementwise",UT+"as_list")

p("Target moves and their modifiers are those documented",
  "In the parentheses after a cell a reference may have one direction, or two that are not on the same line, in any case, followed by + or - or by nothing; opposite pairs such as UD and LR, and anything else in the parentheses, raise SyntaxError. Spaces are allowed only in filters.",
  "every cell text, every text in the parentheses, first and second edge",
  "all strings in the parentheses after all cells, through a regular expression with alternatives",
  PR+"parse_xlref_fragment",PR+"_regular_xlref_regex")

p("Inserting empty rows and columns moves captures and changes nothing else",
  "When empty rows are inserted above all that a sheet has, and empty columns before it, then a reference with its positive row and column numbers increased by as many captures the same values from the rectangle moved by as many, or fails with the same error; symbols for margins and the base, numbers counted from the end, moves, modifiers and expansions stay as they are. Empty rows and columns after the full cells do not matter.",
  "every sheet, every number of rows and columns inserted, every pair of edges, all expansions, every base",
  "all sheets with all full cells, all references and all displacements at once",
  CP+"resolve_capture_rect",BE+"margin_coords_from_states_matrix",LS+"Ranger.do_lasso")

p("The public attributes of a path step are steps, those that were assigned",
  "Just referencing a public attribute of a path step gives a step: the child that it has under that name, or a new one with the name as its text, and it never fails. After a text is assigned to an attribute, reading the attribute gives a step with that text and changes nothing.",
  "every history of steps, every step, every name and every text",
  "all names, texts and histories",
  MP+"Pstep.__getattr__",MP+"Pstep.__setattr__")

p("Documents are written and read through the paths of steps",
  "After reading any chains of attributes from an absolute path step, a value can be set at each of the paths that the step reports, in any document without lists on the way. Afterwards each of these pointers reads the value set there, and so does indexing the document with the steps of the chain, one after the other.",
  "all sets of chains, all documents, all values",
  "all hierarchies of steps, in all orders of reading, and all documents",
  MP+"Pstep._paths",PD+"set_jsonpointer",PD+"resolve_jsonpointer")

p("The documented ways of capturing a table with headers agree",
  "On a sheet with a single table, `^^:__`, `A1(DR):__:U1` and `A1(RD):__:L1` all capture exactly the smallest rectangle around the full cells, from any cell above and left of it in place of A1, whether the cell where the header row and the index column meet is full or empty. On the sheet of an Excel file all three go on to the last cell of the sheet. On a sheet with several tables, a table whose first row and column have no gaps is captured by `corner:..(DR)` whatever else the sheet holds.",
  "all sheets (arrays and Excel files), all positions and sizes of the table, all gaps inside it, all cells to start from",
  "all positions of empty cells inside the table and of other tables beside it",
  CP+"resolve_capture_rect",LS+"lasso")

p("Series and DataFrames are validated as the objects and arrays they stand for",
  "A document that holds pandas Series and DataFrames and numpy arrays passes a validation exactly if the JSON document that it stands for is as the schema asks: a Series is the object with its labels as keys, or the array of its values; a DataFrame is the object with the names of its columns as keys and the arrays of their values; an array is the array of its values. The errors reported are those in that document, at the same places.",
  "all schemas, all documents with Series, DataFrames and arrays anywhere inside",
  "all nestings of pandas objects, all labels and columns, all combinations of keywords",
  PD+"PandelVisitor",PD+"_rule_additionalProperties",PD+"_rule_propertyNames",PD+"rule_enum")

p("A with-block of a sheets factory closes what was opened in it",
  "However a with-block of a sheets factory is left, at its end all sheets that were opened by the factory or added to it, in the block or before, are closed, no others are, and the factory serves none of them; what the block returns or raises comes out unchanged, unless a sheet cannot be closed, in which case closing again closes the rest.",
  "all blocks (any sequence of fetching and adding sheets, depending in any way on what was fetched), left normally or by an exception, all histories of the factory before, all backends, all sheets that fail to close",
  "a test leaves few blocks at few points; sheets leak only after particular sequences of fetching, replacing and failing",
  BE+"SheetsFactory.__exit__",BE+"SheetsFactory.close",BE+"SheetsFactory.fetch_sheet")

p("Following references found in cells does not depend on what was fetched before",
  "If lassoing a reference runs the installed filters, those that follow the references found in the captured cells included, then the values returned, or the error raised, depend only on the workbooks, not on what was fetched from the sheets factory before or on which objects it has in its cache.",
  "all workbooks and cells, all references with any nesting of filters and of references to references, all histories of the factory, all filters and expressions of one's own that treat the objects of a sheet alike",
  "a test follows few references on one new factory; what is in the cache depends on everything that was fetched before and on the order of the references in the cells",
  FI+"recursive_filter",FI+"pipe_filter",FI+"pyeval_filter",FI+"run_filter_elementwise",LS+"Ranger.do_lasso",BE+"SheetsFactory.fetch_sheet")

p("A factory opens a sheet once",
  "Lassoing many references with one sheets-factory opens each workbook that they refer to once per sheet: a reference to a workbook and sheet that were referred to before, directly or from another sheet of the workbook, opens nothing, closes nothing and uses a sheet object that was used before; all in all there are no more objects than different workbooks and sheets asked for. A sheet that a filter hands to the factory is the one that is served then.",
  "all histories of fetches by workbook, from base sheets and by lasso(), with any texts and ids, and any number of calls",
  "how often something is opened depends on the whole history of the factory and on all ways of writing the same workbook",
  BE+"SheetsFactory.fetch_sheet",BE+"SheetsFactory.add_sheet",LS+"lasso")

p("Threads that share a sheets-factory get the sheets they ask for",
  "When threads fetch sheets by workbook from one sheets-factory at the same time, each call that returns a sheet returns the sheet that opening the workbook gives, and each call for a sheet that can be opened returns one; no sheet that a call returned is closed by another call for the same workbook and sheet, and what was fetched stays in the factory. Calls that run one after the other do what a single thread does.",
  "all numbers of calls, started at any moments, and all orders in which their operations on the dictionaries of the factory mix",
  "a test sees one of the orders in which the threads happen to run; the failing ones need a switch between two given bytecodes",
  BE+"SheetsFactory.fetch_sheet",BE+"SheetsFactory.add_sheet",BE+"SheetsFactory._close_sheet",BE+"SheetsFactory._cache_put")

p("Lassos thrown one after another with the same call-specs are thrown as if each were the first",
  "A caller may give a call-spec along with the reference, for references that do not name a filter themselves. Calls of do_lasso() one after another, with the same call-specs of the caller, each return or raise what they would if they were the first call, and the call-specs of the caller are left as they were.",
  "all histories of calls, all references, contexts, call-specs, sheets and filters that do not change their own arguments",
  "depends on the whole history of calls that shared a call-spec; a test with one call per call-spec sees nothing",
  LS+"Ranger.make_call",LS+"Ranger.do_lasso",FI+"pipe_filter",PR+"parse_call_spec")

p("A lax element-wise filter that fails returns the values as they were captured",
  "When a filter that goes through the cells of a table (recurse, pyeval) is called leniently (lax) and fails, as at a reference that cannot be followed, the call returns the lasso with the values that were captured; when it does not fail, all cells are replaced by what they lead to.",
  "all tables of cells, all references in them and what these lead to, all filters, options and sheets; any stack left",
  "whether the captured values survive depends on how many references were followed before the one that fails, for tables of any size; a test with the failing reference in the first cell sees nothing",
  FI+"run_filter_elementwise",FI+"recursive_filter",FI+"pyeval_filter",LS+"Ranger.make_call")

p("Threads that share a sheet get what one thread would get",
  "Any number of threads may ask one sheet for its states and its margins at the same time: each gets the answer that it would get if it asked alone, none waits for another, and, as in one thread, an answer stays the answer for those who ask later.",
  "all contents of sheets, any number of threads and questions, all interleavings of their operations on the shared attributes and of changes of the contents from outside",
  "races between looking at a remembered answer, reading the sheet and remembering depend on the scheduler; a test sees a few of the interleavings",
  BE+"ABCSheet.get_states_matrix",BE+"ABCSheet.get_margin_coords")

p("A filter written after a reference is called with what the reference captures",
  "A reference followed by a filter captures what it captures without it, and the filter is called once on it, with the arguments and under the options written: what it returns is the outcome; if it fails or does not exist the outcome is ValueError, or what was captured if the call is lax. If nothing can be captured, or the filter text is of no documented form, no filter is called. With the redim filter the values get the dimensions asked for the shape of the rectangle, by place or by name, and with the call-specification that imitates xlwings a single coordinate gives its value, one row or column the list of its values, other rectangles their rows.",
  "all well-written references with any sheet part, edges, expansion moves and filter text, all sheets, filters, options and contexts; all arguments of redim",
  "references, filter texts, options and outcomes of filters combine without bound",
  LS+"Ranger.do_lasso",LS+"Ranger.make_call",PR+"parse_xlref",FI+"redim_filter",FI+"xlwings_dims_call_spec")

p("A path step shows its children and its paths as they are",
  "Whatever was done with steps, a step lists exactly its children, each under its name once, in the order in which the attributes were first read or assigned; dir adds their names to those of any text. The paths reported, with or without original names, are in order, each once, those of the branches below the step whose last step has the tag asked for, or no children if none is; and a path with original names tells the original name and the text of every step on it.",
  "all histories of operations on steps: creation with any mappings, reading, assigning, cloning, locking, tagging; all tags",
  "histories of operations are unbounded and share objects; a test lists the children of a few trees",
  MP+"Pstep._steps",MP+"Pstep.__dir__",MP+"Pstep._paths",MP+"Pstep._iter_hierarchy")

p("A pipe written after a reference runs its filters on what the reference captures",
  "A reference followed by a pipe captures what it captures without it and runs the filters of the pipe from the first to the last, each on what the one before came to and under its own arguments; the outcome is what the last one came to. If one fails or cannot be read, later ones are not run and the outcome is ValueError, or, if the pipe is lax, what was captured, and not what the filters before made of it. Where nothing is lax, a pipe inside a pipe does what its filters do in its place.",
  "all references, sheets, contexts and options; all lists of filters, of any depth, of any of the documented forms; all filters available",
  "pipes are of any length and depth, with any filters; a test runs a few",
  FI+"pipe_filter",LS+"Ranger.make_call",LS+"Ranger._run_filters",PR+"parse_call_spec")

p("A contiguous table is captured whole from any of its cells",
  "A reference such as `A1(DR):..(DR):RLDU` captures the whole of the table in which it finds its first full cell: exactly the smallest rectangle around the full cells that can be reached from there over shared sides, when no line around it has a full cell, with the values of its cells; neither the moves of the second edge, nor how the four directions of the expansion are written, nor other tables of the sheet make a difference. On a sheet whose full cells can all be reached so, a lone `:` captures the same, except that on the sheet of an Excel file it goes to the last cell of the sheet.",
  "all sheets (arrays and Excel files), tables of any shape and size, with gaps, among any others; all cells and moves to begin with, all moves of the second edge and all ways of writing the expansion",
  "which cells a table has, where it begins and how its full cells hang together are unlimited; a test tries a few",
  CP+"resolve_capture_rect",CP+"_expand_rect",CP+"_target_opposite",CP+"_target_same",LS+"Ranger.do_lasso")

p("A sheet is captured alike however it is named",
  "References without filters that have the same edges and expansion, and that name the same sheet of the same workbook, are lassoed alike: the same values, the same rectangle, or the same error. It does not matter whether the sheet is named by its name, by its number from 0 or back from the end (unless a sheet has that number for a name), or not at all when it is the first, nor which text with the same URL names the workbook, nor which sheets the factories of the two calls already hold.",
  "all workbooks, sheets, ways of naming them, references without filters, and factories used in any way before",
  "the ways of naming a sheet, the references and the histories of the factories are unlimited; a test tries a few",
  XR+"_open_sheet_by_name_or_index",BE+"SheetsFactory.fetch_sheet",LS+"lasso")

p("What was captured can be captured again by its corners, and cell by cell",
  "Whatever moves, expansions and context a reference without filters was lassoed with, the coordinates that the lasso reports name what it captured: the names of the two corner cells, in either order, capture the same rectangle and values from the same sheet, and the name of the only cell does when there is no second edge. The value at each place of a captured rectangle is what the name of the cell there captures by itself.",
  "all sheets and references without filters that capture cells with names, in any context; for single cells array sheets and Excel sheets, and all places of the rectangle that are in the sheet",
  "all references and all contents of sheets; a test compares a few",
  LS+"Ranger.do_lasso",CP+"resolve_capture_rect",CP+"_resolve_cell",CP+"coords2Cell")

p("Submodels that nowhere disagree can be added in any order",
  "Submodels that give no two different values at any place, merged in whatever order and however often each, give the same model but for the order of its keys: the one that holds what all of them give, and nothing else. If they hold no None, they can always be merged. Unless the validator is asked for defaults, two models built from them in two orders are the same, and if one order builds a model so does any other, where no check of values looks at the order of keys and no validation ends with an exception.",
  "all lists of submodels that pairwise nowhere disagree, and all reorderings of them with or without repetitions; all schemas of the modelled keywords",
  "all submodels and all orders; a test adds a few in one order",
  PD+"Pandel.add_submodel",PD+"Pandel.build",PD+"Pandel._clone_and_merge_submodels")

p("What is elsewhere on a sheet makes no difference to a capture",
  "A reference whose edges are given by numbers, letters or dots, or, if both sheets have the same margins, by anything that names no row or column before the first, with or without moves and expansions, captures the same values from the same rectangle, or fails with the same error, on any two sheets where the cells that its edges look at (from where they land to where they stop), the captured cells and the ones next to them are full or empty alike, and the captured cells have the same values: whatever the other cells are, and whatever the sizes of the sheets beyond the rectangle. This holds for arrays and for sheets of Excel files.",
  "all pairs of sheets alike in those cells, all references with such edges and no filters, all base cells",
  "all contents of the rest of the sheets; a test edits a few cells of one sheet",
  CP+"resolve_capture_rect",CP+"_expand_rect",CP+"_target_opposite",CP+"_target_same",LS+"Ranger.do_lasso")

p("Threads that share a Ranger throw their lassos as if each had its own",
  "When threads throw lassos with the same Ranger, each lasso returns the values, or raises the error, that it does with a Ranger of its own, however the threads are interleaved; also if filters call filters or throw lassos with the Ranger. No thread waits for another. What the Ranger remembers for inspection is always a stage of one of the lassos, and after a lasso that was not interrupted it is the one that C101 says; but after a failure it may be of the lasso of another thread.",
  "all numbers of threads, all references and contexts, all interleavings of accesses to the memory of the Ranger, all filters whose results do not depend on that memory",
  "all interleavings; a test sees a few of them",
  LS+"Ranger.do_lasso",LS+"Ranger.make_call",LS+"Ranger._relasso",FI+"pipe_filter")

p("Threads that share path steps read the steps that one thread would read",
  "When threads read chains of attributes from the same path steps, however they are interleaved: no thread raises or waits for another; steps that were there before stay the ones that everybody reads; the steps read have the texts that the names and the mappings give; and the paths reported afterwards are those of all chains read.",
  "all hierarchies of steps, all numbers of threads, all chains, all interleavings of accesses to what the threads share",
  "all interleavings; a test sees a few of them",
  MP+"Pstep.__getattr__",MP+"Pstep.__make_cstep",MP+"Pstep.__new__")

p("Threads that share a model-maker",
  "When threads add submodels to one model-maker and build with it at once, however they are interleaved: no submodel is lost, every thread's own stay in their order, and what is built afterwards from submodels that nowhere disagree does not depend on the interleaving; every build ends; a build that nobody interrupts gives what it gives alone; and a build returns the merge of the submodels, or raises an error that they have.",
  "all model-makers without curate-functions whose validation only checks, all submodels, all numbers of threads, all interleavings of accesses to the attributes",
  "all interleavings; a test sees a few of them",
  PD+"Pandel.add_submodel",PD+"Pandel.build_iter",PD+"Pandel.build",PD+"Pandel._prevalidate",PD+"Pandel._merge",PD+"Pandel._validate")

p("Closing a factory while threads fetch from it",
  "When threads fetch sheets from one factory and others close it, however they are interleaved: every call ends; a sheet returned is the one of that workbook and name; an error of opening is one that opening gives; closing closes every sheet fetched before it and leaves the factory empty; no sheet in the factory is closed, and none that was fetched is both open and out of its reach; and calls one after the other do what they do without threads.",
  "all workbooks, all numbers of threads that fetch or close, all interleavings of their accesses to the dictionaries and the attribute that holds them",
  "all interleavings; a test sees a few of them",
  BE+"SheetsFactory.close",BE+"SheetsFactory.fetch_sheet",BE+"SheetsFactory.add_sheet",BE+"SheetsFactory._cache_get",BE+"SheetsFactory._cache_put",BE+"SheetsFactory._close_sheet")

p("Mapping several paths maps each of them",
  "Mapping several paths with a Pmod gives as many paths, in the same order, each the one that mapping the path alone gives; it fails exactly if mapping one of them fails, with the error of the first that does.",
  "all mappings, all lists of paths, all behaviours of regular expressions",
  "all lists of paths; a test sees a few of them",
  MP+"Pmod.map_paths",MP+"Pmod.map_path")

p("Mappings that are shown can be told apart",
  "Two mappings (Pmods) that are shown as the same text have the same alias, if any, and the same mappings of steps and regular expressions, in the same order, at all depths.",
  "all mappings of any depth, all texts as aliases, steps and patterns, whichever characters can be printed",
  "all pairs of mappings; a test sees a few of them",
  MP+"Pmod.__repr__")

with open('/verif/properties.jsonl','w') as f:
    for x in P: f.write(json.dumps(x)+"\n")
print(len(P))
for x in P: print(x['id'],x['title'])
