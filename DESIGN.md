# Formal model of pandalone in Lean 4 — design

## Layout

| where | what |
|---|---|
| `lean/Verif/Py/*`    | the Python built-ins the code uses: methods of `str`, `int()`, a `re` matcher, quoted-printable coding, URLs |
| `lean/Verif/Model/*` | the pandalone code, one definition per function, each citing file and lines in `/repo` |
| `lean/Verif/Spec/*`  | small specifications, independent of the helpers of the model (lists, numbers, relations) |
| `lean/Verif/Lemmas/*`| helper lemmas |
| `lean/Verif/Props/*` | the property theorems `Cnn_…`, each with an `example` showing that its hypotheses can be met |
| `lean/Verif/Tests/*` | doc-string examples of the repo evaluated on the model, and a toy regex library (tests, not proofs) |
| `properties.jsonl`   | the properties (written by `tools/props.py`) |
| `MANIFEST.json`      | property → theorems (written by `tools/manifest.py` from the names and `tools/status.json`) |
| `AXIOMS.md`          | the axioms each of these theorems depends on (written by `tools/axioms.py`) |
| `seeded/LOG.jsonl`   | the wrong programs tried against the theorems (run by `tools/mutate.py`, logged by `tools/seedlog.py`) |

Names: `Cnn_x` is part of property Cnn; the suffix `_partial` marks a theorem that proves only part of the
property, `_refuted` one that shows, with a witness, that the code violates the property as stated.

## Modelling conventions

* A Python `str` is a `List Char`. A Python exception is a value (`Except`, `Option` or an error constructor).
* Dictionaries are association lists in insertion order (Python ≥ 3.7), with unique keys.
* Mutation is modelled by returning the updated value. Where identity or sharing of objects can be
  observed there is an explicit heap: mappings and steps (`Model/Pstep`), models and submodels
  (`Model/PandelHeap`), sheets in the cache (`Model/Backend`).
* Loops are structural recursion. Loops without a structural measure take fuel: either a theorem shows that the fuel
  given by the caller is never used up, or running out is Python's `RecursionError` and the
  theorem says when it happens.
* Regular expressions fixed in the code are run by a backtracking matcher with Python's priorities over the
  transcribed patterns. Where the *user* supplies the expressions (mappings, schemas), the library is a parameter
  and theorems hold for every library (with stated laws, where needed).
* External collaborators (file system, validators, backends, filters, component functions, inner lassos) are
  arbitrary functions that the theorems quantify over.

## What is modelled and how each property is proved

| property | model | proof |
|---|---|---|
| C01–C02 | `Model/JsonPointer` | `replace`/`split` on lists of characters; round trips by induction |
| C03–C08, C66 | `Model/JsonPointer` | `resolve`/`set` refined to a walk over keys and indexes; set–get and frame by induction on the parts |
| C09–C10 | `Model/Paths` | `_append_step` as in the code, refined to a location machine (root, ups, names) |
| C11–C15 | `Model/Pmod` | mappings as trees; lookup laws and associativity of merging by induction on trees; insertion of tuples refined to a finite map from paths to aliases |
| C16–C18 | `Model/Pmod` | `map_path` as in the code; identity and renaming by induction on the steps |
| C19, C24, C77 | `Model/Pstep` | invariant `Tidy` of the states that reading builds; the heap of mappings refined to trees (`Den`); paths refined to maximal chains read |
| C20–C23 | `Model/Pstep` | invariants over all histories of operations |
| C78 | `Model/Pstep` | invariant `Sep` (only empty dictionaries are shared) over all histories; branches before and after are related by a simulation |
| C60 | `Model/Components` | component functions are lists of uses of their steps; invariant over runs; the paths asked for are a function of the uses |
| C25–C27 | `Model/Pandel` | merging by induction on documents; the build as a fold over phases with arbitrary behaviours |
| C28 | `Model/PandelHeap` | separation of the objects that were there from those written to |
| C29–C30 | `Model/Pandel` | rule functions over association lists |
| C31–C32 | `Model/Capture` | base-26 induction; case analysis |
| C33–C37 | `Model/Capture` | targeting refined to "first full cell in walking order", expansion to "least closed rectangle"; loops by invariants, fuel shown sufficient |
| C38–C39, C73 | `Model/Sheet`, `Model/Capture` | bounding boxes and slices by list induction |
| C40–C43, C45, C75–C76 | `Model/Parse` | soundness and completeness of the matcher on the actual patterns against a grammar |
| C44 | `Model/Parse` | case analysis over the forms of a call |
| C46–C49, C64, C72 | `Model/Backend` | the cache as a state machine with sheet identities; invariants over all histories |
| C50–C54, C74 | `Model/Lasso`, `Model/Redim` | arbitrary filters; composition, structure and depth by induction |
| C65, C67–C68 | `Model/Lasso` | composition of the parser, the resolver and the reader |
| C55–C58, C69–C71 | `Model/Utils` | string functions; C57 as interleavings of calls with steps of the environment |
| C59 | `Model/Units` | the matcher on the actual pattern |
| C61 | `Model/Codec` | quoted-printable coder and decoder as functions on bytes; round trip by induction with an invariant on line lengths |
| C62 | `Model/SchemaPaths` | induction on schemas |
| C63 | `Model/Backend` | the matcher on the actual pattern |
| C79–C82 | `Py/Url`, `Model/Urls` | `urlsplit`, `urljoin`, `quote`, `unquote` and `normpath` as in CPython 3.11; joining refined to walking along the segments, decoding to a relation between encoded and plain texts |
| C83–C85 | `Model/LassoRun` | programs that fetch sheets from a factory (filters are any such programs); invariant relating what was opened to the cache |
| C86–C88 | `Model/Lasso`, `Model/LassoRun` | composition of parsing (C41, C76), expansion texts (C40), resolution (C33–C37) and reading (C39) |
| C89–C91 | `Model/Visitor` | the whole walk of a validation as mutual recursion over schemas; closed form of the document after it; induction on schemas against `Valid`, the meaning of a schema |
| C92 | `Model/PandelHeap` | sets of objects closed under reference, as an invariant of filling in |
| C93 | `Model/Frame` | *pandas* is a parameter that records the table it is given; filling down by induction on rows and columns |
| C95 | `Model/SheetCache` | histories of questions and changes; the cache as an invariant about past contents |
| C96–C98 | `Model/Console` | text functions; the column width by arithmetic; search by induction on folders |
| C99 | `Model/PstepTuples` | branches by induction on the recursion limit; rebuilt mappings through C14, C15 and C16 |
| C100 | `Model/PstepDf` | mappings by C14 and C15, stored on the heap; invariant of the loop over the rows, in tidy trees |
| C101 | `Model/Stages` | an independent relation of the stages reached, each unique; case analysis along `do_lasso`; induction over pipes; same results as `Model/Lasso` |
| C102 | `Model/Plugins`, `Py/Sort` | what each entry point leads to is a parameter; stable sorting is proved to permute, to order and to be stable; induction over the two loops |
| C103 | `Model/Vba` | Excel is a parameter (what files hold, how names compare, which names are free); induction over the files, the filter of other components as invariant |
| C104 | `Model/Vba` | names with extensions as Windows splits them; case analysis |
| C105 | `Model/Vba` | case analysis of the outcomes of saving |
| C106 | `Model/Vba` | names are an iterator that is used up; induction over the components |
| C107 | `Model/Vba` | case analysis of the arguments |
| C108 | `Model/Assemblies` | mutual induction over trees and lists of parts, against `assemblyBuild` of the leaves; then C60 |
| C109 | `Model/SeriesMerge` | documents with Series; lookup in `combine_first`; induction over keys and over submodels; equal to `mergeDoc` without Series |
| C110 | `Model/Combined` | a relation between documents (all that a validation may do), reflexive and transitive and kept by every rule; induction on the recursion limit |
| C111 | `Model/Combined` | without defaults every rule leaves the document and decides between two exclusive relations `ValidC` and `InvalidC`; induction on the recursion limit |
| C112 | `Model/NormPaths` | the stack of `os.path.normpath` has the form `..`*, names; walking it is walking the path (`meant`, of C79); text of a normal form is its own normal form |
| C113 | `Model/NormPaths` | scanning with induction over the parts of a path (`PathPart`); masking of shares and unmasking cancel |
| C114 | `Model/Urls` | the base URL has the drive as its first segment; joining walks along the segments and does not go above it |
| C115 | `Model/NormPaths` | what is quoted is read back (C80); the test for folders says the same of a path and its quoted form, unless it ends with a backslash or newline |
| C116 | `Model/PmodEq` | induction over mappings; equality of dictionaries is equality under every key; mapping of paths looks only at the names and the regexes that match |
| C117 | `Model/FrameMerge` | the value under each row and column through `update` and the assignment of columns, by induction over the columns; induction over the submodels |
| C118 | `Model/DictFilters` | induction over the rows from the last one: what is found under a key, and which keys there are |
| C119 | `Model/DictFilters` | the order of items is a strict order on what is equal in Python; stable insertion sort, with errors |
| C120 | `Model/PyTypes` | values by kind, with their classes and what they hold; cases, and the sizes of arrays by induction |
| C121 | `Model/Combined` | the place through merging (induction over documents and submodels), and through the defaulting rules |
| C122 | `Model/Operations` | induction over the calls |
| C123 | `Model/SheetNames` | listing and opening take the same URL, backend and book; C64 for the names |
| C124 | `Model/Dates` | both calendars day by day: induction over the number of the day, equal from March 1900 on; the order of days |
| C125 | `Model/MakerHistory` | induction over the history on the heap of C28: every build keeps what there was |
| C126 | `Model/BuildIter` | the generator as a machine that is advanced from error to error; invariant over histories that ties its place to the flag and to what was reported |
| C127 | `Model/MakeDirs` | each `exists`, `isdir` and `mkdir` of a call is one step; invariant over all schedules, and a measure that falls with each step of a call |
| C128 | `Model/Backend` | adding and closing with sheets that raise; the histories of C46-C48 have such additions too |
| C129 | `Model/PmodShared`, `Spec/PmodShared` | dictionaries have identities; every new object has one place in the tree built, so a change at one place leaves the others; merging refines the merging of C11 and C12 |
| C130 | `Model/StepSchema`, `Spec/StepSchema` | for each step the schema object among its attributes, which copying takes over; invariant over histories: steps with the same schema are related by copying |
| C131 | `Model/CompRun`, `Spec/CompRun` | components over the heap of steps of C18-C21 and C60; invariants: all steps of components are roots, no two share one, and reading below one root keeps what was read below the others, also when it raises; induction on the history. |
| C132 | `Model/UniqueNames`, `Spec/UniqueNames` | a labelled transition system, one operation on the file system per step; invariants by induction on the schedule: names asked for were taken, each call asks one more name per turn, names got are free and names made are taken |
| C133 | `Model/Recurring`, `Spec/Recurring` | the filters installed with the ranger they run on, by recursion on the stack that is left; well-founded induction on references and on what is captured; induction on the stack |
| C134 | `Model/FactoryBooks`, `Spec/FactoryBooks` | the cache with the books that are open and the sheets that are still loaded in them; invariant of all histories: each key of the cache leads to the sheet that opening it gives |
| C135 | `Model/LassoDesk`, `Spec/LassoDesk` | programs that fetch sheets, run on a factory with its books; a relation between sheet objects and sheets that is kept by every fetch (C134), carried through options, resolving, reading and filters |
| C136 | `Model/PointerHeap`, `Spec/PointerHeap` | objects on a heap written in place; induction over the parts with the parent object; agreement with the model on plain documents by reading the heap, for values whose objects are apart |
| C137 | `Spec/SetMany` over `Model/JsonPointer` | setting through objects as a total function, which commutes up to the order of keys; induction over the settings and over permutations |
| C138 | `Model/DiveFrame`, `Spec/DiveFrame` | loops over columns and cells around the model of C53; a general lemma on loops that says which of the things done was the first; induction over the columns and the cells |
| C139 | `Model/ErrorPaths`, `Spec/ErrorPaths`, `Spec/ErrorsOnce`, `Spec/CombinedErrors` | the walk of C89 with the errors it collects; a relation saying what there is to report, independent of the walk; induction over the schema, then the keywords; the same for combined keywords (C111), by induction on the recursion limit |
| C140 | `Model/Capture`, `Spec/Turned` | the capture of C33 to C38 run on a sheet and on its transpose; simulation function by function, margins through their characterisation; the outcomes of lassos from arrays and Excel sheets by the closed form of an unfiltered lasso (`Props/PlainLasso`) |
| C141 | `Model/Capture`, `Spec/Capture` | whole captures with both orders, from the order-independence of C34 |
| C142 | `Model/Recurring`, `Spec/FilterArgs` | binding of arguments as Python calls do it; relations for what each argument means; the dive with a negative depth equals that without, by mutual induction over values |
| C143 | `Spec/Modifiers` | what may be in the parentheses, as a relation of two constructors; from the characterisation of accepted texts (C75) by splitting at the parenthesis |
| C144 | `Spec/Shifted` | full cells moved as an equivalence over the unbounded grid; from the characterisations of targets (C33, C34) and expansions (C35, C36), which mention full cells only, so that no size of a matrix is left in the statement; all outcomes of lassos as for C140 |
| C145 | `Model/Pstep`, `Spec/Pstep` | from the case analysis of reading attributes (C20) and the effect of assignments (C78) |
| C146 | `Spec/StepData` | paths reported are maximal chains (C19), so that none continues another; values set at unrelated pointers are all there (C137) |
| C147 | `Spec/Reference`, `Spec/Capture` | the first full cell visited is in the first or the second row (column) of the box (C37), and one expansion adds the line left out (C36); runs from the corner cell (C34) |
| C148 | `Model/VisitPandas`, `Spec/VisitPandas`, `Spec/VisitPlain` | the walk through keywords with what *pandas* answers to `in`, `[]`, `keys()` and iteration; `Stands` relates documents to JSON documents under a schema; induction on schemas to `Valid` of C90 |
| C149 | `Model/WithBlock` | blocks are the programs `Run` of C83; `exec_did` (what a program did to a factory) and C128 for closings that raise |
| C150 | `Model/RecurringRun`, `Spec/RecurringDesk` | the filters of C133 as programs that fetch sheets; the relation of C135 carried through pipes, sub-filters, element-wise diving and nested lassos, by induction on the stack left and on the values, together with the absence of references by number |
| C151 | `Model/FactoryBooks`, `Model/LassoDesk`, `Spec/SheetsOnce` | the keys of the cache only grow, by an invariant on which keys a sheet is cached under; an injection from objects to keys for the count; for the refutation, an invariant of asking in two ways in turn, for any number of calls |
| C152 | `Model/FactoryThreads`, `Spec/FactoryThreads` | a call is a tree of atomic dictionary operations, threads interleave them in any order; a rely-guarantee predicate on what is left to do is kept by each operation; a second one, with the sheet that each call holds, for calls apart; a simulation of the single-threaded function for calls one after the other; schedules as witnesses of the refutations |
| C153 | `Model/SharedSpecs`, `Spec/SharedSpecs` | the call-specs of the caller are state, `make_call` returns what it leaves of them; by induction over the calls, a call-spec is as it was written until a call that captures something uses it; pipes by induction over their filters |
| C154 | `Model/InPlace`, `Spec/InPlace` | filters return what they leave of the values that they are given, besides their result; diving is related to `Model/Lasso` by mutual induction over values; tables by induction over rows and cells |
| C155 | `Model/SheetThreads`, `Spec/SheetThreads` | a call is a tree of single accesses to the two attributes and of reads of the backend, interleaved in any order; a predicate on what is left to do and on what is known to be remembered is kept by each operation; a bound on the depth of the tree; a schedule as witness of the refutation |
| C156 | `Model/RedimArgs`, `Spec/WrittenFilter` | the round trip of C41/C76 for the parsed parts, the resolution of C86 and a case analysis of `make_call` into the outcomes of a small relation; arguments bound as for C110; the rectangle read as in C39 |
| C157 | `Model/StepShown`, `Spec/StepShown` | an invariant of all operations (children under distinct names, and existing); the branches of C99; keys of dictionaries after insertion; texts cut at the separators for the injectivity of shown paths |
| C158 | `Model/PipeLeft`, `Spec/WrittenPipe` | C156 for the call of the pipe; induction over its filters; for nested pipes C51 with the monotony in the stack of C133 |
| C159 | `Spec/WholeTable` | C33, C34, C37 for the two edges; C35 for the least closed rectangle; a closed rectangle keeps what is linked, by induction over the link |
| C160 | `Spec/SheetNaming` | C64 for the names and numbers, C83 for the parse, the desk of C135 for the history of the factories |
| C161 | `Spec/Xlref`, `Spec/Reference` | the outcome of a lasso without filters gives the resolved rectangle, which is ordered (C37); the names of cells resolve to their coordinates (C31); C39 for the values |
| C162 | `Spec/AnyOrder` | what submodels hold together is unique up to the order of keys; merging one more submodel keeps that, by induction over it; verdicts of schemas do not depend on the order of keys, by mutual induction over valid and invalid |
| C163 | `Spec/Elsewhere` | searches and runs visit only cells that are seen, by induction over the steps; expansions look only next to rectangles inside the result, by induction over the rounds |
| C164 | `Model/RangerThreads` `Spec/RangerThreads` | calls are trees of accesses to the memory; what they return does not depend on what is found there, by induction over the calls and over the schedule; ends by induction over the tree; alone they do what Model/Stages does |
| C165 | `Model/StepThreads` `Spec/StepThreads` | reads are trees of accesses to the shared steps; alone they do what Model/Pstep does; what is kept and what the texts are: by invariants over the schedule, for all that the other threads may have made meanwhile; ends by induction over the tree |
| C166 | `Model/MakerThreads` `Spec/MakerThreads` | building is a machine that makes one access to `_errored`, `model` or `_submodel_tuples` at a time; alone it does what Model/Pandel does; what is added by induction over the schedule, what is returned and raised by invariants; ends by a measure |
| C167 | `Model/FactoryClose` `Spec/FactoryClose` | calls are trees of operations, where reading `_cached_sheets` is one of its own since `close` replaces it; what is returned by a predicate on the tree that every operation keeps; alone by running the tree to its end, for fetching by a simulation with Model/FactoryThreads; ends by induction over the tree |
| C168 | `Model/Pmod` | induction over the paths |
| C169 | `Model/PmodShown` `Spec/PmodShown` | texts between quotes, items of dictionaries and mappings tell where they end; induction on mappings, whose parts are told by their first characters |
| C94 | `Model/Eval` | the evaluator is a parameter; instance of the element-wise theorems (C53) |

Nothing in the list was found impossible to express. The properties that the code violates are kept as they were stated,
with a `_refuted` theorem and theorems on what does hold; `tools/status.json` and `MANIFEST.json` say which.

Where a property fails, the theorem `_partial` is joined, if possible, by one named `_exact` that says of all inputs where it holds:
C08 (what every relaxed path resolves to), C25, C29 (for which schemas validating again changes nothing), C30, C32, C54, C62, C91, C96, C98, C112,
C115, C120. Their hypotheses are only those of the domain, such as that no key occurs twice.

## Trusted base

* Lean's kernel, and the axioms `propext`, `Classical.choice` and `Quot.sound`; `AXIOMS.md` lists them by theorem.
  There is no `sorry`, no axiom of our own, no `native_decide`; `decide +kernel` is used on closed terms only,
  for examples and witnesses.
* That the definitions in `Verif/Py` and `Verif/Model` render the cited lines. They were transcribed by reading. Checks made:
  the doc-string examples of the repo (`Verif/Tests`); the matcher against Python's `re` on 60000 random strings
  over the patterns of the repo (no mismatch); the quoted-printable coder against CPython 3.11 on
  200000 random byte strings (no mismatch); the functions on URLs against CPython 3.11 on 18000 random texts
  (`tools/url_diff.py`, no mismatch).
* The parameters stand for what they are said to stand for (for example, that `pickle` and JSON give back what was put in, in C61).

### By file of `/repo/pandalone`: what is modelled and what is not

| file | modelled | simplified or left out |
|---|---|---|
| `mappings.py` | `Pmod` (merge, descend, alias, `map_path`, `map_paths`, `repr`), `pmods_from_tuples`, `_append_step`, `_join_paths`, `Pstep` (making, reading, assigning, locking, tagging, `_paths`, `_iter_hierarchy`, `_derrive_map_tuples`), `pstep_from_df` (columns not called like attributes of steps) | `_schema` and other private attributes of steps, `with_orig`, `__repr__` |
| `pandata.py` | pointers, `resolve_path`, `set_jsonpointer`, merging and building of `Pandel`, additional properties, required, auto-defaults, type checks, enumerations and the whole of a validation, units, `JSONCodec`, `build_all_jsonpaths` | numpy objects as models, DataFrames merged with other objects, the types of Series and columns (`dtype`), defaults filled into Series and DataFrames; `dependencies`, `contains`; in C110 and C111 keywords that only look at the instance are any predicate, elsewhere combined schemas, `$ref` and patterns are left out; `Pandel` contexts; `urldefrag` is "cut at the first #"; sub-schemas that are not dictionaries; errors yielded by overridden steps that do not set `_errored` |
| `components.py` | `FuncComponent`, `Assembly`, also nested | values computed by component functions (only their use of steps matters); `_iter_validations`, which yields nothing |
| `utils.py` | `str2bool`, unique file names, extensions, directories, command names, first line, `path2url`, `normpath`, `abspath`, `convpath`, `path2urlpath`, `urlpath2path`, `LoggerWriter`, `format_pairs`, `which` | other systems than POSIX; expansion of users in paths is a parameter; `os.makedirs` is one atomic step; POSIX `splitext`; ASCII lower case |
| `xlsutils.py` | Excel file names; importing, removing and saving of VBA code, `main` | Excel is a parameter; `_get_xl_vb_project` succeeds or fails; network drives; `check_excell_installed` |
| `xleash/__init__.py` | `_init_plugins` | what loading and calling entry points leads to is a parameter; exceptions are subclasses of `Exception` |
| `xleash/_parse.py` | all | Python literals in call arguments are a parameter |
| `xleash/_capture.py` | all | – |
| `xleash/_lasso.py` | `Ranger.do_lasso`, `make_call`, merging with the context, `lasso()`, `make_default_Ranger`, `get_default_opts`, `intermediate_lasso` | logging; the help of filters with `inspect.formatargspec`, which is gone since Python 3.11 |
| `xleash/_filter.py` | `pipe`, element-wise application, `recurse`, `redim`, `pyeval`, `py`, `dict`, `odict`, `sorted` | what expressions evaluate to, and their changing objects in place; numpy floats and ragged lists; `lax` given inside the arguments of a `pipe` that is itself a sub-filter |
| `xleash/_pandas_filters.py` | `df`, `sr` without arguments | *pandas* is a parameter; negative positions, columns by name, captured texts and dictionaries |
| `xleash/io/backend.py` | `SheetsFactory`, `SimpleSheetsFactory`, `ArraySheet`, margins and their caching | identity of sheets is structural; resources shared by sheets; bids are integers |
| `xleash/io/_xlrd.py` | cells, dates, states, listing, reading, choice of sheets, what is opened for a URL | the `xlrd` library and its options; dates apart, in `Model/Dates`, in milliseconds |
| `winutils.py` | – | drives Windows |

## Findings

Violations shown by `_refuted` theorems are summarised in `MANIFEST.json`. Some others met on the way:

* a step with an empty text is false, so it is made anew on every reading (C20) and loses its children when assigned (C78);
* `p.a = p`, or assigning a step below itself, makes `_paths` recurse for ever (C78);
* the paths of steps differ from mapped paths for aliases that are rooted, dotted, empty or end with a slash (C24);
* a component called `''` reports no inputs (C60);
* `urlpath2path` puts the prefix for long Windows paths *after* the path, on every system (C79, C80);
* `_open_book` assigns options into a text when a remote URL has parameters (C82);
* the documentation of `_paths` says breadth-first, the code goes depth-first (the result is sorted anyway).
* `lasso()` closes its own factory in all outcomes, but a sheet replaced in the cache is unloaded only, so that its workbook is never
  released (C83); a reference to a sibling of the sheet in the context releases the user's workbook (C84);
* the documentation of `lasso()` says that given options and filters override the default ones, the code replaces them (C85).
* `required` before `properties` in a schema gives wrong verdicts in both directions (C90), so does a second validation; the
  documentation warns about the order of validations, not about the order of keywords;
* `rule_enum` lets `True` pass for 1, while 1 does not pass for `True` (C91);
* defaults that are objects are shared between the schema and all documents (C92);
* `_is_null` compares with a fresh `float("nan")` by identity, which is never true.
* `df`: `keep_default_na`, `engine`, `parse_cols`, `verbose` and `convert_float` are accepted and ignored; `converters` is meant to be
  refused, but the list of refused arguments says `converted` (C93).
* `which` tries `com` instead of `.com`, on POSIX too, and lists an absolute program once for each folder (C98).
* `_derrive_map_tuples` uses original names, which assigned steps keep, so that their pairs collide (C99).
* `pstep_from_df` sets the attributes of nested paths on a child called by the whole path, and fails with a `TypeError` for a row that
  `pmods_from_tuples` would only warn about, because it asks for the length of a `zip` (C100).
* `intermediate_lasso` is not updated after the filter of a reference, only before it (C101).
* `_Lasso_to_edges_str` adds a text to a named tuple when there is no second edge, so the `ValueError` of an unresolvable single
  cell is a `TypeError` (C67).
* importing a VBA file removes the old module first, so that it is lost when the file cannot be imported; files with the same name in
  different folders replace each other (C103); with an empty new name nothing is saved (C104); after a failed saving Excel's alerts stay off
  (C105); names of modules to remove are an iterator, used up by the first module that is not named (C106).
* merging converts lists and scalars beside a Series to Series, labelled by position, so they are added to it (C109).
* defaults of alternatives that do not apply stay in the document, which may change the verdict (C111).
* `_is_dir_regex` finds a last slash by what is before it, so `a//` is no folder, and it takes a last backslash for a slash on POSIX (C112).
* a path to a drive that goes above the root of the drive is turned into one without the drive (C114).
* the prefix for long paths is put at the end of paths of more than 200 characters, not at their beginning (C115).
* mappings that compare equal may map paths differently: the order of regexes is not compared (C116).
* rows of later DataFrames that earlier ones have not are lost in merging (C117).
* the filter `dict` takes texts of two characters for rows (C118).
* numpy arrays of any number of dimensions are arrays, although the documentation says one; Python's own NaN is not null (C120).
* with the same schema for prevalidation and validation, a default overrides what the base model gives (C121).
* the documented `pm.mod_global_operations(inp=..., out=...)` raises on a new maker, and has no effect on others (C122).
* dates in workbooks of the date system of 1904 are read four years and a day too early (C124).
* two iterations over builds of the same maker share `_errored` and `model`: one that has reported an error, resumed after another build was begun without errors, goes on with merging and says nothing of giving up (C126).
* **C128** When `SheetsFactory.close()` (also at the end of a `with`) raises at one sheet, those closed before it stay in the cache, and `fetch_sheet` goes on serving them closed.
* **C130** `p.b = p.a` copies the step with "any collection attributes", but not its schema: writing into `p.b._schema` alters `p.a._schema`. `JSchema` checks no names and derives no type, though documented.
* **C131** `FuncComponent.__call__` runs the function that adds fixed paths to `_inp` and `_out`, as the documentation asks it to, so that each call declares them once more; only `_build` clears the lists.
* **C132** `make_unique_filename` returns a name without making its file: two callers that ask at the same time get the same name, and the second one overwrites the file of the first (`C132_race_refuted`).
* **C133** With `lax`, references that lead to themselves are not reported: the value returned contains its own row as many times as the recursion limit of the moment allows (`C133_lax_refuted`).
* **C134** Fetching a sheet by another id opens it again and closes the object returned before, although the caller may still use it (`C134_closed_refuted`); and since closing unloads the sheet from its book, siblings of that object that name it by a further id cannot be fetched any more (`C134_sibling_refuted`).
* **C135** A reference that names a sheet by its number, relative to a sheet in the context, gives a value or a `ValueError` depending on what was fetched from the factory before (`C135_number_refuted`).
* **C138** With the `df` filter's default header, a relative reference in a cell of the DataFrame is resolved relative to the cell above: positions are counted from the first row of the table, not of the capture (`C138_header_refuted`).
* **C139** With `required` before `properties` in the schema, an error "is a required property" is reported for a property that the same validation fills in (`C139_order_refuted`).
* **C141** The documentation says that the order of the moves of a second edge `..` never matters; on an empty cell, `A1:..(RD)` and `A1:..(DR)` capture different rectangles, and so do `A1(RD+):..(RD)` and `A1(RD+):..(DR)` when the corner that `RD+` reaches is empty (`C141_order_refuted`).
* **C29** The documentation of `auto_default` limits it to types that do not support nulls; a missing property is filled in whatever its type (`C29_nullable_refuted`).
* **C143** The documented move modifier `-` is refused as bad syntax (`C143_minus_refuted`); the expression has `?` in its place, which is not documented.
* **C144** A reference that counts back over more lines than the sheet has lands, by wrapping around, on the last lines of it; so the same reference behaves differently once empty lines are inserted above (`C144_counting_back_refuted`).
* **C145** Steps are texts, so a public attribute with the name of a method of texts (`index`, `count`, `title`, ...) reads as the method, even after a path was assigned to it (`C145_methods_refuted`). An attribute to which the empty text was assigned, the documented way to drop a level, is taken for a missing one when it is read again: a new step replaces it and its children are lost (`C145_empty_refuted`).
* **C146** The aliases of mappings are unescaped when steps are made, and the paths of steps are joined without escaping again: with `/a` mapped to `x~1y`, `m[p.a]` is `m['x/y']` while `p._paths()` says `/x/y` (`C146_slashes_refuted`). With `/a` mapped to `x` and `/b` to `x/y`, the path of one step leads through the value of the other, and setting it replaces that value (`C146_through_refuted`).
* **C147** Three examples of the documentation of the references do not hold: `_^:..(LD+):L1` captures `C2:E2`, not `B2:D4`, since the first edge has no moves; `_5(L):1_(UR)` is no reference, as the column goes first; and `A_(UR):^^(RD)` captures `B2:C6`, not `B2:F6`. `^^.__` is written for `^^:__`.
* **C148** Validating *pandas* objects: an enumeration (`enum`) for a whole Series or DataFrame raises `ValueError` instead of reporting an error; the columns of a DataFrame are objects as well as arrays, while the documentation calls them arrays; and a 0 in a Series passes where `false` is listed, unlike in a dictionary (`C148_raises_refuted`, `C148_columns_refuted`, `C148_enum_refuted`).
* **C149** A sheet that is fetched without naming a workbook (from a backend that serves such) is not registered in the factory, so that leaving a `with` block does not close it (`C149_nameless_refuted`).
* **C150** `lasso('a.xls#A!A1:B1:["recurse"]')` where the cells refer to `a.xls#A1` and then to `#0!A1` fails on a new factory and returns the values on one from which the first sheet was fetched without its name: following the first reference closes the sheet that the second one starts from (`C150_number_refuted`).
* **C151** a factory asked for the same sheet in two ways in turn, as `a.xls#A!` and `./a.xls#A!` or `a.xls#` and `a.xls#0!`, opens the workbook again on each call, since adding a sheet removes all keys of the object that it replaces (`C151_texts_refuted`, `C151_ids_refuted`).
* **C152** threads that share a `SheetsFactory` may be given sheets that are closed under them, or get `RuntimeError` (`_close_sheet` iterates over `_cached_sheets.values()` while another thread adds a workbook) or `KeyError` (two threads delete the same entry); two threads that add the first sheets of a workbook may lose one of the two (`C152_closed_refuted`, `C152_size_refuted`, `C152_missing_refuted`, `C152_lost_refuted`).
* **C153** `make_call` pops `lax` from the very dictionary of the call-spec, so a caller who passes one `call_spec` with `lax` to several `do_lasso()` calls gets lax filtering for the first only (`C153_lax_refuted`); the same holds of `lax` inside the arguments of `pipe` (`C153_pipe_refuted`).
* **C154** Element-wise filters replace cells in the captured lists themselves. When a lax one fails half-way, `make_call` returns its lasso as "unchanged", but the references before the failing one are replaced and those after it are not (`C154_refuted`). C50, C133, C135 and C151 take the values left by a failing filter to be those captured; `C154_agrees` says for which calls that is exact.
* **C155** `get_states_matrix` and `get_margin_coords` look, read and store without a lock: harmless as long as the sheet does not change, but with a change a late store brings back old contents after newer ones were answered (`C155_refuted`).
* **C157** `Pstep._steps` ignores its argument `tag`; `dir` lists a child twice that is named as a method of texts.
* **C158** A lax pipe that fails returns the captured lists as the filters before the failing one changed them in place, not as they were captured (`C158_lax_refuted`).
* C159: on the sheet of an Excel file with empty cells after its only table (xlrd counts them, for instance when they are merged), a lone `:` captures them too, unlike `A1(DR):..(DR):RLDU`, which the documentation of the package says to fetch the same contents.
* C164: the memory of a Ranger (`intermediate_lasso`) is one for all threads: after a failure in one thread it may hold a stage of the lasso of another thread, so what is inspected as the reason of the failure is not of the lasso that failed.
* C165: steps are made on first reading, without a lock. Two threads that read `p.a` for the first time may get different steps, and what one of them reads below its own is missing from `p._paths()` (`C165_paths_refuted`). With `a` mapped to `x`, the thread that comes second may replace the step `x` by a copy that is called `a`: the mapping is lost for everybody (`C165_alias_refuted`).
* C166: `build` keeps its work in `self.model` and `self._errored`, without a lock. If another thread starts to build just before the model is returned, `build` returns `None` without an error (`C166_returned_refuted`); and submodels that merge well in their order may be reported as not merging (`C166_raised_refuted`).
* C167: `SheetsFactory.close` goes through `_cached_sheets` and then replaces it, without a lock. A sheet fetched in between is neither closed nor in the factory any more (`C167_lost_refuted`); a call that is adding a sheet when the factory is closed goes on and adds the closed sheet, which later calls return (`C167_dead_refuted`); and `_cache_get` may raise `KeyError` since it reads the attribute twice (`C167_missing_refuted`).
* C169: regular expressions of more than 200 characters are cut off when a mapping is shown, so that different mappings are shown as the same text (`C169_long_refuted`).
