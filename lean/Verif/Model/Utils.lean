import Verif.Model.Basic
/-
Model of `pandalone/utils.py`: booleans from text, unique file names, file extensions,
directories and command names.
-/
namespace Model
open Py

/-! ### Booleans -/

/-- `utils.str2bool` (pandalone/utils.py:35-68). Anything but text has no `.strip()`, and the
`AttributeError` is turned into `ValueError`. `str.lower` is ASCII here: no other character lowers to
a letter of the words compared. Bytes are not modelled. -/
def str2bool (v : Doc) : Except PyErr Bool :=
  match v with
  | .str s =>
    let vv := lower (stripBy isSpaceU s)
    if vv ∈ ["yes".toList, "true".toList, "on".toList] then .ok true
    else if vv ∈ ["no".toList, "false".toList, "off".toList, "0".toList] then .ok false
    else .ok (!vv.isEmpty)
  | _ => .error .valueError

/-- `utils.obj2bool` (pandalone/utils.py:71-84): `bool(v) and str2bool(v)`. -/
def obj2bool (v : Doc) : Except PyErr Bool :=
  if v.truthy then str2bool v else .ok false

/-! ### File names -/

/-- `s.rfind(c)`; `none` is -1. Standard library. -/
def rfind (c : Char) : Str → Option Nat
  | [] => none
  | x :: t => match rfind c t with
    | some i => some (i + 1)
    | none => if x = c then some 0 else none

/-- Where the last path component starts: `p.rfind('/') + 1`. -/
def nameStart (p : Str) : Nat :=
  match rfind '/' p with
  | none => 0
  | some i => i + 1

/-- `os.path.splitext(p)` on POSIX (`genericpath._splitext`, standard library): the last dot starts
the extension when it is in the last path component, after some character other than a dot. -/
def splitext (p : Str) : Str × Str :=
  match rfind '.' p with
  | none => (p, [])
  | some dot =>
    if nameStart p ≤ dot ∧ ((p.take dot).drop (nameStart p)).any (fun c => c ≠ '.') then (p.take dot, p.drop dot)
    else (p, [])

/-- `utils.generate_filenames` (pandalone/utils.py:248-254): the `i`-th name generated. -/
def generateFilenames (filename : Str) (i : Nat) : Str :=
  match i with
  | 0 => filename
  | i + 1 => (splitext filename).1 ++ natStr (i + 1) ++ (splitext filename).2

/-- The `while os.path.exists(fname)` loop of `utils.make_unique_filename`
(pandalone/utils.py:260-261), from the `i`-th generated name on, for `fuel` rounds. -/
def uniqueLoop (exist : Str → Bool) (gen : Nat → Str) : Nat → Nat → Option Str
  | 0, _ => none
  | fuel + 1, i => if exist (gen i) then uniqueLoop exist gen fuel (i + 1) else some (gen i)

/-- `utils.make_unique_filename` (pandalone/utils.py:257-262): the parameter `filegen` is not used.
`exist` is the answer of `os.path.exists`, taken as constant during the call; `none` means that the
loop is still running after `fuel` rounds. -/
def makeUniqueFilename (exist : Str → Bool) (fname : Str) (_filegen : Str → Nat → Str) (fuel : Nat) :
    Option Str :=
  uniqueLoop exist (generateFilenames fname) fuel 0

/-- The test of `utils.ensure_file_ext` without regexes (pandalone/utils.py:320-322). `str.lower` is
ASCII here. -/
def endsWithExt (fname : Str) (exts : List Str) : Bool :=
  let fileExt := lower (splitext fname).2
  exts.any (fun e => endsWith (lower e) fileExt)

/-- The test of `utils.ensure_file_ext` with regexes (pandalone/utils.py:316-319): the first extension
is escaped, so it matches itself in any case, also before a final newline; the others are given as
the predicates of the texts they match with a `$` added. -/
def endsWithRegex (fname : Str) (ext : Str) (exts : List (Str → Bool)) : Bool :=
  let fileExt := (splitext fname).2
  (lower fileExt == lower ext || lower fileExt == lower ext ++ ['\n']) || exts.any (fun e => e fileExt)

/-- The extension appended by `utils.ensure_file_ext` (pandalone/utils.py:324-329). `fname[-1]` and
`ext[0]` raise `IndexError` when empty. -/
def appendExt (fname ext : Str) : Except PyErr Str :=
  match fname.getLast? with
  | none => .error .lookupError
  | some l =>
    let f := if l = '.' then fname.dropLast else fname
    match ext with
    | [] => .error .lookupError
    | e :: es => .ok (f ++ '.' :: (if e = '.' then es else e :: es))

/-- `utils.ensure_file_ext(fname, ext, *exts)` (pandalone/utils.py:265-331). -/
def ensureFileExt (fname ext : Str) (exts : List Str) : Except PyErr Str :=
  if endsWithExt fname (ext :: exts) then .ok fname else appendExt fname ext

/-- `utils.ensure_file_ext(fname, ext, *exts, is_regex=True)` (pandalone/utils.py:265-331). -/
def ensureFileExtRegex (fname ext : Str) (exts : List (Str → Bool)) : Except PyErr Str :=
  if endsWithRegex fname ext exts then .ok fname else appendExt fname ext

/-! ### Directories -/

/-- What is at a path of the file system. -/
inductive Node
  | absent
  | dir
  | file
  | dangling   -- a symbolic link to nowhere
  deriving DecidableEq, Repr

/-- `os.path.exists` (follows links). Standard library. -/
def Node.exists_ : Node → Bool
  | .dir | .file => true
  | _ => false

/-- `os.path.isdir`. Standard library. -/
def Node.isdir : Node → Bool
  | .dir => true
  | _ => false

/-- Where a call of `ensure_dir_exists` is. -/
inductive Pc
  | start      -- before `os.path.exists` (utils.py:344)
  | making     -- before `os.makedirs` (utils.py:346)
  | checking   -- before `os.path.isdir` (utils.py:350)
  | returned
  | raised
  deriving DecidableEq, Repr

/-- One atomic step of `utils.ensure_dir_exists` (pandalone/utils.py:334-351) on the node at its path.
Simplification: `os.makedirs` is one atomic step that creates the directory if nothing is there and
fails with `EEXIST` otherwise; `denied` says that it fails with another error. -/
def ensureDirStep (denied : Bool) : Pc → Node → Pc × Node
  | .start, n => if n.exists_ then (.checking, n) else (.making, n)
  | .making, n =>
    if n = .absent then (if denied then (.raised, n) else (.returned, .dir))
    else (.returned, n)              -- EEXIST is swallowed (utils.py:347-349)
  | .checking, n => if n.isdir then (.returned, n) else (.raised, n)
  | .returned, n => (.returned, n)
  | .raised, n => (.raised, n)

/-! ### Command names -/

/-- `[a-z0-9]` of the look-behind at pandalone/utils.py:99. -/
def isLowerOrDigit (c : Char) : Bool := ('a' ≤ c && c ≤ 'z') || ('0' ≤ c && c ≤ '9')
/-- `[A-Z]` of the pattern at pandalone/utils.py:99. -/
def isUpperA (c : Char) : Bool := 'A' ≤ c && c ≤ 'Z'

/-- `_camel_to_snake_regex.sub(r"_\1", s)` (pandalone/utils.py:99-104): an underscore goes before
each run of capitals that follows a small letter or digit. `prev` tells if the previous character is
one. A run that is entered is consumed whole, and a capital is no small letter, so that looking at
each character and the previous one is the same. -/
def underscores (prev : Bool) : Str → Str
  | [] => []
  | c :: cs => (if prev && isUpperA c then ['_', c] else [c]) ++ underscores (isLowerOrDigit c) cs

/-- `utils.camel_to_snake_case` (pandalone/utils.py:102-104). `str.lower` is ASCII here. -/
def camelToSnake (s : Str) : Str := lower (underscores false s)

/-- `utils.camel_to_cmd_name` (pandalone/utils.py:107-109). -/
def camelToCmd (s : Str) : Str := replace1 '_' ['-'] (camelToSnake s)

/-- `utils.first_line` (pandalone/utils.py:126-129); `none` is Python's `None`. -/
def firstLine (doc : Str) : Option Str :=
  ((splitOn '\n' doc).find? (fun l => !(stripBy isSpaceU l).isEmpty)).map (stripBy isSpaceU)

end Model
