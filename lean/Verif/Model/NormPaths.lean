import Verif.Model.Urls
import Verif.Model.Console
/-
Model of the functions of `pandalone/utils.py` that normalise file paths. On POSIX: `os.sep` is `/`.
`normpath` itself is in `Model/Urls.lean`.
-/
namespace Model
open Py

/-- `os.path.abspath` of the standard library, in the working folder `cwd`. -/
def osAbspath (cwd path : Str) : Str :=
  osNormpath (if startsWith ['/'] path then path else osJoin cwd path)

/-- `pandalone/utils.py:145-150` `abspath`, in the working folder `cwd` (its result is never empty). -/
def abspath (cwd path : Str) : Str :=
  let p := osAbspath cwd path
  if isDirText path && p.getLast? != some '/' then p ++ ['/'] else p

/-- `pandalone/utils.py:166-175` `path2urlpath` on POSIX, where `pathname2url` is `quote` (`u` is not empty where the
path ends with a slash). -/
def path2urlpath (path : Str) : Str :=
  let path := if startsWith uncPrefix path then path.drop 3 else path
  let u := quote path
  if isDirText path && u.getLast? != some '/' then u ++ ['/'] else u

/-! ### `convpath` -/

/-- The characters `\w` of the ASCII regular expression of `os.path.expandvars`. -/
def isWordA (c : Char) : Bool := isAsciiLetter c || isAsciiDigit c || decide (c = '_')

/-- `os.path.expandvars` of the standard library: what `(\w+|\{[^}]*\})` matches at the beginning, as the name of
the variable, the text matched and the rest. -/
def varRef : Str → Option (Str × Str × Str)
  | '{' :: s =>
    match cut '}' s with
    | some (n, r) => some (n, '{' :: (n ++ ['}']), r)
    | none => none
  | s =>
    let n := s.takeWhile isWordA
    if n = [] then none else some (n, n, s.drop n.length)

/-- The loop of `os.path.expandvars` (standard library, POSIX); what variables stand for is not searched again. The
number is the length of the text. -/
def expandGo (env : Str → Option Str) : Nat → Str → Str
  | 0, s => s
  | _, [] => []
  | n + 1, c :: s =>
    if c = '$' then
      match varRef s with
      | none => '$' :: expandGo env n s
      | some (name, text, rest) => (env name).getD ('$' :: text) ++ expandGo env n rest
    else c :: expandGo env n s

/-- `os.path.expandvars(s)`, where `env` is `os.environ`. -/
def expandvars (env : Str → Option Str) (s : Str) : Str := expandGo env s.length s

/-- Python `s.replace(old, new)` for a non-empty `old`: left to right, not overlapping. The number counts characters
that are still to be left out. -/
def replaceFrom (old new : Str) : Nat → Str → Str
  | _, [] => []
  | k + 1, _ :: s => replaceFrom old new k s
  | 0, c :: s => if startsWith old (c :: s) then new ++ replaceFrom old new (old.length - 1) s else c :: replaceFrom old new 0 s

/-- `pandalone/utils.py:159,161` the text that stands for `$\` meanwhile. -/
def uncMask : Str := "_UNC_PATH_HERE_".toList

/-- `pandalone/utils.py:153-164` `convpath`, where `user` is `os.path.expanduser`. -/
def convpath (user : Str → Str) (env : Str → Option Str) (cwd fpath : Str) (absPath expUser expVars : Bool) : Str :=
  let f := if expUser then user fpath else fpath
  let f := if expVars then
      -- Mask UNC '\\server\share$\path` from expansion.
      replaceFrom uncMask ['$', '\\'] 0 (expandvars env (replace2 '$' '\\' uncMask f))
    else f
  if absPath then abspath cwd f else normpath f

end Model
