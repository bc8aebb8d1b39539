import Verif.Model.Basic
/-
Model of functions of `pandalone/utils.py` around consoles: a logger as an output stream, pairs as text, and
programs on the search path.
-/
namespace Model
open Py

/-- `pandalone/utils.py:421-422`: one line ending removed, if there. -/
def dropEnding (msg le : Str) : Str :=
  if endsWith le msg then msg.take (msg.length - le.length) else msg

/-- `pandalone/utils.py:417-424` `LoggerWriter.write`: the message that is logged, if any (no arguments follow
it, so that `%` has no meaning in it). -/
def logWrite (msg : Str) : Option Str :=
  if msg.isEmpty then none
  else
    let m := [['\r', '\n'], ['\n', '\r'], ['\n']].foldl dropEnding msg
    if m.isEmpty then none else some m

/-- `pandalone/utils.py:115-117` `key_width`, for a positive `indent`. Division of floats, `int(nk / indent)`,
is exact for lengths below 2^53. -/
def keyWidth (indent nk : Nat) : Nat :=
  max 1 (nk / indent + (if nk % indent = 0 then 0 else 1)) * indent

/-- `pandalone/utils.py:114-119` `format_item`: `"%-{width}s = %s" % (k, v)`, with values as texts already. -/
def formatItem (indent : Nat) (item : Str × Str) : Str :=
  item.1 ++ List.replicate (keyWidth indent item.1.length - item.1.length) ' ' ++ [' ', '=', ' '] ++ item.2

/-- `pandalone/utils.py:113-123` `format_pairs`, for a positive `indent`. -/
def formatPairs (indent : Nat) (items : List (Str × Str)) : Str := join ['\n'] (items.map (formatItem indent))

/-- `os.path.join(a, b)` on POSIX (standard library). -/
def osJoin (a b : Str) : Str :=
  if startsWith ['/'] b then b
  else if a.isEmpty || endsWith ['/'] a then a ++ b
  else a ++ '/' :: b

/-- `pandalone/utils.py:356` `winprog_exts`, with no extension before them as in line 372. -/
def progExts : List Str := [[], ".bat".toList, "com".toList, ".exe".toList]

/-- `pandalone/utils.py:354-375` `py_where` on POSIX, where `isExec` says whether there is a file that may be
executed, and `env` is the variable `PATH`. -/
def pyWhere (isExec : Str → Bool) (env : Option Str) (program : Str) (path : Option Str) : Except PyErr (List Str) :=
  let p := match path with
    | some (c :: s) => some (c :: s)
    | _ => env
  match p with
  | none => .error .lookupError
  | some p => .ok ((((splitOn ':' p).map (stripBy (· == '"'))).filter (fun f => !f.isEmpty)).flatMap
      (fun folder => (progExts.map (fun e => osJoin folder program ++ e)).filter isExec))

/-- How running the command `where` ends, `pandalone/utils.py:382-386`: with an output, with a failure of the
command, or with any other exception, as on systems that have no such command. -/
inductive WhereCmd
  | output (text : Str)
  | failed
  | other

/-- `pandalone/utils.py:378-387` `where`. -/
def whereProg (isExec : Str → Bool) (env : Option Str) (cmd : WhereCmd) (program : Str) : Except PyErr (List Str) :=
  match cmd with
  | .output text => .ok (((splitOn '\n' text).map (stripBy isSpaceU)).filter (fun s => !s.isEmpty))
  | .failed => .ok []
  | .other => pyWhere isExec env program none

/-- `pandalone/utils.py:390-392` `which`. -/
def whichProg (isExec : Str → Bool) (env : Option Str) (cmd : WhereCmd) (program : Str) : Except PyErr (Option Str) :=
  match whereProg isExec env cmd program with
  | .error e => .error e
  | .ok res => .ok res.head?

end Model
