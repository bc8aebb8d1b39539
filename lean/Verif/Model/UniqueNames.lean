import Verif.Model.Utils
/-
Model of `utils.make_unique_filename` of `pandalone/utils.py` when many calls run at once and the files are made afterwards, each operation
on the file system being one step.
-/
namespace Model
open Py

/-- Where a call of `make_unique_filename` is, and what its caller did with the name. -/
inductive NamePc
  /-- at line 260, about to ask whether the `k`-th generated name exists -/
  | ask (k : Nat)
  /-- the name was returned -/
  | got (name : Str)
  /-- the caller has opened the file for writing -/
  | made (name : Str)
  deriving DecidableEq, Repr

/-- The name of the file that a call has returned. -/
def NamePc.name? : NamePc → Option Str
  | .ask _ => none
  | .got n => some n
  | .made n => some n

/-- The files with one more, unless it is there already: `open(name, "w")`. -/
def withFile (files : List Str) (n : Str) : List Str := if n ∈ files then files else files ++ [n]

/-- One operation of `make_unique_filename(fname)`, `pandalone/utils.py:257-262`, or of its caller, who makes the file. -/
def nameStep (fname : Str) (files : List Str) : NamePc → NamePc × List Str
  | .ask k =>
    if generateFilenames fname k ∈ files then (.ask (k + 1), files) else (.got (generateFilenames fname k), files)
  | .got n => (.made n, withFile files n)
  | .made n => (.made n, files)

/-- What may happen: a call or its caller goes on, or another process makes or removes a file. -/
inductive NameEv
  | call (i : Nat)
  | make (f : Str)
  | remove (f : Str)
  deriving DecidableEq, Repr

/-- The files there are, and the calls. -/
structure NameSys where
  files : List Str
  pc : Nat → NamePc

/-- The calls have not begun. -/
def NameSys.start (files : List Str) : NameSys := ⟨files, fun _ => .ask 0⟩

/-- One event; `fnames` are the names that the calls are given. -/
def nameEv (fnames : Nat → Str) (s : NameSys) : NameEv → NameSys
  | .call i => let r := nameStep (fnames i) s.files (s.pc i)
    ⟨r.2, fun j => if j = i then r.1 else s.pc j⟩
  | .make f => { s with files := withFile s.files f }
  | .remove f => { s with files := s.files.filter (· ≠ f) }

/-- One event after the other. -/
def nameRun (fnames : Nat → Str) (s : NameSys) : List NameEv → NameSys
  | [] => s
  | e :: es => nameRun fnames (nameEv fnames s e) es

end Model
