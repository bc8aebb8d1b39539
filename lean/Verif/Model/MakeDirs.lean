import Verif.Model.Utils
/-
Model of `utils.ensure_dir_exists` of `pandalone/utils.py` for paths with many folders, each operation on the file system being one step.
-/
namespace Model
open Py

/-- What is at each path below some directory, a path being the list of its names. -/
abbrev FsTree := List Str → Node

/-- What `os.mkdir` says. -/
inductive MkRes
  | made
  | eexist
  | error
  deriving DecidableEq, Repr

/-- `os.mkdir(path)`: `EEXIST` if anything is there, another error unless it is in a directory. Operating system; permissions are left out. -/
def mkdirSays (t : FsTree) (p : List Str) : MkRes :=
  if t p ≠ .absent then .eexist
  else if t p.dropLast = .dir then .made
  else .error

/-- The tree with a directory at the path. -/
def withDir (t : FsTree) (p : List Str) : FsTree := fun q => if q = p then .dir else t q

/-- The tree after `os.mkdir(path)`. -/
def mkdirDoes (t : FsTree) (p : List Str) : FsTree := if mkdirSays t p = .made then withDir t p else t

/-- Where a call of `ensure_dir_exists` is. -/
inductive DirsPc
  /-- at line 344 -/
  | start
  /-- at line 350 -/
  | isdir
  /-- in `os.makedirs` for the first `n` names, before asking whether the folder exists in which the last of them is -/
  | look (n : Nat)
  /-- in `os.makedirs` for the first `n` names, before `os.mkdir` -/
  | make (n : Nat)
  | returned
  | raised
  deriving DecidableEq, Repr

/-- One operation of `utils.ensure_dir_exists(path)`, `pandalone/utils.py:334-351`, with `os.makedirs` of the standard library, which calls
itself for the folder in which the path is if that does not exist, ignoring `EEXIST` from there. The folder in which the first name is, is not
asked for (it is '' or '/'). Names are not '.' or '..'. -/
def dirsStep (p : List Str) (t : FsTree) : DirsPc → DirsPc × FsTree
  | .start => if (t p).exists_ then (.isdir, t) else (.look p.length, t)
  | .isdir => if (t p).isdir then (.returned, t) else (.raised, t)
  | .look n => if n ≤ 1 ∨ (t (p.take (n - 1))).exists_ then (.make n, t) else (.look (n - 1), t)
  | .make n =>
    if mkdirSays t (p.take n) = .error then (.raised, t)
    else (if p.length ≤ n then .returned else .make (n + 1), mkdirDoes t (p.take n))
  | .returned => (.returned, t)
  | .raised => (.raised, t)

/-- What may happen: a call goes on, or another process makes a directory. -/
inductive DirsEv
  | call (i : Nat)
  | other (q : List Str)
  deriving DecidableEq, Repr

/-- The file system, and calls. -/
structure DirsSys where
  tree : FsTree
  pc : Nat → DirsPc

/-- One event, the paths of the calls being given. -/
def dirsEv (paths : Nat → List Str) (s : DirsSys) : DirsEv → DirsSys
  | .call i => let r := dirsStep (paths i) s.tree (s.pc i)
    ⟨r.2, fun j => if j = i then r.1 else s.pc j⟩
  | .other q => { s with tree := mkdirDoes s.tree q }

/-- One event after the other. -/
def dirsRun (paths : Nat → List Str) (s : DirsSys) : List DirsEv → DirsSys
  | [] => s
  | e :: es => dirsRun paths (dirsEv paths s e) es

end Model
