import Verif.Model.PstepTuples
/-
What a path-step shows of itself, `pandalone/mappings.py`: its children, its attributes, and its paths with original names.
-/
namespace Model
open Py

/-- `pandalone/mappings.py:1201-1207` `_steps(keys=True)`. -/
def stepKeys (σ : PsState) (s : Nat) : List Str := match σ.steps[s]? with
  | none => []   -- no such object: does not occur
  | some o => (σ.kids o).map (·.1)

/-- `pandalone/mappings.py:1201-1207` `_steps()`; the argument `tag` is ignored by the code. -/
def stepValues (σ : PsState) (s : Nat) : List Nat := match σ.steps[s]? with
  | none => []   -- no such object: does not occur
  | some o => (σ.kids o).map (·.2)

/-- Insertion into a sorted list, before the first text that is not before it. -/
def insertText (x : Str) : List Str → List Str
  | [] => [x]
  | y :: t => if strLt y x then y :: insertText x t else x :: y :: t

/-- `sorted(xs)`: repetitions stay. -/
def sortTexts (xs : List Str) : List Str := xs.foldr insertText []

/-- `pandalone/mappings.py:1123-1127` `__dir__`; `own` is what `object.__dir__` gives. -/
def stepDir (own : List Str) (σ : PsState) (s : Nat) : List Str :=
  if (stepKeys σ s).isEmpty then own else sortTexts (own ++ stepKeys σ s)

/-- `pandalone/mappings.py:1244-1246` `append_orig`, for the steps of a branch. -/
def PsState.shown (σ : PsState) (b : List Nat) : List Str :=
  b.map (fun r => match σ.steps[r]? with
    | some o => if o.name ≠ o.orig then "(".toList ++ o.orig ++ "-->".toList ++ o.name ++ ")".toList else o.name
    | none => [])

/-- `pandalone/mappings.py:1209-1257` `_paths(with_orig=True)`. -/
def pstepPathsOrig (F : Nat) (σ : PsState) (s : Nat) (tag : Option Str) : Except PyErr (List Str) :=
  match iterHier σ F [] s with
  | none => .error .recursionError
  | some bs => .ok (sortedSet ((bs.filter (reported σ tag)).map (fun b => joinPaths (σ.shown b))))

end Model
