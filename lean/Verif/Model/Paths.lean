import Verif.Model.JsonPointer
/-
Model of the path-joining functions of `pandalone/mappings.py`.
-/
namespace Model
open Py

/-- The step `.` -/
def dot : Str := ['.']
/-- The step `..` -/
def dotdot : Str := ['.', '.']

/-- `pandalone/mappings.py:765-774` the dictionary `_last_pair_choices`. -/
def lastPairChoices : List (List Str × List Str) :=
  [([dot], []),
   ([dotdot], [dotdot]),
   ([dot, dot], []),
   ([dot, dotdot], [dotdot]),
   ([dotdot, dot], [dotdot]),
   ([dotdot, dotdot], [dotdot, dotdot]),
   ([[], dot], [[]]),
   ([[], dotdot], [[]])]

/-- `pandalone/mappings.py:687-787` `_append_step` (the type assertions always hold here). -/
def appendStep (steps : List Str) (step : Str) : List Str :=
  if step = [] then [[]]
  else
    -- `steps[-1:] + (step,)`
    let lastPair := steps.drop (steps.length - 1) ++ [step]
    match dget lastPairChoices lastPair with
    | some c => steps.dropLast ++ c
    | none =>
      if step = dot then steps
      else if step = dotdot then steps.dropLast
      else steps ++ [step]

/-- `pandalone/mappings.py:790-868` `_join_paths`. -/
def joinPaths (steps : List Str) : Str :=
  match steps.foldl appendStep [] with
  | [] => dot
  | nsteps => join ['/'] nsteps

end Model
