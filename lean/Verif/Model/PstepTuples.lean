import Verif.Model.Pstep
/-
Model of the extraction of mapping pairs from a tree of steps, `pandalone/mappings.py`.
-/
namespace Model
open Py

/-- `pandalone/mappings.py:1268-1269` `orig_paths`: the original names of the steps of a branch. -/
def PsState.origs (σ : PsState) (b : List Nat) : List Str :=
  b.map (fun r => match σ.steps[r]? with | some o => o.orig | none => [])

/-- `pandalone/mappings.py:1272` `str(p[-1])`; branches are never empty. -/
def PsState.lastText (σ : PsState) (b : List Nat) : Str :=
  match b.getLast?.bind (fun r => σ.steps[r]?) with
  | some o => o.name
  | none => []

/-- Insertion of a pair before the first one whose key is not before its key. -/
def insertPair (x : Str × Str) : List (Str × Str) → List (Str × Str)
  | [] => [x]
  | y :: t => if strLt y.1 x.1 then y :: insertPair x t else x :: y :: t

/-- `sorted(map_pairs, key=lambda p: p[0])`: pairs with equal keys keep their order. -/
def sortPairs (xs : List (Str × Str)) : List (Str × Str) := xs.foldr insertPair []

/-- `pandalone/mappings.py:1259-1274` `_derrive_map_tuples`. -/
def deriveTuples (F : Nat) (σ : PsState) (s : Nat) : Except PyErr (List (Str × Str)) :=
  match iterHier σ F [] s with
  | none => .error .recursionError
  | some bs => .ok (sortPairs (bs.map (fun b => (joinPaths (σ.origs b), σ.lastText b))))

end Model
