import Verif.Model.PstepTuples
import Verif.Spec.PstepPaths
/-
Specification of the mapping pairs of a tree of steps.
-/
namespace Spec
open Py Model

/-- A branch of the tree below a step: the step itself, or the step and a branch below one of its children. -/
inductive StepBranch (σ : PsState) : Nat → List Nat → Prop
  | here (s) : StepBranch σ s [s]
  | down (s k c b) : Edge σ s k c → StepBranch σ c b → StepBranch σ s (s :: b)

/-- The original name of a step. -/
def origOf (σ : PsState) (s : Nat) : Option Str := (σ.steps[s]?).map StepObj.orig

/-- The children of every step are stored under distinct names, as in any Python dictionary. -/
def DistinctKids (σ : PsState) : Prop :=
  ∀ (i : Nat) (o : StepObj), σ.steps[i]? = some o → ((σ.kids o).map (·.1)).Nodup

/-- In order of their first parts. -/
def SortedByFirst (l : List (Str × Str)) : Prop := l.Pairwise (fun x y => x.1 = y.1 ∨ TextBefore x.1 y.1)

/-- The chains read, and their beginnings. -/
def Accessed (paths : List (List Str)) (q : List Str) : Prop := q = [] ∨ ∃ p ∈ paths, q <+: p

end Spec
