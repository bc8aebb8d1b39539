import Verif.Spec.Pstep
import Verif.Spec.Pmod
import Verif.Spec.Paths
/-
Specification of the paths of a tree of steps: which paths have been accessed, and which of them
are maximal.
-/
namespace Spec
open Py Model

/-- Reading several chains of attributes, each from the same step. -/
def readPaths (F : Nat) (E : RegexLib) (σ : PsState) (s : Nat) : List (List Str) → Except PyErr PsState
  | [] => .ok σ
  | p :: ps =>
    match getPath F E σ s p with
    | (σ1, .ok _) => readPaths F E σ1 s ps
    | (_, .error e) => .error e

/-- A maximal accessed path: accessed (the empty one always is), and not continued by another. -/
def Maximal (paths : List (List Str)) (p : List Str) : Prop :=
  p ∈ [] :: paths ∧ ∀ q ∈ paths, p <+: q → q = p

/-- Python's order of texts: the second continues the first, or where they first differ, the first has the
character with the smaller code. -/
def TextBefore (x y : Str) : Prop :=
  (∃ c t, y = x ++ c :: t) ∨ ∃ p a s b t, x = p ++ a :: s ∧ y = p ++ b :: t ∧ a.toNat < b.toNat

/-- In Python's order of texts, and without repetition. -/
def StrictlySorted (l : List Str) : Prop := l.Pairwise TextBefore

/-- The text of a step: its alias if it has one that is not empty, without escapes, else its name. -/
def nameFor (k : Str) : Option Str → Str
  | some m => if m = "".toList then k else unescapePart m
  | none => k

/-- The texts of steps. -/
def namesFor : List Str → List (Option Str) → List Str
  | k :: ks, a :: as => nameFor k a :: namesFor ks as
  | _, _ => []

/-- A plain relative alias: ordinary plain names separated by slashes, not starting with a dot. -/
def RelativeAlias (a : Str) : Prop :=
  ∃ n ns, a = pathText (n :: ns) ∧ n.head? ≠ some '.' ∧ ∀ x ∈ n :: ns, Plain x ∧ Ordinary x

/-- A plain alias for the root: the same, or after a slash. -/
def RootAlias (a : Str) : Prop :=
  RelativeAlias a ∨ ∃ n ns, a = pathText ("".toList :: n :: ns) ∧ ∀ x ∈ n :: ns, Plain x ∧ Ordinary x

end Spec

namespace Spec
open Py Model

/-- Reading chains of attributes from a step, and tagging the step each leads to. -/
def tagPaths (F : Nat) (E : RegexLib) (σ : PsState) (s : Nat) : List (List Str × List Str) → Except PyErr PsState
  | [] => .ok σ
  | (p, tags) :: rest =>
    match getPath F E σ s p with
    | (σ1, .ok refs) => tagPaths F E (tagStep σ1 ((s :: refs).getLast (by simp)) tags) s rest
    | (_, .error e) => .error e

end Spec
