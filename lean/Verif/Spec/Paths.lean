import Verif.Py.Str
/-
Specification of path joining: a location is the root or some ancestor of the current place,
plus names below it; steps move the location.
-/
namespace Spec
open Py

/-- A location: below the root, or `ups` levels above the start, and then below that. -/
inductive Loc
  | abs (names : List Str)
  | rel (ups : Nat) (names : List Str)
  deriving DecidableEq

/-- Moving by one step. -/
def Loc.move (l : Loc) (step : Str) : Loc :=
  if step = "".toList then .abs []
  else if step = ".".toList then l
  else if step = "..".toList then
    match l with
    | .abs names => .abs names.dropLast
    | .rel ups [] => .rel (ups + 1) []
    | .rel ups names => .rel ups names.dropLast
  else
    match l with
    | .abs names => .abs (names ++ [step])
    | .rel ups names => .rel ups (names ++ [step])

/-- The steps that spell a location. -/
def Loc.steps : Loc → List Str
  | .abs names => "".toList :: names
  | .rel ups names => List.replicate ups "..".toList ++ names

/-- The text of a location: its steps separated by slashes, `.` if there are none. -/
def Loc.text (l : Loc) : Str :=
  match l.steps with
  | [] => ".".toList
  | s => join "/".toList s

/-- An ordinary name: not one of the special steps. -/
def Ordinary (n : Str) : Prop := n ≠ "".toList ∧ n ≠ ".".toList ∧ n ≠ "..".toList

/-- Normal form of a split path: root then names; or dot-dots then names. -/
def NormalSteps (ps : List Str) : Prop :=
  (∃ names, ps = "".toList :: names ∧ ∀ n ∈ names, Ordinary n) ∨
  (∃ ups names, ps = List.replicate ups "..".toList ++ names ∧ ∀ n ∈ names, Ordinary n)

end Spec
