import Verif.Model.CompRun
import Verif.Spec.Components
/-
Specification of the life of components: histories of building and calling them.
-/
namespace Spec
open Py Model

/-- Some components have just been made, with their names and functions; the mappings are there already. -/
def freshWorld (h : List PmodObj) (comps : List (Str × List Act)) : CompWorld :=
  ⟨⟨h, [], []⟩, comps.map (fun p => CompObj.init p.1 p.2)⟩

/-- A history, whether parts of it raise or not. -/
def runWorld (F : Nat) (E : RegexLib) (w : CompWorld) (ops : List CompOp) : CompWorld :=
  ops.foldl (fun w op => (opOn F E w op).1) w

/-- In this history the component `i` is not built, and all calls of it succeed. -/
def CallsSucceed (F : Nat) (E : RegexLib) (i : Nat) : CompWorld → List CompOp → Prop
  | _, [] => True
  | w, .build j pmod :: ops => j ≠ i ∧ CallsSucceed F E i (opOn F E w (.build j pmod)).1 ops
  | w, .call j acts :: ops => (j = i → (opOn F E w (.call j acts)).2 = .ok ()) ∧
      CallsSucceed F E i (opOn F E w (.call j acts)).1 ops

/-- What the function of the component `i` does in its calls, one after the other. -/
def actsOf (i : Nat) : List CompOp → List Act
  | [] => []
  | .build _ _ :: ops => actsOf i ops
  | .call j acts :: ops => (if j = i then acts else []) ++ actsOf i ops

/-- The mappings are usable, and what functions do is sound. -/
def SoundOp (F : Nat) (h : List PmodObj) : CompOp → Prop
  | .build _ pmod => Usable F h pmod
  | .call _ acts => ∀ a ∈ acts, SoundAct F a

end Spec
