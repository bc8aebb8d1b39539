import Verif.Model.Components
import Verif.Spec.PstepPaths
/-
Specification of the building of components: what a component function asks for, and what there was
built before.
-/
namespace Spec
open Py Model

/-- The uses of the input step, in order: the path asked for, and the attributes read from it. -/
def inpAsks (acts : List Act) : List (Option Str × List Str) :=
  acts.filterMap (fun a => match a with | .inp p ch => some (p, ch) | _ => none)

/-- The uses of the output step, in order. -/
def outAsks (acts : List Act) : List (Option Str × List Str) :=
  acts.filterMap (fun a => match a with | .out p ch => some (p, ch) | _ => none)

/-- The fixed inputs added, in order. -/
def fixedInp (acts : List Act) : List Str :=
  acts.filterMap (fun a => match a with | .fixInp p => some p | _ => none)

/-- The fixed outputs added, in order. -/
def fixedOut (acts : List Act) : List Str :=
  acts.filterMap (fun a => match a with | .fixOut p => some p | _ => none)

/-- The attributes read are not the empty text, and the chains are shorter than the recursion limit. -/
def SoundAct (F : Nat) : Act → Prop
  | .inp _ ch => (∀ k ∈ ch, k ≠ []) ∧ ch.length < F
  | .out _ ch => (∀ k ∈ ch, k ≠ []) ∧ ch.length < F
  | _ => True

/-- No mappings, or some that are on the heap, without cycles and less deep than the recursion limit. -/
def Usable (F : Nat) (h : List PmodObj) (pmod : Option Nat) : Prop :=
  ∃ t, DenOpt h pmod t ∧ ∀ x, t = some x → depth x ≤ F

/-- Components built one after the other, each with its mappings, whether their building raises or not. -/
def runBuilds (F : Nat) (E : RegexLib) (σ : PsState) (bs : List (Comp × Option Nat)) : PsState :=
  bs.foldl (fun σ b => (b.1.build F E σ b.2).1.1) σ

/-- Whether a build succeeded, and the inputs and outputs then. -/
def outcome : (PsState × Comp) × Except PyErr Unit → Option (List Str × List Str)
  | ((_, c), .ok _) => some (c.inp, c.out)
  | _ => none

end Spec
