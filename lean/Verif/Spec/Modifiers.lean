import Verif.Spec.XlrefWritten
/-
What may be in the parentheses after a cell, by the documentation.
-/
namespace Spec
open Py

/-- Left or right. -/
def Sideways (c : Char) : Prop := c ∈ "LRlr".toList
/-- Up or down. -/
def Upright (c : Char) : Prop := c ∈ "UDud".toList

/-- Target moves: one direction, or two that are not opposite (or the same). -/
inductive MovesText : Str → Prop
  | one (c) : Sideways c ∨ Upright c → MovesText [c]
  | two (a b) : (Sideways a ∧ Upright b) ∨ (Upright a ∧ Sideways b) → MovesText [a, b]

end Spec
