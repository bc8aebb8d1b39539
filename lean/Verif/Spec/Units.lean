import Verif.Spec.Utils
/-
Specification of names with units.
-/
namespace Spec
open Py

/-- The text `w` writes the units: in square brackets without a `]` in them, or in angle brackets
without a `)` in them; or nothing, when there are none. -/
inductive Writes : Option Str → Str → Prop
  | none : Writes none []
  | square (u : Str) : ']' ∉ u → Writes (some u) ('[' :: u ++ [']'])
  | angle (u : Str) : ')' ∉ u → Writes (some u) ('<' :: u ++ ['>'])

/-- A name has no opening bracket and neither starts nor ends with white space. -/
structure IsName (n : Str) : Prop where
  square : '[' ∉ n
  angle : '<' ∉ n
  first : ∀ c, n.head? = some c → isSpaceU c = false
  last : ∀ c, n.getLast? = some c → isSpaceU c = false

/-- The text is the name, then the units if any, with white space around and between them. -/
def WithUnits (s name : Str) (units : Option Str) : Prop :=
  ∃ a b w c, s = a ++ name ++ b ++ w ++ c ∧ Blank a ∧ Blank b ∧ Blank c ∧ IsName name ∧ Writes units w

end Spec
