import Verif.Spec.Coords
/-
Specification vocabulary: texts that differ only in the case of letters.
-/
namespace Spec
open Py

/-- The same character, or the same letter in another case. -/
def SameLetter (x y : Char) : Prop := x = y ∨ (isLetter x = true ∧ isLetter y = true ∧ upperChar x = upperChar y)

/-- The same text up to the case of letters. -/
def Recased : Str → Str → Prop
  | [], [] => True
  | x :: s, y :: t => SameLetter x y ∧ Recased s t
  | _, _ => False

/-- Both absent, or both present and the same up to case. -/
def RecasedO : Option Str → Option Str → Prop
  | none, none => True
  | some s, some t => Recased s t
  | _, _ => False

end Spec
