import Verif.Model.Capture
/-
Specification vocabulary for spreadsheet coordinates.
-/
namespace Spec
open Py Model

/-- The letters `a`–`z` and `A`–`Z`. -/
def isLetter (c : Char) : Bool := c ∈ "abcdefghijklmnopqrstuvwxyzABCDEFGHIJKLMNOPQRSTUVWXYZ".toList

/-- Position of a letter in the alphabet, from 1. -/
def letterPos (c : Char) : Nat := "ABCDEFGHIJKLMNOPQRSTUVWXYZ".toList.idxOf (upperChar c) + 1

/-- Number denoted by column letters, from 1, in bijective base 26. -/
def lettersNum (s : Str) : Nat := s.foldl (fun acc c => acc * 26 + letterPos c) 0

/-- What a row or column given as a number or as a symbol stands for, by the margins and the base. -/
inductive CoordIs (up dn : Int) (base : Option Int) : RawCoord → Int → Prop
  | number (n : Nat) : CoordIs up dn base (.num n) n
  | upper : CoordIs up dn base (.sym "^".toList) up
  | lower : CoordIs up dn base (.sym "_".toList) dn
  | base (b) : base = some b → CoordIs up dn base (.sym ".".toList) b

/-- What stands for no row or column, and the error for it. -/
inductive RefusedAs : RawCoord → PyErr → Prop
  | negative (n) : n < 0 → RefusedAs (.num n) .assertionError
  | text (s) : s ∉ [['^'], ['_'], ['.']] → RefusedAs (.sym s) .typeError

end Spec
