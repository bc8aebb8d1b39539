import Verif.Py.Str
/-
Specification of the texts that are numbers for Python's `int`, and of their values.
-/
namespace Spec
open Py

/-- Decimal digits, of any script, with single underscores between them if at all, and the number they write. -/
inductive DigitText : Str → Nat → Prop
  | one (c d) : decVal c = some d → DigitText [c] d
  | next (s n c d) : DigitText s n → decVal c = some d → DigitText (s ++ [c]) (10 * n + d)
  | apart (s n c d) : DigitText s n → decVal c = some d → DigitText (s ++ ['_'] ++ [c]) (10 * n + d)

/-- Digits with a sign if at all, and blanks around. -/
def IntText (s : Str) (n : Int) : Prop :=
  ∃ before sign digits after m, s = before ++ sign ++ digits ++ after ∧
    (∀ c ∈ before, isIntSpace c = true) ∧ (∀ c ∈ after, isIntSpace c = true) ∧ DigitText digits m ∧
    (sign ∈ [[], ['+']] ∧ n = m ∨ sign = ['-'] ∧ n = -m)

end Spec
