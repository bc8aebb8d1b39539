import Verif.Model.PmodShown
/-
What is assumed of the writing of characters, and the patterns of a mapping.
-/
namespace Spec
open Py Model

/-- What is written for a character that cannot be printed starts with a backslash and the letter x, u or U, and it tells where it ends and which
character is meant (standard library: there are two, four or eight digits after the letter). -/
structure Printing.Ok (P : Printing) : Prop where
  starts : ∀ c, ∃ k t, P.hex c = '\\' :: k :: t ∧ k ∈ ['x', 'u', 'U']
  tells : ∀ c d x y, P.hex c ++ x = P.hex d ++ y → c = d ∧ x = y

/-- The pattern `k` is somewhere in the mapping. -/
inductive HasPattern : Pmod → Str → Prop
  | here (a s r k v) : (k, v) ∈ r → HasPattern (.mk a s r) k
  | step (a s r n v k) : (n, v) ∈ s → HasPattern v k → HasPattern (.mk a s r) k
  | regx (a s r n v k) : (n, v) ∈ r → HasPattern v k → HasPattern (.mk a s r) k

/-- No pattern in the mapping takes more than 200 characters when written as a text. -/
def ShortPatterns (P : Printing) (p : Pmod) : Prop := ∀ k, HasPattern p k → (strRepr P k).length ≤ 200

end Spec
