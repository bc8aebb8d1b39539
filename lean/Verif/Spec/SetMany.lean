import Verif.Spec.JsonPointer
import Verif.Model.JsonPointer
/-
What it means to set many values in a document.
-/
namespace Spec
open Py Model

/-- Setting the values at the pointers made of the parts, one after the other, succeeds and gives the second document. -/
inductive SetAll : Doc → List (List Str × Doc) → Doc → Prop
  | nil (d) : SetAll d [] d
  | cons (d d1 d2 parts v rest) : setJsonPointer d (pointerOf parts) v = .ok d1 → SetAll d1 rest d2 → SetAll d ((parts, v) :: rest) d2

/-- Neither is the beginning of the other. -/
def Unrelated (ps qs : List Str) : Prop := ¬ ps <+: qs ∧ ¬ qs <+: ps

/-- The parts meet no list in the document, before their end. -/
def MeetsNoList (d : Doc) (parts : List Str) : Prop :=
  ∀ pre post xs, parts = pre ++ post → Reach d pre (.list xs) → post = []

/-- Equality of documents as in Python: the order of keys does not matter. -/
inductive SameDoc : Doc → Doc → Prop
  | refl (d) : SameDoc d d
  | list (xs ys) : xs.length = ys.length → (∀ (i : Nat) x y, xs[i]? = some x → ys[i]? = some y → SameDoc x y) →
      SameDoc (.list xs) (.list ys)
  | dict (kvs lvs) : (∀ k, (dget kvs k).isSome = (dget lvs k).isSome) →
      (∀ k x y, dget kvs k = some x → dget lvs k = some y → SameDoc x y) → SameDoc (.dict kvs) (.dict lvs)

end Spec
