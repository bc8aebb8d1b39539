import Verif.Model.Basic
/-
What counts as true.
-/
namespace Spec
open Py Model

/-- Everything but `None`, `False`, zero and what is empty. -/
def Truth (d : Doc) : Prop :=
  d ≠ .null ∧ d ≠ .bool false ∧ d ≠ .int 0 ∧ d ≠ .str [] ∧ d ≠ .list [] ∧ d ≠ .dict []

end Spec
