import Verif.Spec.LassoDesk
import Verif.Spec.Reference
/-
Ways of naming one sheet of a workbook in references.
-/
namespace Spec
open Py Model

/-- What may stand before the `!` of a reference for sheet number `i` of the sheets with these names: its name, a
number that counts from 0, or back from the end, unless it is the name of a sheet; nothing, for the first sheet. -/
inductive Designates (names : List Str) (i : Nat) : Option Str → Prop
  | name (t : Str) : names[i]? = some t → Designates names i (some t)
  | number (t : Str) (n : Int) : i < names.length → pyInt t = some n → (n = i ∨ n = i - names.length) → t ∉ names → Designates names i (some t)
  | first : i = 0 → names ≠ [] → Designates names i none

/-- References without filters that have the same edges and expansions, written or by default, and may differ in the
sheet that they name. -/
structure SameButSheet (r r' : RefText) (items : List ExpItem) : Prop where
  first : r'.first = r.first
  second : r'.second = r.second
  exp : r.Expands items
  exp' : r'.Expands items
  filt : r.filt = none
  filt' : r'.filt = none

end Spec
