import Verif.Model.PstepDf
import Verif.Spec.PstepPaths
/-
Specification of steps made from a dataframe.
-/
namespace Spec
open Py Model

/-- The cells of a dataframe (except the names), row by row: the path, the name of the column and the value. -/
def dfCells {V : Type} (rows : List (DfRow V)) : List (Str × Str × V) :=
  rows.flatMap (fun r => r.vals.map (fun cv => (r.path, cv.1, cv.2)))

/-- The last value given to a path in a column. -/
def lastCell {V : Type} (rows : List (DfRow V)) (path col : Str) : Option V :=
  lastSome (fun x => if x.1 = path ∧ x.2.1 = col then some x.2.2 else none) (dfCells rows)

/-- The last name given to a path. -/
def lastName {V : Type} (rows : List (DfRow V)) (path : Str) : Option Str :=
  lastSome (fun r => if r.path = path then some r.name else none) rows

end Spec
