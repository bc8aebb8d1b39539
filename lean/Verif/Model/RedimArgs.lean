import Verif.Model.Redim
import Verif.Model.Recurring
/-
The arguments of the `redim` filter of `pandalone/xleash/_filter.py`, as call-specifications have them.
-/
namespace Model
open Py

/-- The parameters of `redim_filter`, `pandalone/xleash/_filter.py:182`. -/
def redimNames : List Str := ["scalar".toList, "cell".toList, "row".toList, "col".toList, "table".toList]

/-- A number of dimensions: booleans are numbers. -/
def dimArg : Doc → Option Int
  | .int k => some k
  | .bool b => some (if b then 1 else 0)
  | _ => none

/-- `pandalone/xleash/_filter.py:158-172`: what is asked by an argument that is not `None`: a number, or a pair of one or `None` and a truth. With
anything else, the comparison of dimensions is a `TypeError`; so it is taken to be for floats, which may be compared. -/
def ndimArg : Doc → Except PyErr NDim
  | .list [.null, t] => .ok (.pair none t.truthy)
  | .list [k, t] => match dimArg k with
    | some k => .ok (.pair (some k) t.truthy)
    | none => .error .typeError
  | d => match dimArg d with
    | some k => .ok (.int k)
    | none => .error .typeError

/-- `pandalone/xleash/_filter.py:182-195` `redim_filter` as an entry of the filters: only the argument for the shape of the rectangle is looked at. -/
def redimFunc {S : Type} : FFun S := fun l args kwds => match bindArgs redimNames args kwds with
  | .error e => .error e
  | .ok arg => match (redimNames[classifyRect l.st l.nd]?).bind arg with
    | none | some .null => .ok (.lasso l)
    | some d => match asarray l.values with
      | .error e => .error e
      | .ok _ => match ndimArg d with
        | .error e => .error e
        | .ok n => match redim l.values n with
          | .error e => .error e
          | .ok v => .ok (.lasso { l with values := v })

/-- `pandalone/xleash/_filter.py:177-179` `xlwings_dims_call_spec`. -/
def xlwingsCallSpec : Str := "[\"redim\", [0, 1, 1, 1, 2]]".toList

end Model
