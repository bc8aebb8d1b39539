import Verif.Model.Visitor
/-
Model of the places that errors of a validation name.
-/
namespace Model
open Py

/-- A part of the path of an error. -/
inductive ErrStep
  | key (k : Str)
  | index (i : Nat)
  deriving DecidableEq

/-- The path of an error, from the instance that was validated (`ValidationError.absolute_path`). `descend` of *jsonschema* puts
what it is given as `path` before the path of the errors from inside, as `properties` and `items` of *jsonschema* and
`pandalone/pandata.py:215-217` do; for names of properties nothing is given, 242-244. -/
def VErr.path : VErr → List ErrStep
  | .wrongType => []
  | .missing _ => []
  | .unexpected _ => []
  | .notListed => []
  | .inside k e => .key k :: e.path
  | .item i e => .index i :: e.path
  | .name _ e => e.path

end Model
