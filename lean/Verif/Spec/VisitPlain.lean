import Verif.Spec.VisitPandas
/-
Documents without *pandas* and *numpy* objects.
-/
namespace Spec
open Py Model

mutual
/-- The document, as one that might have held *pandas* and *numpy* objects. -/
def asGiven : Doc → PDoc
  | .null => .scal false .null
  | .bool b => .scal false (.bool b)
  | .int i => .scal false (.int i)
  | .atom t => .scal false (.atom t)
  | .str s => .scal false (.str s)
  | .list xs => .list (asGivenList xs)
  | .dict kvs => .dict (asGivenItems kvs)
def asGivenList : List Doc → List PDoc
  | [] => []
  | x :: xs => asGiven x :: asGivenList xs
def asGivenItems : List (Str × Doc) → List (Str × PDoc)
  | [] => []
  | (k, x) :: xs => (k, asGiven x) :: asGivenItems xs
end

/-- The same error, with labels that are texts. -/
def toldAs : VErr → PvErr
  | .wrongType => .wrongType
  | .missing k => .missing k
  | .unexpected ks => .unexpected (ks.map .name)
  | .notListed => .notListed
  | .inside k e => .inside (.name k) (toldAs e)
  | .item i e => .item i (toldAs e)
  | .name k e => .name (.name k) (toldAs e)

end Spec
