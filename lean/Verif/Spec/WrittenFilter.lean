import Verif.Model.Lasso
import Verif.Spec.Lasso
import Verif.Spec.CallSpec
import Verif.Spec.Reference
import Verif.Spec.FilterArgs
import Verif.Model.Redim
/-
Vocabulary for references with filters, for C156.
-/
namespace Spec
open Py Model

/-- What comes of a filter that is written after a reference, called with these arguments on what was captured, under these options: what the filter
returns; if it fails or there is none, `ValueError`, or, leniently, what was captured. (A filter that returns no lasso fails, but what it returned is
returned leniently; verbose calls of filters without a description fail as well.) -/
inductive Comes {S : Type} (R : Ranger S) (o : Opts) (l : Lasso S) (f : Str) (a : List Doc) (k : List (Str × Doc)) : Except PyErr (FRes S) → Prop
  | done (rec : FRec S) (l' : Lasso S) : R.filters f = some rec → rec.func l a (withoutLax k) = .ok (.lasso l') → Comes R o l f a k (.ok (.lasso l'))
  | absent : R.filters f = none → ¬ Lax o k → Comes R o l f a k (.error .valueError)
  | absentLax : R.filters f = none → Lax o k → Comes R o l f a k (.ok (.lasso l))
  | failed (rec : FRec S) : R.filters f = some rec → (∀ l', rec.func l a (withoutLax k) ≠ .ok (.lasso l')) →
      (¬ Lax o k ∨ (Verbose o ∧ rec.desc = false)) → Comes R o l f a k (.error .valueError)
  | failedLax (rec : FRec S) (e : PyErr) : R.filters f = some rec → rec.func l a (withoutLax k) = .error e → Lax o k →
      ¬ (Verbose o ∧ rec.desc = false) → Comes R o l f a k (.ok (.lasso l))
  | otherLax (rec : FRec S) (d : Doc) : R.filters f = some rec → rec.func l a (withoutLax k) = .ok (.other d) → Lax o k →
      ¬ (Verbose o ∧ rec.desc = false) → Comes R o l f a k (.ok (.other d))

/-- What was captured: the sheet, the rectangle with its values, or none and an empty list, and the options. -/
structure CapturedAs {S : Type} (l : Lasso S) (s : S) (st nd : Option Coords) (v : Doc) (base : Option Coords) (o : Opts) : Prop where
  sheet : l.sheet = some s
  st : l.st = st
  nd : l.nd = nd
  values : l.values = v
  base : l.baseCoords = base
  opts : l.opts = some o

/-- The cells of a block of a sheet as *xlwings* has them: those of one row or one column in a list, others row by row. -/
def AsXlwings (val : Nat → Nat → Doc) (r1 c1 r2 c2 : Nat) (d : Doc) : Prop :=
  (r1 = r2 → d = .list ((List.range (c2 - c1 + 1)).map (fun j => val r1 (c1 + j)))) ∧
  (c1 = c2 → d = .list ((List.range (r2 - r1 + 1)).map (fun i => val (r1 + i) c1))) ∧
  (r1 ≠ r2 → c1 ≠ c2 → IsBlock val r1 c1 r2 c2 d)

/-- The cells of a block of a sheet, row after row. -/
def blockCells (val : Nat → Nat → Doc) (r1 c1 r2 c2 : Nat) : List Doc :=
  (List.range (r2 - r1 + 1)).flatMap (fun i => (List.range (c2 - c1 + 1)).map (fun j => val (r1 + i) (c1 + j)))

/-- The parameters that `redim` is documented to have, in order. -/
def redimParams : List Str := ["scalar".toList, "cell".toList, "row".toList, "col".toList, "table".toList]

/-- The parameter for the shape of a rectangle: `scalar` for a single coordinate, or for nothing captured; else by the rows and columns it has. -/
inductive ShapeName : Option Coords → Option Coords → Str → Prop
  | scalar (st : Option Coords) : ShapeName st none "scalar".toList
  | cell (st nd : Coords) : nd.row = st.row → nd.col = st.col → ShapeName (some st) (some nd) "cell".toList
  | row (st nd : Coords) : nd.row = st.row → nd.col ≠ st.col → ShapeName (some st) (some nd) "row".toList
  | col (st nd : Coords) : nd.row ≠ st.row → nd.col = st.col → ShapeName (some st) (some nd) "col".toList
  | table (st nd : Coords) : nd.row ≠ st.row → nd.col ≠ st.col → ShapeName (some st) (some nd) "table".toList

/-- What is asked: nothing if it is missing or null; a number of dimensions (for a truth, as ever in *Python*, 1 or 0); or a pair of it, or null, and whether to transpose. -/
inductive DimMeans : Option Doc → Option NDim → Prop
  | missing : DimMeans none none
  | null : DimMeans (some .null) none
  | number (k : Int) : DimMeans (some (.int k)) (some (.int k))
  | yes : DimMeans (some (.bool true)) (some (.int 1))
  | no : DimMeans (some (.bool false)) (some (.int 0))
  | both (k : Int) (t : Bool) : DimMeans (some (.list [.int k, .bool t])) (some (.pair (some k) t))
  | turn (t : Bool) : DimMeans (some (.list [.null, .bool t])) (some (.pair none t))

end Spec
