import Verif.Model.Pandel
/-
Model of merging submodels that are, or have, *pandas* Series, `pandalone/pandata.py`.
-/
namespace Model
open Py

/-- A label of a Series: a text, or a position. -/
inductive Label
  | name (s : Str)
  | pos (n : Nat)
  deriving DecidableEq, Repr

/-- Submodels: documents that may have Series. A missing cell of a Series (`None`, `NaN`) is `null`. The type of the cells of a Series
(`dtype`), and what it does to numbers, is left out. DataFrames are not modelled. -/
inductive Tree
  | null
  | bool (b : Bool)
  | int (i : Int)
  | atom (tag : Nat)
  | str (s : Str)
  | list (xs : List Tree)
  | dict (kvs : List (Str × Tree))
  | series (cells : List (Label × Tree))

/-- The cells of a list, labelled from `n` on. -/
def labelFrom (n : Nat) : List Tree → List (Label × Tree)
  | [] => []
  | x :: xs => (.pos n, x) :: labelFrom (n + 1) xs

/-- `pd.Series() if a is None else pd.Series(a)`, `pandalone/pandata.py:891-892`: of a dictionary, its keys are labels; of a list, the
positions; a scalar is one cell at position 0. -/
def Tree.toSeries : Tree → List (Label × Tree)
  | .null => []
  | .series s => s
  | .dict kvs => kvs.map (fun p => (.name p.1, p.2))
  | .list xs => labelFrom 0 xs
  | .bool b => [(.pos 0, .bool b)]
  | .int i => [(.pos 0, .int i)]
  | .atom t => [(.pos 0, .atom t)]
  | .str s => [(.pos 0, .str s)]

/-- Whether a cell is missing. -/
def Tree.isNull : Tree → Bool
  | .null => true
  | _ => false

/-- `b.combine_first(a)` of *pandas*, `pandalone/pandata.py:894`. The order of the labels, which are sorted if they can be, is left out. -/
def combineFirst (b a : List (Label × Tree)) : List (Label × Tree) :=
  b.map (fun p => (p.1, if p.2.isNull then (dget a p.1).getD .null else p.2)) ++
    a.filter (fun p => !(dkeys b).contains p.1)

/-- Whether a Series. -/
def Tree.isSeries : Tree → Bool
  | .series _ => true
  | _ => false

/-- `pandalone/pandata.py:890-894`: two values of which at least one is a Series. -/
def mergeSeries (a b : Tree) : Tree := .series (combineFirst b.toSeries a.toSeries)

mutual
/-- `Pandel._clone_and_merge_submodels(x, None)`, see `cloneDoc`. -/
def cloneTree : Tree → Except PyErr Tree
  | .null => .error .validationError
  | .bool b => .ok (.bool b)
  | .int i => .ok (.int i)
  | .atom t => .ok (.atom t)
  | .str s => .ok (.str s)
  | .dict kvs => .ok (.dict kvs)
  | .series s => .ok (mergeSeries (.series s) .null)
  | .list xs => match cloneTrees xs with
    | .error e => .error e
    | .ok ys => .ok (.list ys)
/-- The loop over the items of a list, `pandalone/pandata.py:916-922`. -/
def cloneTrees : List Tree → Except PyErr (List Tree)
  | [] => .ok []
  | x :: xs => match cloneTree x with
    | .error e => .error e
    | .ok y => match cloneTrees xs with
      | .error e => .error e
      | .ok ys => .ok (y :: ys)
end

/-- `{} if a is None else {**a}`, `pandalone/pandata.py:897-898`, see `dictOrEmpty`. -/
def Tree.dictOrEmpty : Tree → Except PyErr (List (Str × Tree))
  | .null => .ok []
  | .dict kvs => .ok kvs
  | _ => .error .typeError

mutual
/-- `Pandel._clone_and_merge_submodels(a, b)`, `pandalone/pandata.py:879-932`, by what `b` is, see `mergeDoc`. -/
def mergeTree (a : Tree) : Tree → Except PyErr Tree
  | .series s => .ok (mergeSeries a (.series s))
  | .null => cloneTree a
  | .dict bs =>
    if a.isSeries then .ok (mergeSeries a (.dict bs))
    else match a.dictOrEmpty with
      | .error e => .error e
      | .ok as => match mergeTrees as bs with
        | .error e => .error e
        | .ok cs => .ok (.dict cs)
  | .list ys => match a with
    | .series s => .ok (mergeSeries (.series s) (.list ys))
    | .dict _ => .error .typeError
    | _ => match cloneTrees ys with
      | .error e => .error e
      | .ok zs => .ok (.list zs)
  | .str s => match a with
    | .series t => .ok (mergeSeries (.series t) (.str s))
    | .dict _ => .error .typeError
    | .list _ => .ok (.list (s.map (fun c => .str [c])))
    | _ => .ok (.str s)
  | .bool x => scalarTree a (.bool x)
  | .int x => scalarTree a (.int x)
  | .atom x => scalarTree a (.atom x)
/-- The loop `for key in b`, `pandalone/pandata.py:900-908`. -/
def mergeTrees (as : List (Str × Tree)) : List (Str × Tree) → Except PyErr (List (Str × Tree))
  | [] => .ok as
  | (key, bval) :: t =>
    let val : Except PyErr Tree := match dget as key with
      | some aval => mergeTree aval bval
      | none => .ok bval
    match val with
    | .error e => .error e
    | .ok v => mergeTrees (dset as key v) t
/-- A scalar over `a`, see `mergeScalar`. -/
def scalarTree (a b : Tree) : Except PyErr Tree :=
  match a with
  | .series s => .ok (mergeSeries (.series s) b)
  | .dict _ => .error .typeError
  | .list _ => .error .typeError
  | _ => .ok b
end

/-- The loop of `Pandel._merge`, `pandalone/pandata.py:948-949`, when nothing is raised. -/
def mergeTreesAll (model : Tree) : List Tree → Except PyErr Tree
  | [] => .ok model
  | d :: ds => match mergeTree model d with
    | .error e => .error e
    | .ok m => mergeTreesAll m ds

mutual
/-- A document as a submodel without Series. -/
def Tree.ofDoc : Doc → Tree
  | .null => .null
  | .bool b => .bool b
  | .int i => .int i
  | .atom t => .atom t
  | .str s => .str s
  | .list xs => .list (Tree.ofDocs xs)
  | .dict kvs => .dict (Tree.ofItems kvs)
/-- The items of a list. -/
def Tree.ofDocs : List Doc → List Tree
  | [] => []
  | x :: xs => Tree.ofDoc x :: Tree.ofDocs xs
/-- The items of a dictionary. -/
def Tree.ofItems : List (Str × Doc) → List (Str × Tree)
  | [] => []
  | (k, v) :: t => (k, Tree.ofDoc v) :: Tree.ofItems t
end

end Model
