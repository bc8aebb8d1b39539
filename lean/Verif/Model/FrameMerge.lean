import Verif.Model.SeriesMerge
/-
Model of merging submodels that are *pandas* DataFrames, `pandalone/pandata.py`.
-/
namespace Model
open Py

/-- A DataFrame: the labels of its rows and its columns, with a cell for every row. Missing cells (`None`, `NaN`) are `none`. The types
of columns are left out. -/
structure Table (V : Type) where
  rows : List Label
  cols : List (Label × List (Option V))

/-- `pd.DataFrame()` -/
def Table.empty {V : Type} : Table V := ⟨[], []⟩

/-- The cells of a column in the order of other rows, as `reindex` of *pandas* puts them: missing for rows that are not there. Repeated
labels, for which it raises an error, are left out. -/
def Table.aligned {V : Type} (t : Table V) (cells : List (Option V)) (rows : List Label) : List (Option V) :=
  rows.map (fun r => (dget (t.rows.zip cells) r).getD none)

/-- A cell that is updated, if the other one is not missing. -/
def updateCell {V : Type} (this that : Option V) : Option V :=
  match that with
  | some v => some v
  | none => this

/-- A column of `a` updated with that of `b`. -/
def Table.updated {V : Type} (a b : Table V) (c : Label) (cells : List (Option V)) : List (Option V) :=
  match dget b.cols c with
  | none => cells
  | some others => List.zipWith updateCell cells (b.aligned others a.rows)

/-- `a.update(b)`, `pandalone/pandata.py:886`: the cells of `b` that are not missing are put into the rows and columns of `a`. -/
def Table.update {V : Type} (a b : Table V) : Table V := ⟨a.rows, a.cols.map (fun c => (c.1, a.updated b c.1 c.2))⟩

/-- `a[c] = b[c]` for a column `c` that is not in `a`, as *pandas* does it: the cells are put into the rows of `a`, unless `a` has no
rows, when it gets those of `b`. -/
def Table.setColumn {V : Type} (a b : Table V) (c : Label) : Table V :=
  match dget b.cols c with
  | none => a
  | some cells =>
    if a.rows = [] then ⟨b.rows, a.cols.map (fun d => (d.1, b.rows.map (fun _ => none))) ++ [(c, cells)]⟩
    else ⟨a.rows, a.cols ++ [(c, b.aligned cells a.rows)]⟩

/-- `a[extra_b_items] = b[extra_b_items]`, `pandalone/pandata.py:888`: column by column. -/
def Table.setColumns {V : Type} (a b : Table V) : List Label → Table V
  | [] => a
  | c :: cs => (a.setColumn b c).setColumns b cs

/-- `Pandel._clone_and_merge_submodels`, `pandalone/pandata.py:882-888`, for two DataFrames. `order` is how a set of labels is made a
list. -/
def Table.merge {V : Type} (order : List Label → List Label) (a b : Table V) : Table V :=
  (a.update b).setColumns b (order ((dkeys b.cols).filter (fun c => !(dkeys a.cols).contains c)))

/-- `pd.DataFrame() if a is None else pd.DataFrame(a)`, `pandalone/pandata.py:883-884` -/
def Table.orEmpty {V : Type} : Option (Table V) → Table V
  | none => .empty
  | some t => t

/-- The loop of `Pandel._merge`, `pandalone/pandata.py:948-949`, for DataFrames. -/
def Table.mergeAll {V : Type} (order : List Label → List Label) (model : Option (Table V)) : List (Table V) → Option (Table V)
  | [] => model
  | t :: ts => Table.mergeAll order (some ((Table.orEmpty model).merge order t)) ts

end Model
