import Verif.Model.Lasso
import Verif.Model.SeriesMerge
/-
Model of element-wise filters, `pandalone/xleash/_filter.py`, on the tables of *pandas*.
-/
namespace Model
open Py

/-- A table: a Series, or a DataFrame as its columns. The labels of a Series, and those of the columns of a
DataFrame, are distinct; those of the rows are in each of its columns. The types of the cells (`dtype`) are
left out: any value can be put in any cell. Cells are no tables themselves. -/
inductive Tabled
  | series (cells : List (Label × Doc))
  | frame (cols : List (Label × List (Label × Doc)))

/-- A loop over items with their numbers, each of them replaced, until one fails; `pandalone/xleash/_filter.py:339-343`. -/
def loopItems {σ α : Type} (f : Nat → σ → α → Except PyErr (α × σ)) (i : Nat) (s : σ) : List α → Except PyErr (List α × σ)
  | [] => .ok ([], s)
  | x :: xs => match f i s x with
    | .error e => .error e
    | .ok (y, s') => match loopItems f (i + 1) s' xs with
      | .error e => .error e
      | .ok (ys, s'') => .ok (y :: ys, s'')

section DiveTable
variable {σ : Type} (sel : Label → Bool) (depth : Option Int)
  (step : σ → Option Coords → Doc → Except PyErr (Option Doc × σ))

/-- The parameters for the values in the cells, where *pandas* is installed. -/
def cellCfg : DiveCfg := ⟨fun k => sel (.name k), depth, true⟩

/-- An item of a Series, `pandalone/xleash/_filter.py:341-343`: which of them are dived into is asked only where the Series is the whole
value, 272-280, and each is one row further down, 295-296. -/
def diveCell (cdepth : Nat) (bc : Option Coords) (i : Nat) (s : σ) (p : Label × Doc) : Except PyErr ((Label × Doc) × σ) :=
  if cdepth ≠ 0 || sel p.1 then
    match dive (cellCfg sel depth) step (cdepth + 1) (bc.map (fun c => ⟨c.row + i, c.col⟩)) s p.2 with
    | .error e => .error e
    | .ok (y, s') => .ok ((p.1, y), s')
  else .ok (p, s)

/-- `pandalone/xleash/_filter.py:331-348` `dive_indexed`, of a Series. -/
def diveSeries (cdepth : Nat) (bc : Option Coords) (s : σ) (cells : List (Label × Doc)) :
    Except PyErr (List (Label × Doc) × σ) :=
  if depth = some (cdepth : Int) then .ok (cells, s) else loopItems (diveCell sel depth step cdepth bc) 0 s cells

/-- A column of a DataFrame: each is one column further to the right, 293-294. -/
def diveCol (bc : Option Coords) (i : Nat) (s : σ) (p : Label × List (Label × Doc)) :
    Except PyErr ((Label × List (Label × Doc)) × σ) :=
  if sel p.1 then
    match diveSeries sel depth step 1 (bc.map (fun c => ⟨c.row, c.col + i⟩)) s p.2 with
    | .error e => .error e
    | .ok (cells', s') => .ok ((p.1, cells'), s')
  else .ok (p, s)

/-- `pandalone/xleash/_filter.py:331-348` `dive_indexed`, of a table that is the whole value. -/
def diveTabled (bc : Option Coords) (s : σ) : Tabled → Except PyErr (Tabled × σ)
  | .series cells => match diveSeries sel depth step 0 bc s cells with
    | .error e => .error e
    | .ok (cells', s') => .ok (.series cells', s')
  | .frame cols =>
    if depth = some 0 then .ok (.frame cols, s)
    else match loopItems (diveCol sel depth step bc) 0 s cols with
      | .error e => .error e
      | .ok (cols', s') => .ok (.frame cols', s')

end DiveTable

/-- `pandalone/xleash/_filter.py:207-353` `run_filter_elementwise` of a lasso whose values are a table: the values that it returns. The
values in `l` itself, that the element function is given, stand for the table. -/
def Ranger.elementwiseTable {S : Type} (R : Ranger S) (ef : EFun S) (filters : List Doc)
    (incl excl : Option (List Label)) (depth : Option Int) (l : Lasso S) (t : Tabled) : Except PyErr Tabled :=
  match parseSubs filters with
  | .error e => .error e
  | .ok subs =>
    match diveTabled (included incl excl) depth (R.callElement ef l) l.st subs t with
    | .error e => .error e
    | .ok (t', _) => .ok t'

end Model
