import Verif.Model.Capture
/-
Model of the sheets of `pandalone/xleash/io/backend.py` (`ABCSheet`, `ArraySheet`) and
`pandalone/xleash/io/_xlrd.py` (`XlrdSheet`).
-/
namespace Model
open Py

/-- The array of an `ArraySheet`: a two-dimensional object array. `val` is used only inside. -/
structure Grid where
  rows : Nat
  cols : Nat
  val : Nat → Nat → Doc

/-- `pandalone/xleash/io/backend.py:451-454` `ArraySheet._read_states_matrix`: full wherever the
value is not `None`. -/
def Grid.states (g : Grid) : Except PyErr Mat :=
  if g.rows = 0 ∨ g.cols = 0 then .error .emptyCapture
  else .ok ⟨g.rows, g.cols, fun i j => match g.val i j with | .null => false | _ => true⟩

/-- What `read_rect` returns. -/
inductive Captured
  | scalar (v : Doc)
  | table (t : List (List Doc))

/-- Positions selected by the slice `a:b` of a sequence of length `n`. -/
def sliceIdx (n : Nat) (a b : Int) : List Nat :=
  (List.range n).filter (fun i => decide (sliceBound n a ≤ i ∧ i < sliceBound n b))

/-- `pandalone/xleash/io/backend.py:456-462` `ArraySheet.read_rect`. -/
def Grid.readRect (g : Grid) (st : Coords) (nd : Option Coords) : Except PyErr Captured :=
  if g.rows = 0 ∨ g.cols = 0 then .error .emptyCapture
  else match nd with
    | none =>
      match seqIndex g.rows st.row, seqIndex g.cols st.col with
      | some i, some j => .ok (.scalar (g.val i j))
      | _, _ => .error .lookupError
    | some nd => .ok (.table ((sliceIdx g.rows st.row (nd.row + 1)).map (fun i =>
        (sliceIdx g.cols st.col (nd.col + 1)).map (fun j => g.val i j))))

/-- A cell of an *xlrd* sheet, by its type. Numbers are floats: either integral or another (opaque)
one; dates are opaque. -/
inductive XlCell
  | empty
  | blank
  | text (s : Str)
  | intNum (n : Int)
  | fracNum (tag : Nat)
  | date (tag : Nat)
  | boolean (b : Bool)
  | error

/-- An *xlrd* sheet (rectangular: `ragged_rows` is off). -/
structure XlGrid where
  rows : Nat
  cols : Nat
  cell : Nat → Nat → XlCell

/-- `pandalone/xleash/io/_xlrd.py:48-120` `_parse_cell`; `dateOf` stands for the conversion of dates by
*xlrd*, `nan` for `float('nan')`. -/
def parseCell (dateOf : Nat → Doc) (nan : Doc) : XlCell → Doc
  | .intNum n => .int n
  | .fracNum t => .atom t
  | .empty => .null
  | .blank => .null
  | .text s => .str s
  | .boolean b => .bool b
  | .date t => dateOf t
  | .error => nan

/-- `pandalone/xleash/io/_xlrd.py:179`: the cell types counted as full. -/
def XlCell.full : XlCell → Bool
  | .empty => false
  | .blank => false
  | _ => true

/-- `pandalone/xleash/io/_xlrd.py:176-179` `XlrdSheet._read_states_matrix`. -/
def XlGrid.states (g : XlGrid) : Mat := ⟨g.rows, g.cols, fun i j => (g.cell i j).full⟩

/-- `pandalone/xleash/io/_xlrd.py:181-186` `XlrdSheet._read_margin_coords`: only the lower margin. -/
def XlGrid.dnMargin (g : XlGrid) : Except PyErr Coords :=
  if g.rows = 0 ∨ g.cols = 0 then .error .emptyCapture
  else .ok ⟨(g.rows : Int) - 1, (g.cols : Int) - 1⟩

/-- `range(a, b)`. -/
def pyRange (a b : Int) : List Int := (List.range (b - a).toNat).map (fun k => a + (k : Nat))

/-- `pandalone/xleash/io/_xlrd.py:203-210` one element of the table. -/
def XlGrid.elem (g : XlGrid) (dateOf : Nat → Doc) (nan : Doc) (r c : Int) : Doc :=
  match seqIndex g.rows r, seqIndex g.cols c with
  | some i, some j => if g.states.cell i j then parseCell dateOf nan (g.cell i j) else .null
  | _, _ => .null

/-- `pandalone/xleash/io/_xlrd.py:188-212` `XlrdSheet.read_rect`. -/
def XlGrid.readRect (g : XlGrid) (dateOf : Nat → Doc) (nan : Doc) (st : Coords) (nd : Option Coords) :
    Except PyErr Captured :=
  match nd with
  | none =>
    match seqIndex g.rows st.row, seqIndex g.cols st.col with
    | some i, some j => .ok (.scalar (parseCell dateOf nan (g.cell i j)))
    | _, _ => .error .lookupError
  | some nd => .ok (.table ((pyRange st.row (nd.row + 1)).map (fun r =>
      (pyRange st.col (nd.col + 1)).map (fun c => g.elem dateOf nan r c))))

/-- `pandalone/xleash/io/backend.py:411-428` `ABCSheet.get_margin_coords`, from the margins that the
backend reports, if any (a `Coords` tuple is always true, so `up or up1` is up unless `None`). -/
def getMargins (reported : Option Coords × Option Coords) (m : Mat) : Coords × Coords :=
  match reported with
  | (some up, some dn) => (up, dn)
  | (up, dn) => (up.getD (marginCoords m).1, dn.getD (marginCoords m).2)

end Model
