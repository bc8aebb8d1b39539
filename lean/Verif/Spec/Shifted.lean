import Verif.Spec.Coords
import Verif.Spec.Capture
import Verif.Model.Lasso
/-
Specification vocabulary for moving what a sheet has down and to the right, as when empty rows are inserted above
it and empty columns before it: what is moved of cells, references and rectangles.
-/
namespace Spec
open Py Model

/-- A cell `a` rows further down and `b` columns further to the right. -/
def shift (a b : Nat) (p : Coords) : Coords := ⟨p.row + a, p.col + b⟩

/-- The second sheet has full cells exactly where the first has, `a` rows further down and `b` columns further to
the right.  How many empty rows and columns there are after the full cells does not matter. -/
def Shifted (a b : Nat) (m m' : Mat) : Prop := ∀ p, FullAt m' (shift a b p) ↔ FullAt m p

/-- The text of a row says this number. -/
def RowNumber (s : Str) (n : Int) : Prop := pyInt s = some n

/-- The text of a column says this number, in digits or in letters. -/
def ColNumber (s : Str) (n : Int) : Prop :=
  pyInt s = some n ∨ (s ≠ [] ∧ (∀ c ∈ s, isLetter c = true) ∧ n = (lettersNum s : Int))

/-- Two texts of a row, or of a column, one for each sheet: the same symbol, the same number counted from the end,
or a number and that number plus `a`. -/
inductive ShiftedPlace (Number : Str → Int → Prop) (a : Nat) : Str → Str → Prop
  | top : ShiftedPlace Number a "^".toList "^".toList
  | bottom : ShiftedPlace Number a "_".toList "_".toList
  | dot : ShiftedPlace Number a ".".toList ".".toList
  | back (s t : Str) (n : Int) : n < 0 → pyInt s = some n → pyInt t = some n → ShiftedPlace Number a s t
  | number (s t : Str) (n : Int) : 0 < n → Number s n → Number t (n + a) → ShiftedPlace Number a s t

/-- A text does not count back further than there are lines up to the margin. -/
def StaysIn (dn : Int) (s : Str) : Prop := ∀ n, pyInt s = some n → -(dn + 1) ≤ n

/-- Two edges of references, one for each of the two sheets: the moves and the modifier are the same. -/
structure ShiftedEdge (a b : Nat) (dn : Coords) (e f : Edge) : Prop where
  row : ShiftedPlace RowNumber a e.land.row f.land.row
  col : ShiftedPlace ColNumber b e.land.col f.land.col
  mov : f.mov = e.mov
  mod : f.mod = e.mod
  moves : ∀ ms, e.mov = some ms → ∃ d1 d2, Moves ms d1 d2
  rowIn : StaysIn dn.row e.land.row
  colIn : StaysIn dn.col e.land.col

/-- Two second edges, which may be missing. -/
inductive ShiftedSecond (a b : Nat) (dn : Coords) : Option Edge → Option Edge → Prop
  | none : ShiftedSecond a b dn .none .none
  | some (e f : Edge) : ShiftedEdge a b dn e f → ShiftedSecond a b dn (.some e) (.some f)

/-- What a capture gives for the second sheet: the rectangle moved, or the same error. -/
def shiftOutcome (a b : Nat) : Except PyErr (Coords × Option Coords) → Except PyErr (Coords × Option Coords)
  | .ok (p, q) => .ok (shift a b p, q.map (shift a b))
  | .error e => .error e

/-- The second array has what the first has, after `a` rows and `b` columns without values. -/
structure PaddedGrid (a b : Nat) (g g' : Grid) : Prop where
  rows : g'.rows = g.rows + a
  cols : g'.cols = g.cols + b
  same : ∀ i j, g'.val (i + a) (j + b) = g.val i j
  above : ∀ i j, i < a → g'.val i j = .null
  before : ∀ i j, j < b → g'.val i j = .null

/-- The second sheet of an Excel file has what the first has, after `a` rows and `b` columns of empty cells. -/
structure PaddedExcel (a b : Nat) (g g' : XlGrid) : Prop where
  rows : g'.rows = g.rows + a
  cols : g'.cols = g.cols + b
  same : ∀ i j, g'.cell (i + a) (j + b) = g.cell i j
  above : ∀ i j, i < a → g'.cell i j = .empty ∨ g'.cell i j = .blank
  before : ∀ i j, j < b → g'.cell i j = .empty ∨ g'.cell i j = .blank

/-- The outcomes of two lassos: the same values, from the rectangle moved, or the same error. -/
inductive ShiftedLassos {S : Type} (a b : Nat) : Except PyErr (FRes S) → Except PyErr (FRes S) → Prop
  | values (l l' : Lasso S) : l'.values = l.values → l'.st = l.st.map (shift a b) → l'.nd = l.nd.map (shift a b) →
      ShiftedLassos a b (.ok (.lasso l)) (.ok (.lasso l'))
  | error (e : PyErr) : ShiftedLassos a b (.error e) (.error e)

end Spec
