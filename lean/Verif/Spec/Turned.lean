import Verif.Spec.Coords
import Verif.Spec.Capture
import Verif.Model.Lasso
/-
Specification vocabulary for turning a sheet over, so that its rows become its columns: what is
turned of cells, directions, references and rectangles.
-/
namespace Spec
open Py Model

/-- The sheet with rows and columns exchanged. -/
def turnSheet (m : Mat) : Mat := ⟨m.cols, m.rows, fun i j => m.cell j i⟩

/-- A cell of the turned sheet. -/
def turnCoords (p : Coords) : Coords := ⟨p.col, p.row⟩

/-- Left and up are exchanged, and so are right and down. -/
def turnDir : Dir → Dir
  | .L => .U
  | .U => .L
  | .R => .D
  | .D => .R

/-- A row text and a column text that say the same: the same symbol, the same number, or a number
and the letters of the column having that number. -/
inductive SamePlace : Str → Str → Prop
  | top : SamePlace "^".toList "^".toList
  | bottom : SamePlace "_".toList "_".toList
  | dot : SamePlace ".".toList ".".toList
  | number (s t : Str) (n : Int) : pyInt s = some n → pyInt t = some n → SamePlace s t
  | letters (s t : Str) : t ≠ [] → (∀ c ∈ t, isLetter c = true) → pyInt s = some (lettersNum t : Int) → SamePlace s t

/-- Two cells as written in references, one for each of the two sheets. -/
def TurnedCell (a b : Cell) : Prop := SamePlace a.row b.col ∧ SamePlace b.row a.col

/-- Two edges of references, one for each of the two sheets. -/
def TurnedEdge (e f : Edge) : Prop :=
  TurnedCell e.land f.land ∧ f.mov = e.mov.map (List.map turnDir) ∧ f.mod = e.mod

/-- Two second edges, which may be missing. -/
inductive TurnedSecond : Option Edge → Option Edge → Prop
  | none : TurnedSecond .none .none
  | some (e f : Edge) : TurnedEdge e f → TurnedSecond (.some e) (.some f)

/-- Expansions of the turned sheet. -/
def turnGroup (g : ExpGroup) : ExpGroup := ⟨g.dirs.map turnDir, g.times⟩

/-- What a capture gives for the turned sheet: the rectangle turned, or the same error. -/
def turnOutcome : Except PyErr (Coords × Option Coords) → Except PyErr (Coords × Option Coords)
  | .ok (p, q) => .ok (turnCoords p, q.map turnCoords)
  | .error e => .error e

/-- The second array has the rows of the first as columns. -/
structure TurnedArray (g g' : Grid) : Prop where
  rows : g'.rows = g.cols
  cols : g'.cols = g.rows
  val : ∀ i j, g'.val j i = g.val i j

/-- The second Excel sheet has the rows of the first as columns. -/
structure TurnedExcel (g g' : XlGrid) : Prop where
  rows : g'.rows = g.cols
  cols : g'.cols = g.rows
  cell : ∀ i j, g'.cell j i = g.cell i j

/-- The value in a row and column of a table. -/
def tableAt (t : List (List Doc)) (i j : Nat) : Option Doc := t[i]?.bind (fun row => row[j]?)

/-- What is captured, turned: the same cell; or a table having the rows of the first as columns. -/
inductive TurnedValues : Captured → Captured → Prop
  | scalar (v : Doc) : TurnedValues (.scalar v) (.scalar v)
  | table (t t' : List (List Doc)) : (∀ i j, tableAt t' j i = tableAt t i j) → (∀ row ∈ t, row.length = t'.length) →
      (∀ row ∈ t', row.length = t.length) → TurnedValues (.table t) (.table t')

/-- The outcomes of two lassos: values and rectangle of the second are those of the first, turned, or both fail
with the same error. -/
inductive TurnedLassos {S : Type} : Except PyErr (FRes S) → Except PyErr (FRes S) → Prop
  | values (l l' : Lasso S) (v v' : Captured) : l.values = v.toDoc → l'.values = v'.toDoc → TurnedValues v v' →
      l'.st = l.st.map turnCoords → l'.nd = l.nd.map turnCoords → TurnedLassos (.ok (.lasso l)) (.ok (.lasso l'))
  | error (e : PyErr) : TurnedLassos (.error e) (.error e)

end Spec
