import Verif.Model.DiveFrame
import Verif.Spec.Lasso
/-
Specification vocabulary for element-wise filters on tables.
-/
namespace Spec
open Py Model

/-- The value in a row and a column of a table, counted from 0; a Series has one column. -/
inductive TabledAt : Tabled → Nat → Nat → Doc → Prop
  | series (cells i k x) : cells[i]? = some (k, x) → TabledAt (.series cells) i 0 x
  | frame (cols i j c cells k x) : cols[j]? = some (c, cells) → cells[i]? = some (k, x) → TabledAt (.frame cols) i j x

/-- The label by which cells are selected: of the cell in a Series, of its column in a DataFrame. -/
inductive CellLabel : Tabled → Nat → Nat → Label → Prop
  | series (cells i k x) : cells[i]? = some (k, x) → CellLabel (.series cells) i 0 k
  | frame (cols i j c cells) : cols[j]? = some (c, cells) → CellLabel (.frame cols) i j c

/-- How deep the cells of a table are. -/
def cellDepth : Tabled → Nat
  | .series _ => 1
  | .frame _ => 2

/-- The same labels in the same order. -/
def SameLabels : Tabled → Tabled → Prop
  | .series a, .series b => a.map (·.1) = b.map (·.1)
  | .frame a, .frame b => a.map (fun c => (c.1, c.2.map (·.1))) = b.map (fun c => (c.1, c.2.map (·.1)))
  | _, _ => False

/-- The element function is asked, at position `b`, about `z`, which is at path `p` inside the cell in row `i` and column `j` of a table:
the label is selected, the depth limit is not met on the way, and the cell itself is asked about at the position `i` rows below and `j`
columns to the right of the capture's. -/
def AskedIn (sel : Label → Prop) (depth : Option Int) (ask : Option Coords → Doc → Option Doc) (st : Option Coords) (t : Tabled)
    (i j : Nat) (p : List VStep) (z : Doc) (b : Option Coords) : Prop :=
  ∃ k x, CellLabel t i j k ∧ TabledAt t i j x ∧ sel k ∧ (∀ n < cellDepth t, depth ≠ some (n : Int)) ∧
    Reached (fun k => sel (.name k)) (depth.map (· - (cellDepth t : Int))) true ask x
      (st.map (fun c => ⟨c.row + i, c.col + j⟩)) p z b

/-- A table of captured rows, but for the first `h` of them, that make its header. -/
def ReadAfter (h : Nat) (data : List (List Doc)) (t : Tabled) : Prop :=
  ∀ i j x, TabledAt t i j x ↔ ∃ row, data[h + i]? = some row ∧ row[j]? = some x

end Spec
