import Verif.Model.FrameMerge
/-
What tables hold, without the functions that merge them.
-/
namespace Spec
open Py Model

/-- A cell that is not missing. -/
def CellAt {V : Type} (t : Table V) (row col : Label) (v : V) : Prop :=
  ∃ (i : Nat) (cells : List (Option V)), t.rows[i]? = some row ∧ (col, cells) ∈ t.cols ∧ cells[i]? = some (some v)

/-- A table without repeated rows or columns, with a cell for each row in all columns. -/
structure WholeTable {V : Type} (t : Table V) : Prop where
  rows : t.rows.Nodup
  cols : (t.cols.map (·.1)).Nodup
  cells : ∀ c ∈ t.cols, c.2.length = t.rows.length

/-- The value is that of the last of the tables that have the cell. -/
inductive LastCell {V : Type} : List (Table V) → Label → Label → V → Prop
  | here (t ts row col v) : CellAt t row col v → (∀ u ∈ ts, ∀ w, ¬ CellAt u row col w) → LastCell (t :: ts) row col v
  | later (t ts row col v) : LastCell ts row col v → LastCell (t :: ts) row col v

end Spec
