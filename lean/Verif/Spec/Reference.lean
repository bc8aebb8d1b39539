import Verif.Spec.Xlref
import Verif.Spec.ExpMoves
import Verif.Spec.Capture
/-
Specification vocabulary for what a written reference means, and for tables on a sheet.
-/
namespace Spec
open Py Model

/-- The directions written, in any case. -/
def dirsMeant (s : Str) : List Dir := s.filterMap letterDir

/-- The edge written: the cell (letters in capitals), the moves and the modifier. -/
def EdgeText.meant (e : EdgeText) : Edge :=
  ⟨⟨upper e.cell.row, upper e.cell.col⟩, e.mov.map (fun p => dirsMeant p.1), e.mov.bind (fun p => p.2)⟩

/-- The edge `^^` or `__`. -/
def cornerEdge (c : Char) : Edge := ⟨⟨[c], [c]⟩, none, none⟩

/-- The first edge meant: `^^` when not written. -/
def RefText.first (r : RefText) : Edge :=
  match r.st with
  | some e => e.meant
  | none => cornerEdge '^'

/-- The second edge meant: none after a lone first edge, and `__` when not written otherwise. -/
def RefText.second (r : RefText) : Option Edge :=
  match r.st, r.range with
  | some _, none => none
  | _, some (some e, _) => some e.meant
  | _, _ => some (cornerEdge '_')

/-- The expansion written is these items. -/
def RefText.Expands (r : RefText) (items : List ExpItem) : Prop :=
  match r.range.bind (fun p => p.2) with
  | none => items = []
  | some x => (∀ it ∈ items, it.Ok) ∧ NoAdjRuns items ∧ expString items = x

/-- No curly double quotes. -/
def NoCurly (s : Str) : Prop := '“' ∉ s ∧ '”' ∉ s

/-- The full cells are exactly those of the rectangle with these first and last rows and columns. -/
def OneTable (m : Mat) (r1 c1 r2 c2 : Nat) : Prop :=
  r1 ≤ r2 ∧ c1 ≤ c2 ∧ ∀ i j : Nat, FullAt m ⟨i, j⟩ ↔ (r1 ≤ i ∧ i ≤ r2 ∧ c1 ≤ j ∧ j ≤ c2)

/-- The smallest rectangle around all full cells. -/
def BoundingBox (m : Mat) (r1 c1 r2 c2 : Nat) : Prop :=
  (∀ i j : Nat, FullAt m ⟨i, j⟩ → r1 ≤ i ∧ i ≤ r2 ∧ c1 ≤ j ∧ j ≤ c2) ∧
  (∃ j : Nat, FullAt m ⟨r1, j⟩) ∧ (∃ j : Nat, FullAt m ⟨r2, j⟩) ∧
  (∃ i : Nat, FullAt m ⟨i, c1⟩) ∧ (∃ i : Nat, FullAt m ⟨i, c2⟩)

/-- The values are the block of a sheet between these rows and columns, row by row. -/
def IsBlock (val : Nat → Nat → Doc) (r1 c1 r2 c2 : Nat) (d : Doc) : Prop :=
  ∃ t : List (List Doc), d = .list (t.map .list) ∧ t.length = r2 - r1 + 1 ∧ (∀ row ∈ t, row.length = c2 - c1 + 1) ∧
    ∀ i j, i ≤ r2 - r1 → j ≤ c2 - c1 → (t[i]?.bind (·[j]?)) = some (val (r1 + i) (c1 + j))

end Spec
