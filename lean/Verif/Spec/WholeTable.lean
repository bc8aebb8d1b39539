import Verif.Spec.Reference
/-
Specification vocabulary for contiguous tables: full cells that share sides, and the rectangle around them.
-/
namespace Spec
open Model Py

/-- From one full cell to another over full cells, each sharing a side with the one before. -/
inductive Linked (m : Mat) : Coords → Coords → Prop
  | here (p : Coords) : FullAt m p → Linked m p p
  | next (p q : Coords) (d : Dir) : Linked m p q → FullAt m (stepsFrom q d 1) → Linked m p (stepsFrom q d 1)

/-- A contiguous table with these first and last rows and columns: its full cells are all linked, each side of the
rectangle has one of them, and no line of cells around the rectangle has a full cell. The table may have empty
cells, and the rest of the sheet may hold other tables. -/
structure ContiguousTable (m : Mat) (r1 c1 r2 c2 : Nat) : Prop where
  linked : ∀ p q, FullAt m p → FullAt m q → InRect ⟨r1, r2, c1, c2⟩ p → InRect ⟨r1, r2, c1, c2⟩ q → Linked m p q
  top : ∃ j : Nat, c1 ≤ j ∧ j ≤ c2 ∧ FullAt m ⟨r1, j⟩
  bottom : ∃ j : Nat, c1 ≤ j ∧ j ≤ c2 ∧ FullAt m ⟨r2, j⟩
  left : ∃ i : Nat, r1 ≤ i ∧ i ≤ r2 ∧ FullAt m ⟨i, c1⟩
  right : ∃ i : Nat, r1 ≤ i ∧ i ≤ r2 ∧ FullAt m ⟨i, c2⟩
  alone : ∀ d, ¬ LineFull m ⟨r1, r2, c1, c2⟩ d

/-- One letter of a direction, or two of perpendicular ones, in any case. -/
inductive DirsText : Str → Dir → Option Dir → Prop
  | one (c : Char) (d : Dir) : letterDir c = some d → DirsText [c] d none
  | two (c c' : Char) (d e : Dir) : letterDir c = some d → letterDir c' = some e → Perp d e → DirsText [c, c'] d (some e)

/-- Letters of directions, in any case and order, repeated or not, each of the four being among them. -/
def AllDirections (x : Str) : Prop := (∀ c ∈ x, (letterDir c).isSome) ∧ ∀ d, ∃ c ∈ x, letterDir c = some d

end Spec
