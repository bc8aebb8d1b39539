import Verif.Model.SheetCache
import Verif.Spec.Capture
/-
Specification vocabulary for sheets that are asked many times.
-/
namespace Spec
open Py Model

/-- The contents of the sheet when the `n`-th event of a history comes. -/
def contentsAt (s : SheetContents) : List SheetEvent → Nat → SheetContents
  | _, 0 => s
  | [], _ + 1 => s
  | .change s' :: es, n + 1 => contentsAt s' es n
  | _ :: es, n + 1 => contentsAt s es n

/-- The corners of the smallest rectangle that has all full cells; the origin if there are none. -/
structure BoxOf (m : Mat) (lo hi : Coords) : Prop where
  bound : ∀ p, FullAt m p → lo.row ≤ p.row ∧ lo.col ≤ p.col ∧ p.row ≤ hi.row ∧ p.col ≤ hi.col
  attained : (∃ p, FullAt m p) → (∃ p, FullAt m p ∧ p.row = lo.row) ∧ (∃ p, FullAt m p ∧ p.col = lo.col) ∧
    (∃ p, FullAt m p ∧ p.row = hi.row) ∧ (∃ p, FullAt m p ∧ p.col = hi.col)
  empty : (∀ p, ¬ FullAt m p) → lo = ⟨0, 0⟩ ∧ hi = ⟨0, 0⟩

/-- Margins as a sheet has them: those that it reports, and others from its full cells. -/
def MarginsOf (reported : Option Coords × Option Coords) (m : Mat) (up dn : Coords) : Prop :=
  ∃ lo hi, BoxOf m lo hi ∧ up = reported.1.getD lo ∧ dn = reported.2.getD hi

end Spec
