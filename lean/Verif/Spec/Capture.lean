import Verif.Model.Capture
/-
Specification vocabulary for targeting and expanding: the sheet as an unbounded grid in which
nothing outside the matrix is full.  Only the data types of the model are used.
-/
namespace Spec
open Model

/-- The grid cell at these coordinates is full. -/
def FullAt (m : Mat) (p : Coords) : Prop :=
  ∃ i j : Nat, p = ⟨i, j⟩ ∧ i < m.rows ∧ j < m.cols ∧ m.cell i j = true

/-- One step up, down, left or right. -/
def unit : Dir → Int × Int
  | .L => (0, -1)
  | .R => (0, 1)
  | .U => (-1, 0)
  | .D => (1, 0)

/-- `k` steps from `p`. -/
def stepsFrom (p : Coords) (d : Dir) (k : Nat) : Coords :=
  ⟨p.row + k * (unit d).1, p.col + k * (unit d).2⟩

/-- One direction is horizontal, the other vertical. -/
def Perp (d e : Dir) : Prop := (unit d).1 * (unit e).1 = 0 ∧ (unit d).2 * (unit e).2 = 0

instance (d e : Dir) : Decidable (Perp d e) := by unfold Perp; exact inferInstance

/-- The moves a reference can ask for: one direction, or two perpendicular ones. -/
inductive Moves : List Dir → Dir → Option Dir → Prop
  | one (d) : Moves [d] d none
  | two (d e) : Perp d e → Moves [d, e] d (some e)

/-- The cell visited at position `k1` of line `k2`: lines are visited along the second direction,
and each is walked along the first. -/
def visited (land : Coords) (d1 : Dir) (d2 : Option Dir) (k2 k1 : Nat) : Coords :=
  match d2 with
  | none => stepsFrom land d1 k1
  | some d2 => stepsFrom (stepsFrom land d2 k2) d1 k1

/-- `t` is the first full cell visited. -/
def FirstFull (m : Mat) (land : Coords) (d1 : Dir) (d2 : Option Dir) (t : Coords) : Prop :=
  ∃ k2 k1, t = visited land d1 d2 k2 k1 ∧ FullAt m t ∧
    ∀ j2 j1, (j2 < k2 ∨ (j2 = k2 ∧ j1 < k1)) → ¬ FullAt m (visited land d1 d2 j2 j1)

/-- No cell visited is full. -/
def NoneFull (m : Mat) (land : Coords) (d1 : Dir) (d2 : Option Dir) : Prop :=
  ∀ k2 k1, ¬ FullAt m (visited land d1 d2 k2 k1)

/-- Margins lie inside the matrix and every full cell lies inside the margins. -/
def MarginOf (m : Mat) (dn : Coords) : Prop :=
  0 ≤ dn.row ∧ dn.row < m.rows ∧ 0 ≤ dn.col ∧ dn.col < m.cols ∧
    ∀ p, FullAt m p → p.row ≤ dn.row ∧ p.col ≤ dn.col

/-- The run of full cells from `p` in direction `d` ends `k` steps away. -/
def RunEnds (m : Mat) (p : Coords) (d : Dir) (k : Nat) : Prop :=
  (∀ i, i ≤ k → FullAt m (stepsFrom p d i)) ∧ ¬ FullAt m (stepsFrom p d (k + 1))

/-- The cell belongs to the rectangle. -/
def InRect (r : Rect) (p : Coords) : Prop :=
  r.r1 ≤ p.row ∧ p.row ≤ r.r2 ∧ r.c1 ≤ p.col ∧ p.col ≤ r.c2

/-- Rectangle inclusion, by its sides. -/
def Within (a b : Rect) : Prop := b.r1 ≤ a.r1 ∧ a.r2 ≤ b.r2 ∧ b.c1 ≤ a.c1 ∧ a.c2 ≤ b.c2

/-- The line of cells adjacent to the rectangle in direction `d`. -/
def AdjLine (r : Rect) (d : Dir) (p : Coords) : Prop :=
  match d with
  | .L => p.col = r.c1 - 1 ∧ r.r1 ≤ p.row ∧ p.row ≤ r.r2
  | .R => p.col = r.c2 + 1 ∧ r.r1 ≤ p.row ∧ p.row ≤ r.r2
  | .U => p.row = r.r1 - 1 ∧ r.c1 ≤ p.col ∧ p.col ≤ r.c2
  | .D => p.row = r.r2 + 1 ∧ r.c1 ≤ p.col ∧ p.col ≤ r.c2

/-- The line adjacent to the rectangle in direction `d` has a full cell. -/
def LineFull (m : Mat) (r : Rect) (d : Dir) : Prop := ∃ p, AdjLine r d p ∧ FullAt m p

/-- No line adjacent in the given directions has a full cell. -/
def Closed (m : Mat) (dirs : List Dir) (r : Rect) : Prop := ∀ d ∈ dirs, ¬ LineFull m r d

/-- The rectangle with the adjacent lines of the given multiplicities added on each side. -/
def widen (r : Rect) (n : Dir → Nat) : Rect :=
  ⟨r.r1 - n .U, r.r2 + n .D, r.c1 - n .L, r.c2 + n .R⟩

/-- `Grown m r ds r'`: `r'` comes from `r` by adding adjacent lines one at a time, in the
directions `ds`, each having a full cell at its time. -/
inductive Grown (m : Mat) : Rect → List Dir → Rect → Prop
  | refl (r) : Grown m r [] r
  | step (r ds r' d) : Grown m r ds r' → LineFull m r' d →
      Grown m r (ds ++ [d]) (widen r' (fun e => if e = d then 1 else 0))

/-- One round of moves, described without saying how: each direction in turn adds its adjacent line
if that line has a full cell, and nothing otherwise. -/
inductive Round (m : Mat) : List Dir → Rect → Rect → Prop
  | done (r) : Round m [] r r
  | skip (d ds r r') : ¬ LineFull m r d → Round m ds r r' → Round m (d :: ds) r r'
  | take (d ds r r') : LineFull m r d → Round m ds (widen r (fun e => if e = d then 1 else 0)) r' →
      Round m (d :: ds) r r'

/-- Exactly `n` rounds one after the other. -/
inductive Rounds (m : Mat) (dirs : List Dir) : Nat → Rect → Rect → Prop
  | zero (r) : Rounds m dirs 0 r r
  | succ (n r r' r'') : Round m dirs r r' → Rounds m dirs n r' r'' → Rounds m dirs (n + 1) r r''

/-- The rectangle between two corners given in any order. -/
def between (a b : Coords) : Rect :=
  ⟨if a.row ≤ b.row then a.row else b.row, if a.row ≤ b.row then b.row else a.row,
   if a.col ≤ b.col then a.col else b.col, if a.col ≤ b.col then b.col else a.col⟩

/-- The corners of a rectangle. -/
def corners (r : Rect) : Coords × Coords := (⟨r.r1, r.c1⟩, ⟨r.r2, r.c2⟩)

/-- The rectangle is ordered and in the non-negative quadrant. -/
def WellRect (r : Rect) : Prop := 0 ≤ r.r1 ∧ r.r1 ≤ r.r2 ∧ 0 ≤ r.c1 ∧ r.c1 ≤ r.c2

end Spec
