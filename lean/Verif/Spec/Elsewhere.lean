import Verif.Spec.Shifted
/-
The cells that a capture looks at.
-/
namespace Spec
open Py Model

/-- A row or column, counted from zero, that a text names: by a number, by letters, or by a dot for that of the base
cell, whatever the sheet has; or, where the first and the last one with full cells are known, by `^`, by `_`, or by a
number counted backwards from the last one, if it is not before the first of the sheet. -/
inductive PlaceIs (Number : Str → Int → Prop) (ends : Option (Int × Int)) (base : Option Int) : Str → Int → Prop
  | dot (b) : base = some b → PlaceIs Number ends base ".".toList b
  | number (s n) : 0 < n → Number s n → PlaceIs Number ends base s (n - 1)
  | upper (u d) : ends = some (u, d) → PlaceIs Number ends base "^".toList u
  | lower (u d) : ends = some (u, d) → PlaceIs Number ends base "_".toList d
  | fromEnd (s n u d) : ends = some (u, d) → n < 0 → 0 ≤ d + n + 1 → Number s n → PlaceIs Number ends base s (d + n + 1)

/-- The cell where an edge lands, before its moves, by the margins of the sheet if they are known. -/
structure Lands (e : Edge) (margins : Option (Coords × Coords)) (base : Option Coords) (l : Coords) : Prop where
  row : PlaceIs RowNumber (margins.map (fun p => (p.1.row, p.2.row))) (base.map (·.row)) e.land.row l.row
  col : PlaceIs ColNumber (margins.map (fun p => (p.1.col, p.2.col))) (base.map (·.col)) e.land.col l.col

/-- The cells seen by moves from a landing cell: that cell; those visited as long as none before was full; and, if the
moves are to go on from a full cell, those up to the first empty one from there. -/
inductive Seen (m : Mat) (ms : List Dir) (goOn : Prop) (l : Coords) : Coords → Prop
  | landing : Seen m ms goOn l l
  | walked (d1 d2 k2 k1) : Moves ms d1 d2 →
      (∀ j2 j1, (j2 < k2 ∨ (j2 = k2 ∧ j1 < k1)) → ¬ FullAt m (visited l d1 d2 j2 j1)) → Seen m ms goOn l (visited l d1 d2 k2 k1)
  | run (d k) : goOn → d ∈ ms → (∀ i, i < k → FullAt m (stepsFrom l d i)) → Seen m ms goOn l (stepsFrom l d k)

/-- The cell where moves from a landing cell end: there if there are none, or if the cell is full and they are not to go
on from there; at the ends of the runs of full cells if they are; or at the first full cell. -/
inductive EndsAt (m : Mat) (goOn : Prop) (l : Coords) : Option (List Dir) → Coords → Prop
  | unmoved : EndsAt m goOn l none l
  | stays (ms) : FullAt m l → ¬ goOn → EndsAt m goOn l (some ms) l
  | first (ms d1 d2 t) : ¬ FullAt m l → Moves ms d1 d2 → FirstFull m l d1 d2 t → EndsAt m goOn l (some ms) t
  | run (d k) : goOn → RunEnds m l d k → EndsAt m goOn l (some [d]) (stepsFrom l d k)
  | runs (d e k n) : goOn → RunEnds m l d k → RunEnds m l e n → EndsAt m goOn l (some [d, e]) (stepsFrom (stepsFrom l d k) e n)

/-- The moves of a first edge go on from a full cell. -/
def FirstGoesOn (e : Edge) : Prop := e.mod = some '+'

/-- The moves of a second edge go on from a full cell. -/
def SecondGoesOn (e : Edge) : Prop := e.mod = some '+' ∨ (e.land = ⟨".".toList, ".".toList⟩ ∧ e.mod ≠ some '?')

/-- The cell is in the rectangle, or next to one of its sides. -/
def Around (r : Rect) (p : Coords) : Prop := InRect r p ∨ ∃ d, AdjLine r d p

/-- The cells that the edges of a reference look at. -/
inductive EdgesSee (m : Mat) (first : Edge) (second : Option Edge) (margins : Option (Coords × Coords)) (base : Option Coords) : Coords → Prop
  | first (l ms p) : Lands first margins base l → first.mov = some ms → Seen m ms (FirstGoesOn first) l p → EdgesSee m first second margins base p
  | second (l t e l2 ms p) : Lands first margins base l → EndsAt m (FirstGoesOn first) l first.mov t → second = some e → Lands e margins (some t) l2 →
      e.mov = some ms → Seen m ms (SecondGoesOn e) l2 p → EdgesSee m first second margins base p

/-- The outcome of a lasso, with the rectangle that was captured: from a cell to another, or one cell. -/
def CapturedFrom {S : Type} (o : Except PyErr (FRes S)) (st : Coords) (nd : Option Coords) : Prop :=
  ∃ l : Lasso S, o = .ok (.lasso l) ∧ l.st = some st ∧ l.nd = nd

/-- Two sheets have the same size, or what was captured lies within both. -/
def SameSizeOrWithin {S : Type} (rows cols rows' cols' : Nat) (o : Except PyErr (FRes S)) : Prop :=
  (rows' = rows ∧ cols' = cols) ∨
    ∃ st nd, CapturedFrom o st nd ∧ ((nd.getD st).row < rows ∧ (nd.getD st).row < rows') ∧ ((nd.getD st).col < cols ∧ (nd.getD st).col < cols')

/-- The outcomes of two lassos: the same values from the same rectangle, or the same error. -/
inductive SameLassos {S : Type} : Except PyErr (FRes S) → Except PyErr (FRes S) → Prop
  | values (l l' : Lasso S) : l'.values = l.values → l'.st = l.st → l'.nd = l.nd → SameLassos (.ok (.lasso l)) (.ok (.lasso l'))
  | error (e : PyErr) : SameLassos (.error e) (.error e)

end Spec
