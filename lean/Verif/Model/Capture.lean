import Verif.Model.Basic
/-
Model of `pandalone/xleash/_capture.py` (targeting and expansion) and of
`margin_coords_from_states_matrix` of `pandalone/xleash/io/backend.py`.
-/
namespace Model
open Py

/-- `pandalone/xleash/__init__.py` `Coords`: resolved, zero-based coordinates. -/
structure Coords where
  row : Int
  col : Int
  deriving DecidableEq, Repr

/-- A states-matrix: a two-dimensional boolean numpy array with at least one row and column in
every use below (an empty sheet raises `EmptyCaptureException` before any of this).
`cell` is used only for positions inside the matrix. -/
structure Mat where
  rows : Nat
  cols : Nat
  cell : Nat → Nat → Bool

/-- Primitive directions. -/
inductive Dir
  | L | U | R | D
  deriving DecidableEq, Repr

/-- `pandalone/xleash/_capture.py:45-50` `_primitive_dir_vectors`. -/
def Dir.vec : Dir → Coords
  | .L => ⟨0, -1⟩
  | .U => ⟨-1, 0⟩
  | .R => ⟨0, 1⟩
  | .D => ⟨1, 0⟩

/-- numpy `states_matrix[r, c]`: negative indexes count from the end; `none` is `IndexError`. -/
def Mat.at? (m : Mat) (r c : Int) : Option Bool :=
  match seqIndex m.rows r, seqIndex m.cols c with
  | some i, some j => some (m.cell i j)
  | _, _ => none

/-- A bound of a Python slice over a sequence of length `n`. -/
def sliceBound (n : Nat) (k : Int) : Nat :=
  if k < 0 then (k + n).toNat else min k.toNat n

/-- One row of the matrix as a vector. -/
def Mat.rowVec (m : Mat) (i : Nat) : List Bool := (List.range m.cols).map (fun j => m.cell i j)
/-- One column of the matrix as a vector. -/
def Mat.colVec (m : Mat) (j : Nat) : List Bool := (List.range m.rows).map (fun i => m.cell i j)

/-- `pandalone/xleash/_capture.py:361-377` `_mov_vector_slices`, `_extract_states_vector`: the
states met from `land` (included) in the direction `mov`; `none` is `IndexError`. -/
def extractVec (m : Mat) (land : Coords) : Dir → Option (List Bool)
  | .L => (seqIndex m.rows land.row).map (fun i => ((m.rowVec i).take (sliceBound m.cols (land.col + 1))).reverse)
  | .U => (seqIndex m.cols land.col).map (fun j => ((m.colVec j).take (sliceBound m.rows (land.row + 1))).reverse)
  | .R => (seqIndex m.rows land.row).map (fun i => (m.rowVec i).drop (sliceBound m.cols land.col))
  | .D => (seqIndex m.cols land.col).map (fun j => (m.colVec j).drop (sliceBound m.rows land.row))

/-- `c` moved `k` steps in direction `d`. -/
def Coords.move (c : Coords) (d : Dir) (k : Nat) : Coords :=
  ⟨c.row + d.vec.row * k, c.col + d.vec.col * k⟩

/-- `pandalone/xleash/_capture.py:453-473` the loop of `_target_opposite`; fuel-bounded, running out
of fuel is reported as `recursionError` (shown not to happen). -/
def oppositeLoop (m : Mat) (mov1 : Dir) (mov2 : Option Dir) (target : Coords) :
    Nat → Except PyErr Coords
  | 0 => .error .recursionError
  | fuel + 1 =>
    if 0 ≤ target.row ∧ 0 ≤ target.col then
      match extractVec m target mov1 with
      | none => .error .emptyCapture
      | some vect =>
        match vect.findIdx? (fun b => b) with
        | some i => .ok (target.move mov1 i)
        | none =>
          match mov2 with
          | none => .error .emptyCapture
          | some d2 => oppositeLoop m mov1 mov2 (target.move d2 1) fuel
    else .error .emptyCapture

/-- `pandalone/xleash/_capture.py:436-442` the landing cell clipped to the margins. -/
def clipLand (dn land : Coords) (moves : List Dir) : Coords :=
  ⟨if land.row > dn.row ∧ Dir.U ∈ moves then dn.row else land.row,
   if land.col > dn.col ∧ Dir.L ∈ moves then dn.col else land.col⟩

/-- `pandalone/xleash/_capture.py:380-473` `_target_opposite`.  Moves after the second are ignored
by the code too.  Empty moves (`StopIteration`) do not occur. -/
def targetOpposite (m : Mat) (dn land : Coords) (moves : List Dir) : Except PyErr Coords :=
  match moves with
  | [] => .error .valueError
  | mov1 :: rest =>
    oppositeLoop m mov1 rest.head? (clipLand dn land moves) (m.rows + m.cols + 2)

/-- `pandalone/xleash/_capture.py:489-495`: how far the run of equal states goes. With the first
state true, `np.diff(...).nonzero()[0].min()` is the index before the first false one. -/
def sameLen (vect : List Bool) : Int :=
  match vect.findIdx? (fun b => !b) with
  | none => (vect.length : Int) - 1
  | some i => (i : Int) - 1

/-- `pandalone/xleash/_capture.py:476-496` `_target_same_vector`, and the assignment of line 558. -/
def targetSameMove (m : Mat) (land target : Coords) (mov : Dir) : Except PyErr Coords :=
  match extractVec m land mov with
  | none => .error .lookupError
  | some vect =>
    match mov with
    | .L => .ok ⟨target.row, land.col - sameLen vect⟩
    | .R => .ok ⟨target.row, land.col + sameLen vect⟩
    | .U => .ok ⟨land.row - sameLen vect, target.col⟩
    | .D => .ok ⟨land.row + sameLen vect, target.col⟩

/-- `pandalone/xleash/_capture.py:554-560` the loop of `_target_same`. -/
def targetSameLoop (m : Mat) (land target : Coords) : List Dir → Except PyErr Coords
  | [] => .ok target
  | mov :: rest =>
    match targetSameMove m land target mov with
    | .error e => .error e
    | .ok t => targetSameLoop m land t rest

/-- `pandalone/xleash/_capture.py:499-562` `_target_same`. -/
def targetSame (m : Mat) (dn land : Coords) (moves : List Dir) : Except PyErr Coords :=
  if land.row ≤ dn.row ∧ land.col ≤ dn.col then
    match m.at? land.row land.col with
    | none => .error .lookupError
    | some true => targetSameLoop m land land moves
    | some false => .error .emptyCapture
  else .error .emptyCapture

/-- A rectangle `[r1, r2, c1, c2]` as in `pandalone/xleash/_capture.py:646-648`. -/
structure Rect where
  r1 : Int
  r2 : Int
  c1 : Int
  c2 : Int
  deriving DecidableEq, Repr

/-- `pandalone/xleash/_capture.py:565-577` `_sort_rect`. -/
def sortRect (a b : Coords) : Rect :=
  ⟨min a.row b.row, max a.row b.row, min a.col b.col, max a.col b.col⟩

/-- `states_matrix[a:b, c:d].any()` with Python slicing. -/
def Mat.anyIn (m : Mat) (a b c d : Int) : Bool :=
  (List.range m.rows).any (fun i => decide (sliceBound m.rows a ≤ i ∧ i < sliceBound m.rows b) &&
    (List.range m.cols).any (fun j => decide (sliceBound m.cols c ≤ j ∧ j < sliceBound m.cols d) && m.cell i j))

/-- `pandalone/xleash/_capture.py:631-636, 653` the rectangle extended by one line. -/
def Rect.grow (r : Rect) : Dir → Rect
  | .L => { r with c1 := r.c1 - 1 }
  | .R => { r with c2 := r.c2 + 1 }
  | .U => { r with r1 := r.r1 - 1 }
  | .D => { r with r2 := r.r2 + 1 }

/-- `pandalone/xleash/_capture.py:637-642, 653-657`: whether the line to be added has a full cell. -/
def lineAny (m : Mat) (r : Rect) (d : Dir) : Bool :=
  let e := r.grow d
  match d with
  | .L => m.anyIn e.r1 (e.r2 + 1) e.c1 (e.c1 + 1)
  | .R => m.anyIn e.r1 (e.r2 + 1) e.c2 (e.c2 + 1)
  | .U => m.anyIn e.r1 (e.r1 + 1) e.c1 (e.c2 + 1)
  | .D => m.anyIn e.r2 (e.r2 + 1) e.c1 (e.c2 + 1)

/-- `pandalone/xleash/_capture.py:652-659` one primitive move. -/
def expand1 (m : Mat) (r : Rect) (d : Dir) : Rect := if lineAny m r d then r.grow d else r

/-- `pandalone/xleash/_capture.py:652-659` one round of the directions of a group. -/
def expandRound (m : Mat) (dirs : List Dir) (r : Rect) : Rect := dirs.foldl (expand1 m) r

/-- `pandalone/xleash/_capture.py:650-661` the rounds of a group, at most `n`, ended by a round
without effect. -/
def expandRepeat (m : Mat) (dirs : List Dir) : Nat → Rect → Rect
  | 0, r => r
  | n + 1, r =>
    let r' := expandRound m dirs r
    if r' = r then r else expandRepeat m dirs n r'

/-- A group of expansion moves: the directions and how many times, `none` for unlimited
(`itertools.repeat` without count). -/
structure ExpGroup where
  dirs : List Dir
  times : Option Nat
  deriving DecidableEq, Repr

/-- Rounds allowed for an unlimited group (shown to be enough for reaching a fixed point, see
`C35_unlimited_terminates`). -/
def enoughRounds (m : Mat) : Nat := 2 * (m.rows + m.cols) + 1

/-- `pandalone/xleash/_capture.py:649-661` one group. -/
def expandGroup (m : Mat) (r : Rect) (g : ExpGroup) : Rect :=
  expandRepeat m g.dirs (g.times.getD (enoughRounds m)) r

/-- `pandalone/xleash/_capture.py:580-663` `_expand_rect` on parsed expansion-moves. -/
def expandRect (m : Mat) (a b : Coords) (groups : List ExpGroup) : Coords × Coords :=
  let r := groups.foldl (expandGroup m) (sortRect a b)
  (⟨r.r1, r.c1⟩, ⟨r.r2, r.c2⟩)

/-- `pandalone/xleash/_capture.py:81-115` `_row2num` on text; `none` is `ValueError`. -/
def row2num (coord : Str) : Option Int :=
  match pyInt coord with
  | none => none
  | some n => if n = 0 then none else if n > 0 then some (n - 1) else some n

/-- `string.ascii_uppercase.rindex(c.upper()) + 1`; `none` is `ValueError`.  Simplification: the two
ligatures U+FB05 and U+FB06, whose upper case `ST` also occurs in the alphabet, are rejected. -/
def letterVal (c : Char) : Option Nat :=
  let u := upperChar c
  if 0x41 ≤ u.toNat ∧ u.toNat ≤ 0x5a then some (u.toNat - 0x40) else none

/-- `pandalone/xleash/_capture.py:160-162` the value of column letters plus one. -/
def lettersVal (acc : Nat) : Str → Option Nat
  | [] => some acc
  | c :: cs => match letterVal c with
    | none => none
    | some v => lettersVal (acc * 26 + v) cs

/-- `pandalone/xleash/_capture.py:118-172` `_col2num` on text; `none` is `ValueError`. -/
def col2num (coord : Str) : Option Int :=
  match pyInt coord with
  | none => (lettersVal 0 coord).map (fun (v : Nat) => (v : Int) - 1)
  | some n => if n = 0 then none else if n > 0 then some (n - 1) else some n

/-- `pandalone/xleash/_capture.py:175-280` `_resolve_coord`; every failure becomes `ValueError`. -/
def resolveCoord (cfunc : Str → Option Int) (coord : Str) (up dn : Int) (base : Option Int) :
    Except PyErr Int :=
  if coord = ['^'] then .ok up
  else if coord = ['_'] then .ok dn
  else if coord = ['.'] then
    match base with
    | some b => .ok b
    | none => .error .valueError
  else match cfunc coord with
    | none => .error .valueError
    | some n => if n < 0 then .ok (dn + n + 1) else .ok n

/-- `pandalone/xleash/_parse.py:26-63` `Cell` (the unused `brow`, `bcol` left out). -/
structure Cell where
  row : Str
  col : Str
  deriving DecidableEq, Repr

/-- `pandalone/xleash/_capture.py:283-358` `_resolve_cell`. -/
def resolveCell (cell : Cell) (up dn : Coords) (base : Option Coords) : Except PyErr Coords :=
  match resolveCoord row2num cell.row up.row dn.row (base.map (·.row)) with
  | .error e => .error e
  | .ok r => match resolveCoord col2num cell.col up.col dn.col (base.map (·.col)) with
    | .error e => .error e
    | .ok c => .ok ⟨r, c⟩

/-- `pandalone/xleash/_parse.py:66-87` `Edge`, with the moves as directions. -/
structure Edge where
  land : Cell
  mov : Option (List Dir)
  mod : Option Char
  deriving DecidableEq, Repr

/-- `states_matrix[c]` with `IndexError` read as empty, `pandalone/xleash/_capture.py:748-751`. -/
def stateAt (m : Mat) (c : Coords) : Bool := (m.at? c.row c.col).getD false

/-- The first edge, `pandalone/xleash/_capture.py:747-759`. -/
def resolveSt (m : Mat) (up dn : Coords) (edge : Edge) (base : Option Coords) : Except PyErr Coords :=
  match resolveCell edge.land up dn base with
  | .error e => .error e
  | .ok st =>
    match edge.mov with
    | none => .ok st
    | some mov =>
      if stateAt m st then
        (if edge.mod = some '+' then targetSame m dn st mov else .ok st)
      else targetOpposite m dn st mov

/-- The second edge, `pandalone/xleash/_capture.py:763-780`. -/
def resolveNd (m : Mat) (up dn : Coords) (edge : Edge) (st : Coords) : Except PyErr Coords :=
  match resolveCell edge.land up dn (some st) with
  | .error e => .error e
  | .ok nd =>
    match edge.mov with
    | none => .ok nd
    | some mov =>
      if stateAt m nd then
        (if edge.mod = some '+' ∨ (edge.land = ⟨['.'], ['.']⟩ ∧ edge.mod ≠ some '?')
         then targetSame m dn nd mov else .ok nd)
      else targetOpposite m dn nd mov

/-- `pandalone/xleash/_capture.py:666-789` `resolve_capture_rect`; `exp` empty when there are no
expansion moves. -/
def resolveCaptureRect (m : Mat) (up dn : Coords) (stEdge : Edge) (ndEdge : Option Edge)
    (exp : List ExpGroup) (base : Option Coords) : Except PyErr (Coords × Option Coords) :=
  match resolveSt m up dn stEdge base with
  | .error e => .error e
  | .ok st =>
    let nd : Except PyErr (Option Coords) := match ndEdge with
      | none => .ok none
      | some e => match resolveNd m up dn e st with
        | .error er => .error er
        | .ok nd => .ok (some nd)
    match nd with
    | .error e => .error e
    | .ok nd =>
      if exp ≠ [] then
        let (a, b) := expandRect m st (nd.getD st) exp
        .ok (a, some b)
      else
        match nd with
        | none => .ok (st, none)
        | some nd =>
          let r := sortRect st nd
          .ok (⟨r.r1, r.c1⟩, some ⟨r.r2, r.c2⟩)

/-- Positions of the full cells in row-major order, `np.where(states_matrix)`. -/
def Mat.full (m : Mat) : List (Nat × Nat) :=
  (List.range m.rows).flatMap (fun i =>
    (List.range m.cols).filterMap (fun j => if m.cell i j then some (i, j) else none))

/-- `pandalone/xleash/io/backend.py:254-298` `margin_coords_from_states_matrix`. -/
def marginCoords (m : Mat) : Coords × Coords :=
  match m.full with
  | [] => (⟨0, 0⟩, ⟨0, 0⟩)
  | p :: ps =>
    let lo := ps.foldl (fun a q => (min a.1 q.1, min a.2 q.2)) p
    let hi := ps.foldl (fun a q => (max a.1 q.1, max a.2 q.2)) p
    (⟨lo.1, lo.2⟩, ⟨hi.1, hi.2⟩)

/-- `xlrd.colname` (external library, called in `pandalone/xleash/_capture.py:75`): letters of a
zero-based column, by repeated division. -/
def colName (n : Nat) : Str :=
  let d := Char.ofNat (0x41 + n % 26)
  if h : n / 26 = 0 then [d] else colName (n / 26 - 1) ++ [d]
termination_by n
decreasing_by
  have : n / 26 ≤ n := Nat.div_le_self _ _
  omega

/-- A coordinate given to `coords2Cell`: a number or one of the special symbols. -/
inductive RawCoord
  | num (n : Int)
  | sym (s : Str)
  deriving DecidableEq, Repr

/-- `pandalone/xleash/_capture.py:53-78` `coords2Cell`. -/
def coords2Cell (row col : RawCoord) : Except PyErr Cell :=
  let r : Except PyErr Str := match row with
    | .num n => if 0 ≤ n then .ok (intStr (n + 1)) else .error .assertionError
    | .sym s => if s ∈ [['^'], ['_'], ['.']] then .ok s else .error .typeError
  let c : Except PyErr Str := match col with
    | .num n => if 0 ≤ n then .ok (colName n.toNat) else .error .assertionError
    | .sym s => if s ∈ [['^'], ['_'], ['.']] then .ok s else .error .typeError
  match r with
  | .error e => .error e
  | .ok r => match c with
    | .error e => .error e
    | .ok c => .ok ⟨upper r, upper c⟩

end Model
