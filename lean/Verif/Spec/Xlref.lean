import Verif.Spec.Coords
/-
Specification vocabulary for xl-refs: how a reference is written from its fields.
-/
namespace Spec
open Py

/-- A positive decimal number without leading zeros. -/
def IsNum (s : Str) : Prop := ∃ d t, s = d :: t ∧ d.isDigit = true ∧ d ≠ '0' ∧ ∀ x ∈ t, x.isDigit = true

/-- A special coordinate: `_`, `^`, and `.` where a base cell exists. -/
def IsSpecial (dot : Bool) (s : Str) : Prop := s = ['_'] ∨ s = ['^'] ∨ (dot = true ∧ s = ['.'])

/-- A coordinate of the RC form: maybe negative, or special. -/
def IsRCNum (s : Str) : Prop := IsNum s ∨ (∃ t, s = '-' :: t ∧ IsNum t) ∨ IsSpecial true s

/-- A cell, as written: column then row, or `R` row `C` column. -/
inductive CellText
  | a1 (col row : Str)
  | rc (r : Char) (row : Str) (c : Char) (col : Str)

def CellText.text : CellText → Str
  | .a1 col row => col ++ row
  | .rc r row c col => r :: row ++ c :: col

def CellText.row : CellText → Str
  | .a1 _ row => row
  | .rc _ row _ _ => row

def CellText.col : CellText → Str
  | .a1 col _ => col
  | .rc _ _ _ col => col

/-- Well-written cells; `dot` tells whether `.` may be used in the A1 form. -/
def CellText.Ok (dot : Bool) : CellText → Prop
  | .a1 col row => ((col ≠ [] ∧ ∀ x ∈ col, isLetter x = true) ∨ IsSpecial dot col) ∧ (IsNum row ∨ IsSpecial dot row)
  | .rc r row c col => (r = 'R' ∨ r = 'r') ∧ (c = 'C' ∨ c = 'c') ∧ IsRCNum row ∧ IsRCNum col

/-- The targeting moves. -/
def allMoves : List Str :=
  ["L", "U", "R", "D", "LD", "LU", "UL", "UR", "RU", "RD", "DL", "DR"].map String.toList

/-- An edge: a cell and, in parentheses, moves in any case with an optional modifier. -/
structure EdgeText where
  cell : CellText
  mov : Option (Str × Option Char)

def movText : Option (Str × Option Char) → Str
  | none => []
  | some (m, none) => '(' :: m ++ [')']
  | some (m, some x) => '(' :: m ++ [x, ')']

def MovOk : Option (Str × Option Char) → Prop
  | none => True
  | some (m, x) => upper m ∈ allMoves ∧ (x = none ∨ x = some '+' ∨ x = some '?')

def EdgeText.text (e : EdgeText) : Str := e.cell.text ++ movText e.mov
def EdgeText.Ok (dot : Bool) (e : EdgeText) : Prop := e.cell.Ok dot ∧ MovOk e.mov

/-- The fields of a reference fragment. -/
structure RefText where
  /-- Spaces in front. -/
  lead : Str
  /-- What precedes a `!`, if there is one. -/
  sheet : Option Str
  st : Option EdgeText
  /-- After the first colon: the second edge and the expansion moves. -/
  range : Option (Option EdgeText × Option Str)
  /-- Spaces and the filter text. -/
  filt : Option (Str × Str)

def sheetText : Option Str → Str
  | none => []
  | some s => s ++ ['!']

def optEdgeText : Option EdgeText → Str
  | none => []
  | some e => e.text

def expText : Option Str → Str
  | none => []
  | some x => ':' :: x

def rangeText : Option (Option EdgeText × Option Str) → Str
  | none => []
  | some (nd, ex) => ':' :: optEdgeText nd ++ expText ex

def filtText : Option (Str × Str) → Str
  | none => []
  | some (ws, js) => ':' :: ws ++ js

/-- The reference written out. -/
def RefText.text (r : RefText) : Str :=
  r.lead ++ (sheetText r.sheet ++ (optEdgeText r.st ++ (rangeText r.range ++ filtText r.filt)))

def Spaces (s : Str) : Prop := ∀ x ∈ s, isSpaceU x = true

/-- A sheet name has no `!` and does not begin with a space. -/
def SheetOk : Option Str → Prop
  | none => True
  | some s => '!' ∉ s ∧ ∀ x, s.head? = some x → isSpaceU x = false

def ExpOk : Option Str → Prop
  | none => True
  | some x => x ≠ [] ∧ ∀ c ∈ x, c ∈ "LURDlurd?123456789".toList

def FiltOk : Option (Str × Str) → Prop
  | none => True
  | some (ws, js) => Spaces ws ∧ ∃ x t, js = x :: t ∧ x ∈ "{\"[".toList

/-- Well-written references. Without a sheet part, the filters have no `!`. -/
structure RefText.Ok (r : RefText) : Prop where
  lead : Spaces r.lead
  sheet : SheetOk r.sheet
  st : ∀ e, r.st = some e → e.Ok false
  nd : ∀ e ex, r.range = some (some e, ex) → e.Ok true
  exp : ∀ nd ex, r.range = some (nd, ex) → ExpOk ex
  filt : FiltOk r.filt
  bang : r.sheet = none → ∀ ws js, r.filt = some (ws, js) → '!' ∉ js

/-- The sheet name meant: an empty one counts as none. -/
def RefText.sheetName (r : RefText) : Option Str :=
  match r.sheet with
  | some [] => none
  | s => s

end Spec
