import Verif.Model.Frame
/-
Specification vocabulary for the `df` filter.
-/
namespace Spec
open Py Model

/-- The cell in a row and a column of a table. -/
def cellOf (data : List (List Doc)) (r c : Nat) : Option Doc := data[r]?.bind (·[c]?)

/-- A table: all rows have as many cells. -/
def Rectangular (data : List (List Doc)) (w : Nat) : Prop := ∀ row ∈ data, row.length = w

/-- Nothing is written in the cell. -/
def BlankCell (v : Doc) : Prop := v = .null ∨ v = .str []

/-- The value that stands in column `c` for row `r`, when blank cells repeat what is above them and nothing is
above row `off`. -/
def StandsFor (data : List (List Doc)) (off c r : Nat) (v : Doc) : Prop :=
  ∃ r', off ≤ r' ∧ r' ≤ r ∧ cellOf data r' c = some v ∧
    (∀ k, r' < k → k ≤ r → ∃ b, cellOf data k c = some b ∧ BlankCell b) ∧ (r' = off ∨ ¬ BlankCell v)

/-- How a value is given to *pandas*: `None` as an empty text. -/
def Shown (v w : Doc) : Prop := (v = .null ∧ w = .str []) ∨ (v ≠ .null ∧ w = v)

/-- The header is in these rows. -/
inductive HeaderIn : Header → List Nat → Prop
  | none : HeaderIn .none []
  | row (n) : HeaderIn (.row n) [n]
  | rows (ns) : HeaderIn (.rows ns) ns

/-- The first row below the header. -/
def Below (rows : List Nat) (off : Nat) : Prop := (∀ n ∈ rows, n < off) ∧ ∃ n ∈ rows, off = n + 1

/-- The column is one of many columns that make up the index. -/
def ManyIndex (idx : IndexCol) (c : Nat) : Prop := ∃ cs, idx = .cols cs ∧ c ∈ cs

/-- The columns asked for. -/
inductive ColsAsked : UseCols → UseCols → Prop
  | none : ColsAsked .none .none
  | those (ns) : ColsAsked (.those ns) (.those ns)
  | upTo (n ns) : (∀ c, c ∈ ns ↔ c ≤ n) → ns.Nodup → ColsAsked (.upTo n) (.those ns)

/-- What *pandas* makes of the rows of a header, one after the other, beginning with the flags given (`true` for
every column whose blank cells may repeat what is left of them); with an index each row also gives a name. -/
inductive MadeHead (L : FrameLib) (idx : IndexCol) (data : List (List Doc)) : List Nat → List Bool → List (List Doc) → List Doc → Prop
  | done (ctl) : MadeHead L idx data [] ctl [] []
  | plain (n ns ctl ctl' row row' made names) : idx = .none → data[n]? = some row → L.fillHeader row ctl = (row', ctl') →
      MadeHead L idx data ns ctl' made names → MadeHead L idx data (n :: ns) ctl (row' :: made) names
  | named (n ns ctl ctl' row row' row'' name made names) : idx ≠ .none → data[n]? = some row → L.fillHeader row ctl = (row', ctl') →
      L.popName row' idx = .ok (name, row'') →
      MadeHead L idx data ns ctl' made names → MadeHead L idx data (n :: ns) ctl (row'' :: made) (name :: names)

/-- How a row is given to *pandas*. -/
def ShownRow (row out : List Doc) : Prop :=
  out.length = row.length ∧ ∀ (c : Nat) u v, row[c]? = some u → out[c]? = some v → Shown u v

/-- The values as a Python list of lists. -/
def asDoc (data : List (List Doc)) : Doc := .list (data.map .list)

end Spec
