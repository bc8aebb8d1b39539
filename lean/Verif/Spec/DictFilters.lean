import Verif.Model.DictFilters
import Verif.Spec.PstepPaths
/-
Equality and order of captured values, without the functions of the filters.
-/
namespace Spec
open Py Model

/-- The number that a cell is. -/
def numberOf : CVal → Option Int
  | .int i => some i
  | .bool true => some 1
  | .bool false => some 0
  | _ => none

/-- Cells that Python takes as equal. -/
def SameCell (a b : CVal) : Prop := a = b ∨ ∃ i, numberOf a = some i ∧ numberOf b = some i

/-- A cell is before another one: numbers by value, texts by their characters. -/
inductive CellBefore : CVal → CVal → Prop
  | numbers (a b : CVal) (i j : Int) : numberOf a = some i → numberOf b = some j → i < j → CellBefore a b
  | texts (s t : Str) : TextBefore s t → CellBefore (.text s) (.text t)

/-- Cells that can be put in order. -/
def CellsOrdered (a b : CVal) : Prop :=
  (∃ i j, numberOf a = some i ∧ numberOf b = some j) ∨ ∃ s t, a = .text s ∧ b = .text t

/-- Rows with equal cells. -/
def SameRow : List CVal → List CVal → Prop
  | [], [] => True
  | a :: as, b :: bs => SameCell a b ∧ SameRow as bs
  | _, _ => False

/-- An item is before another one: rows by their first cells that are not equal, or as the shorter one. -/
inductive ItemBefore : CItem → CItem → Prop
  | cells (a b) : CellBefore a b → ItemBefore (.cell a) (.cell b)
  | rows (p q a b s t) : SameRow p q → CellBefore a b → ItemBefore (.row (p ++ a :: s)) (.row (q ++ b :: t))
  | shorter (p q b t) : SameRow p q → ItemBefore (.row p) (.row (q ++ b :: t))

/-- Items that can be put in order: rows unless their first cells that are not equal cannot be. -/
inductive ItemsOrdered : CItem → CItem → Prop
  | cells (a b) : CellsOrdered a b → ItemsOrdered (.cell a) (.cell b)
  | rows (p q a b s t) : SameRow p q → ¬ SameCell a b → CellsOrdered a b → ItemsOrdered (.row (p ++ a :: s)) (.row (q ++ b :: t))
  | begins (p q t) : SameRow p q → ItemsOrdered (.row p) (.row (q ++ t))
  | begun (p q s) : SameRow p q → ItemsOrdered (.row (p ++ s)) (.row q)

/-- Items that Python takes as equal. -/
inductive SameItem : CItem → CItem → Prop
  | cells (a b) : SameCell a b → SameItem (.cell a) (.cell b)
  | rows (p q) : SameRow p q → SameItem (.row p) (.row q)

/-- A table of two columns. -/
def TwoColumns (rows : List (CVal × CVal)) : CVals := .items (rows.map (fun r => .row [r.1, r.2]))

/-- `v` is in the last row whose first cell is `k`. -/
def LastFor (rows : List (CVal × CVal)) (k v : CVal) : Prop :=
  ∃ before k' after, rows = before ++ (k', v) :: after ∧ SameCell k' k ∧ ∀ r ∈ after, ¬ SameCell r.1 k

end Spec
