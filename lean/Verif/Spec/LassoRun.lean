import Verif.Model.LassoRun
/-
Specification vocabulary for what a call of `lasso()` leaves behind.
-/
namespace Spec
open Py Model

/-- Sheets always name the workbook they are of, and no backend opens a workbook without a name. -/
def NamesBooks (o : Openers) : Prop :=
  (∀ n wb sh s, o.book n wb sh = .ok s → s.wb ≠ []) ∧
  (∀ n b sh s, o.sibling n b sh = .ok s → s.wb ≠ []) ∧
  (∀ n sh s, o.book n none sh ≠ .ok s)

/-- The sheets of one workbook: the one it was opened for, and the siblings opened from these. -/
inductive OfBook (events : List Event) (s : SheetObj) : SheetObj → Prop
  | self : OfBook events s s
  | sibling {b t : SheetObj} : OfBook events s b → Event.sibling b t ∈ events → OfBook events s t

/-- The documented default options: errors are raised, without details, and files are read on demand. -/
def documentedOpts : Str → Option Doc := fun k =>
  if k = "lax".toList then some (.bool false)
  else if k = "verbose".toList then some (.bool false)
  else if k = "read".toList then some (.dict [("on_demand".toList, .bool true)])
  else none

/-- Filters that do not look up sheets, as programs. -/
def plainFilters (g : Str → Option (FRec SheetObj)) : Str → Option RunFilter := fun n =>
  (g n).map (fun r => ⟨fun l args kwds => .done (r.func l args kwds), r.desc⟩)

/-- The value of an option when the given ones go before the defaults. -/
def overridden (given : List (Str × Doc)) (defaults : Str → Option Doc) (k : Str) : Option Doc :=
  match dget given k with
  | some v => some v
  | none => defaults k

end Spec
