import Verif.Model.LassoDesk
import Verif.Spec.FactoryBooks
/-
Lassoing with sheets that are opened anew each time, as against a factory that keeps them.
-/
namespace Spec
open Py Model

/-- A sheet of a workbook: its URL and the number of the sheet. -/
abbrev BookSheet := Str × Nat

/-- Opening a sheet anew: of the workbook named; else the sheet named in the workbook of the base sheet; else the base sheet. -/
def openAnew (W : Surroundings) (wb sh : Option Str) (base : Option BookSheet) : Except PyErr BookSheet :=
  match wb, base with
  | some w, _ => openSheetOf W.ok W.cwd W.plugins w (shIdOf sh)
  | none, none => .error .valueError
  | none, some b => match sh with
    | none => .ok b
    | some t => openSheetOf W.ok W.cwd W.plugins b.1 (.text t)

/-- A sheet object that was returned before, for this sheet. -/
inductive SameSheet (given : List SheetObj) : Option SheetObj → Option BookSheet → Prop
  | none : SameSheet given none none
  | some (s : SheetObj) (url : Str) (i : Nat) : s ∈ given → IsSheet s url i → SameSheet given (some s) (some (url, i))

/-- The lasso, with another sheet. -/
def onSheet {S T : Type} (l : Lasso T) (s : Option S) : Lasso S :=
  { xlRef := l.xlRef, urlFile := l.urlFile, shName := l.shName, stEdge := l.stEdge, ndEdge := l.ndEdge, expMoves := l.expMoves,
    callSpec := l.callSpec, sheet := s, st := l.st, nd := l.nd, values := l.values, baseCoords := l.baseCoords, opts := l.opts }

/-- The same lasso, with a sheet object for its sheet. -/
def SameLasso (given : List SheetObj) (l : Lasso SheetObj) (l' : Lasso BookSheet) : Prop :=
  l = onSheet l' l.sheet ∧ SameSheet given l.sheet l'.sheet

/-- The same outcome: the same lasso or value, or the same error. -/
inductive SameEnd (given : List SheetObj) : Except PyErr (FRes SheetObj) → Except PyErr (FRes BookSheet) → Prop
  | lasso (l l') : SameLasso given l l' → SameEnd given (.ok (.lasso l)) (.ok (.lasso l'))
  | other (d) : SameEnd given (.ok (.other d)) (.ok (.other d))
  | error (e) : SameEnd given (.error e) (.error e)

/-- Whatever was fetched before, besides these sheets, the program has this outcome. -/
def EndsAs (W : Surroundings) (given : List SheetObj) (p : Run (FRes SheetObj)) (r : Except PyErr (FRes BookSheet)) : Prop :=
  ∀ order, IsOrder order → ∀ D given0, (∀ s ∈ given, s ∈ given0) → Serving W D given0 →
    ∃ given1, (∀ s ∈ given0, s ∈ given1) ∧ Serving W (p.onDesk W order D).1 given1 ∧ SameEnd given1 (p.onDesk W order D).2 r

/-- Two forms of the same filter: one that fetches sheets from a factory, and one that opens them anew. -/
structure SameFilter (W : Surroundings) (f : RunFilter) (f' : FRec BookSheet) : Prop where
  desc : f.desc = f'.desc
  func : ∀ given l l', SameLasso given l l' → ∀ args kwds, EndsAs W given (f.func l args kwds) (f'.func l' args kwds)

/-- Sheet objects have the cells of their sheets. -/
structure SameApi (A : SheetApi SheetObj) (A' : SheetApi BookSheet) : Prop where
  states : ∀ s url i, IsSheet s url i → A.states s = A'.states (url, i)
  margins : ∀ s url i, IsSheet s url i → A.margins s = A'.margins (url, i)
  readRect : ∀ s url i, IsSheet s url i → A.readRect s = A'.readRect (url, i)

/-- If this text opens a sheet of the workbook, it is the name of that sheet, not its number. -/
def ByName (W : Surroundings) (url t : Str) : Prop :=
  ∀ names i, listSheetNames W.ok W.cwd W.plugins url = .ok names → openSheetOf W.ok W.cwd W.plugins url (.text t) = .ok (url, i) →
    names[i]? = some t

end Spec
