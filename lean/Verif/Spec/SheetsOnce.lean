import Verif.Spec.LassoDesk
/-
Factories of which workbooks and sheets are asked for in one way each.
-/
namespace Spec
open Py Model

/-- The text names the workbook with this URL. -/
def NamesBook (W : Surroundings) (w url : Str) : Prop := ∃ p, urlAndBackend W.ok W.cwd W.plugins w = .ok (url, p)

/-- Texts of which no two name the same workbook, and none is empty. -/
def OneText (W : Surroundings) (texts : Str → Prop) : Prop :=
  (∀ w w' url, texts w → texts w' → NamesBook W w url → NamesBook W w' url → w = w') ∧ ∀ w, texts w → w ≠ []

/-- The id is no id at all, or the name or the number of the sheet that it stands for; not its number as text. -/
def OwnId (W : Surroundings) (w : Str) (sh : ShId) : Prop :=
  ∀ names url i, listSheetNames W.ok W.cwd W.plugins w = .ok names → openSheetOf W.ok W.cwd W.plugins w sh = .ok (url, i) →
    sh = .none ∨ (∃ n, names[i]? = some n ∧ sh = .text n) ∨ sh = .num i

/-- What was returned, and then what is. -/
def alsoGiven (given : List SheetObj) : Except PyErr SheetObj → List SheetObj
  | .ok s => s :: given
  | .error _ => given

/-- What was asked for with success, and then what is. -/
def alsoAsked (asked : List SKey) (k : SKey) : Except PyErr SheetObj → List SKey
  | .ok _ => k :: asked
  | .error _ => asked

/-- A factory after some calls of `fetch_sheet` with such texts and ids, in workbooks or from sheets that were returned before; the sheets that
were returned, and the workbooks and sheets that were asked for with success. -/
inductive Orderly (W : Surroundings) (texts : Str → Prop) : Desk → List SheetObj → List SKey → Prop
  | new : Orderly W texts Desk.new [] []
  | book {D : Desk} {given : List SheetObj} {asked : List SKey} (order : List SKey → List SKey) (w : Str) (sh : ShId) (base : Option SheetObj) :
      Orderly W texts D given asked → IsOrder order → texts w → OwnId W w sh → (∀ b, base = some b → b ∈ given) →
      Orderly W texts (D.fetch W order (some w) sh base).1 (alsoGiven given (D.fetch W order (some w) sh base).2)
        (alsoAsked asked (w, sh) (D.fetch W order (some w) sh base).2)
  | sibling {D : Desk} {given : List SheetObj} {asked : List SKey} (order : List SKey → List SKey) (b : SheetObj) (sh : ShId) :
      Orderly W texts D given asked → IsOrder order → b ∈ given → sh ≠ .none → OwnId W b.wb sh →
      Orderly W texts (D.fetch W order none sh (some b)).1 (alsoGiven given (D.fetch W order none sh (some b)).2)
        (alsoAsked asked (b.wb, sh) (D.fetch W order none sh (some b)).2)
  | base {D : Desk} {given : List SheetObj} {asked : List SKey} (order : List SKey → List SKey) (b : SheetObj) :
      Orderly W texts D given asked → IsOrder order → b ∈ given →
      Orderly W texts (D.fetch W order none .none (some b)).1 given asked

/-- Two ways of asking for the sheet with this number in the workbook with this URL, of which the second is not known by the first: another text
that is not the URL, or another id that is neither the number nor the name of the sheet. -/
def KeysApart (W : Surroundings) (url : Str) (i : Nat) (k k' : SKey) : Prop :=
  (k'.1 ≠ k.1 ∧ k'.1 ≠ url) ∨
  (k'.2 ≠ k.2 ∧ k'.2 ≠ .num i ∧ ∀ names n, listSheetNames W.ok W.cwd W.plugins k.1 = .ok names → names[i]? = some n → k'.2 ≠ .text n)

/-- Asking in two ways in turn, a number of times: the factory, and the sheets returned, the last one first. -/
def inTurn (W : Surroundings) : SKey → SKey → Nat → Desk → List SheetObj → Desk × List SheetObj
  | _, _, 0, D, given => (D, given)
  | k, k', n + 1, D, given =>
    inTurn W k' k n (D.fetch W id (some k.1) k.2 none).1 (alsoGiven given (D.fetch W id (some k.1) k.2 none).2)

end Spec
