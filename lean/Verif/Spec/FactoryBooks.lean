import Verif.Model.FactoryBooks
import Verif.Lemmas.Sheets
/-
Sheets served by a factory.
-/
namespace Spec
open Py Model

/-- A sheet object is this sheet of the workbook with this URL. -/
def IsSheet (s : SheetObj) (url : Str) (i : Nat) : Prop := s.wb = url ∧ ∃ name, s.ids = [.text name, .num i]

/-- Workbooks that can be opened have a URL, which stays the same when it is computed again, and the names of their sheets differ. -/
def ProperBooks (W : Surroundings) : Prop :=
  ∀ w url p names, urlAndBackend W.ok W.cwd W.plugins w = .ok (url, p) → p.book url = .ok names →
    url ≠ [] ∧ path2url W.ok W.cwd url = some url ∧ names.Nodup

/-- A factory after some calls of `fetch_sheet`, with the sheets that it returned. Base sheets are sheets that it returned before. -/
inductive Serving (W : Surroundings) : Desk → List SheetObj → Prop
  | new : Serving W Desk.new []
  | fetch {D : Desk} {given : List SheetObj} (order : List SKey → List SKey) (wb : Option Str) (sh : ShId) (base : Option SheetObj) :
      Serving W D given → IsOrder order → (∀ b, base = some b → b ∈ given) →
      Serving W (D.fetch W order wb sh base).1
        (match (D.fetch W order wb sh base).2 with | .ok s => s :: given | .error _ => given)

end Spec
