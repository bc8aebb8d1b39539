import Verif.Model.FactoryThreads
import Verif.Spec.FactoryBooks
/-
Threads that fetch sheets from one factory.
-/
namespace Spec
open Py Model

/-- A factory that threads fetch sheets from, at some moment: calls may start at any time, and go on in any order, one operation at a time.
`asks` are the workbooks and sheets asked for, call by call. -/
inductive AtWork (W : Surroundings) : List SKey → Crew → Prop
  | new : AtWork W [] ⟨SharedFactory.new, []⟩
  | call {asks : List SKey} {c : Crew} (order : List SKey → List SKey) (w : Str) (sh : ShId) :
      AtWork W asks c → IsOrder order → AtWork W (asks ++ [(w, sh)]) ⟨c.shared, c.threads ++ [fetchT order w sh]⟩
  | step {asks : List SKey} {c : Crew} (j : Nat) : AtWork W asks c → AtWork W asks (c.step W.opener j)

/-- A call that ended, with this. -/
def CallEnded (c : Crew) (j : Nat) (r : Except ThreadErr SheetObj) : Prop := c.threads[j]? = some (.done r)

/-- No two of the calls ask for the same sheet. -/
def AllApart (W : Surroundings) (asks : List SKey) : Prop :=
  ∀ (i j : Nat) (k k' : SKey) (x : Str × Nat), asks[i]? = some k → asks[j]? = some k' →
    openSheetOf W.ok W.cwd W.plugins k.1 k.2 = .ok x → openSheetOf W.ok W.cwd W.plugins k'.1 k'.2 = .ok x → i = j

/-- The factory as seen when no call is under way: what each workbook's dictionary holds. -/
def factorySeen (S : SharedFactory) : Factory := ⟨S.outer.map (fun e => (e.1, S.inner (e.1, e.2))), S.closed, S.opened⟩

/-- Calls one after the other, each of them ended before the next begins. -/
inductive OneByOne (W : Surroundings) : SharedFactory → Prop
  | new : OneByOne W SharedFactory.new
  | call {S S' : SharedFactory} (order : List SKey → List SKey) (w : Str) (sh : ShId) (n : Nat) (r : Except ThreadErr SheetObj) :
      OneByOne W S → IsOrder order → Crew.run W.opener ⟨S, [fetchT order w sh]⟩ (List.replicate n 0) = ⟨S', [.done r]⟩ → OneByOne W S'

end Spec
