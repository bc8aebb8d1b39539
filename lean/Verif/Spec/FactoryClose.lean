import Verif.Model.FactoryClose
import Verif.Spec.FactoryThreads
/-
Threads that fetch sheets from one factory, and threads that close it.
-/
namespace Spec
open Py Model

/-- What a thread calls: `fetch_sheet` of a sheet of a workbook, or `close`. -/
inductive Ask
  | fetch (w : Str) (sh : ShId)
  | close

/-- A factory that threads fetch sheets from and close, at some moment: calls may start at any time, and go on in any order, one operation at a
time. `asks` are the calls. -/
inductive OnShift (W : Surroundings) : List Ask → Shift → Prop
  | new : OnShift W [] ⟨OpenFactory.new, []⟩
  | fetch {asks : List Ask} {c : Shift} (order : List SKey → List SKey) (w : Str) (sh : ShId) :
      OnShift W asks c → IsOrder order → OnShift W (asks ++ [.fetch w sh]) ⟨c.shared, c.threads ++ [fetchC order w sh]⟩
  | close {asks : List Ask} {c : Shift} : OnShift W asks c → OnShift W (asks ++ [.close]) ⟨c.shared, c.threads ++ [closeC]⟩
  | step {asks : List Ask} {c : Shift} (j : Nat) : OnShift W asks c → OnShift W asks (c.step W.opener j)

/-- A call that ended, with this. -/
def CallOver (c : Shift) (j : Nat) (r : Except ThreadErr (Option SheetObj)) : Prop := c.threads[j]? = some (.done r)

/-- The factory as seen when no call is under way: what the dictionary of each workbook holds, of those in use. -/
def factoryNow (S : OpenFactory) : Factory := ⟨(S.outers S.now).map (fun e => (e.1, S.inner (e.1, e.2))), S.closed, S.opened⟩

/-- Nothing was put in the factory or taken out of it meanwhile. -/
def SameBooks (S S' : OpenFactory) : Prop := S'.now = S.now ∧ S'.outers = S.outers ∧ S'.inner = S.inner

/-- Calls one after the other, each of them ended before the next begins. -/
inductive InTurn (W : Surroundings) : OpenFactory → Prop
  | new : InTurn W OpenFactory.new
  | fetch {S S' : OpenFactory} (order : List SKey → List SKey) (w : Str) (sh : ShId) (n : Nat) (r : Except ThreadErr (Option SheetObj)) :
      InTurn W S → IsOrder order → Shift.run W.opener ⟨S, [fetchC order w sh]⟩ (List.replicate n 0) = ⟨S', [.done r]⟩ → InTurn W S'
  | close {S S' : OpenFactory} (n : Nat) (r : Except ThreadErr (Option SheetObj)) :
      InTurn W S → Shift.run W.opener ⟨S, [closeC]⟩ (List.replicate n 0) = ⟨S', [.done r]⟩ → InTurn W S'

end Spec
