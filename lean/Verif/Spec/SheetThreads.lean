import Verif.Model.SheetThreads
import Verif.Spec.SheetCache
/-
Vocabulary for sheets asked by threads, for C155.
-/
namespace Spec
open Py Model

/-- The sheet had these contents at some time: those at first, or those of a change. -/
def HadContents (s : SheetContents) (ms : List Moment) (c : SheetContents) : Prop := c = s ∨ Moment.change c ∈ ms

/-- The answer that the thread got. -/
def Answered (c : Askers) (j : Nat) (a : SheetAnswer) : Prop := c.threads[j]? = some (.done a)

/-- The same question as an event of a history of one thread. -/
def event : Question → SheetEvent
  | .states => .states
  | .margins => .margins

/-- How many operations the thread was given. -/
def turns (ms : List Moment) (j : Nat) : Nat := ms.countP (fun m => match m with
  | .thread i => i == j
  | .change _ => false)

end Spec
