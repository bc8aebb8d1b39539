import Verif.Model.RangerThreads
import Verif.Spec.Stages
/-
Vocabulary for threads that share a ranger, for C164.
-/
namespace Spec
open Py Model

/-- Whatever the ranger remembers whenever it is asked, this is what is returned. -/
inductive Yields {S α : Type} : Throwing S α → α → Prop
  | done (a : α) : Yields (.done a) a
  | remember (i : InterLasso S) (k : Throwing S α) (a : α) : Yields k a → Yields (.remember i k) a
  | recall (k : InterLasso S → Throwing S α) (a : α) : (∀ i, Yields (k i) a) → Yields (.recall k) a

/-- The thread is at an end, with this result. -/
def ThrewTo {S : Type} (c : Rangers S) (j : Nat) (r : Except PyErr (FRes S)) : Prop := c.threads[j]? = some (.done r)

/-- The filters of a ranger return what those of the other one do, that has no memory: what the ranger remembers makes no difference to them. -/
def MemoryFree {S : Type} (R : RangerT S) (R' : Ranger S) : Prop :=
  R.fetch = R'.fetch ∧ R.baseOpts = R'.baseOpts ∧
  (∀ name, R.filters name = none ↔ R'.filters name = none) ∧
  ∀ name f f', R.filters name = some f → R'.filters name = some f' →
    f.desc = f'.desc ∧ ∀ l args kwds, Yields (f.func l args kwds) (f'.func l args kwds)

/-- A call that is not interrupted: what the ranger remembers afterwards, and what is returned. -/
def alone {S α : Type} : Throwing S α → InterLasso S → InterLasso S × α
  | .done a, s => (s, a)
  | .remember i k, _ => alone k i
  | .recall k, s => alone (k s) s

/-- The ranger, for one thread only. -/
def oneThread {S : Type} (R : RangerT S) : RangerI S :=
  ⟨R.fetch, R.baseOpts, fun name => (R.filters name).map (fun f => ⟨fun l args kwds s => alone (f.func l args kwds) s, f.desc⟩)⟩

/-- No filter uses the ranger. -/
def NoRangerInFilters {S : Type} (R : RangerT S) : Prop :=
  ∀ name f, R.filters name = some f → ∀ l args kwds, ∃ r, f.func l args kwds = .done r

end Spec
