import Verif.Model.StepThreads
import Verif.Spec.Pstep
/-
Vocabulary for threads that share path steps, for C165.
-/
namespace Spec
open Py Model

/-- The thread is at an end, with these steps or this error. -/
def ReadTo (c : Readers) (j : Nat) (r : Except PyErr (List Nat)) : Prop := c.threads[j]? = some (.done r)

/-- The chain of attributes, from this step, has been read before: there are these steps, and their texts are not empty. -/
inductive AlreadyRead (σ : PsState) : Nat → List Str → List Nat → Prop
  | nil (s : Nat) : AlreadyRead σ s [] []
  | cons (s c : Nat) (k t : Str) (ks : List Str) (cs : List Nat) : StepName k → Edge σ s k c → textOf σ c = some t → t ≠ "".toList →
      AlreadyRead σ c ks cs → AlreadyRead σ s (k :: ks) (c :: cs)

/-- No step has mappings. -/
def WithoutMappings (σ : PsState) : Prop := ∀ (s : Nat) (o : StepObj), σ.steps[s]? = some o → o.pmod = none

/-- All children have the texts of their attributes. -/
def NamedAsRead (σ : PsState) : Prop := ∀ (d : Nat) (kids : List (Str × Nat)), σ.dicts[d]? = some kids → ∀ k c, (k, c) ∈ kids → textOf σ c = some k

end Spec
