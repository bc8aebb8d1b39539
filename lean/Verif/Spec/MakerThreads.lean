import Verif.Model.MakerThreads
import Verif.Spec.Pandel
/-
What is said about threads that share a model-maker.
-/
namespace Spec
open Py Model

/-- The submodels that a thread has still to add. -/
def toAdd {V : Type} : MakerPc V → List Doc
  | .add ds => ds
  | _ => []

/-- A thread that has not started: it will build, or add some submodels. -/
def Fresh {V : Type} (t : MakerPc V) : Prop := t = .begin ∨ ∃ ds, t = .add ds

/-- A model-maker as constructed, with some submodels added already, and threads that have not started. -/
def FreshMakers {V : Type} (c : Makers V) : Prop :=
  c.shared.model = .null ∧ c.shared.errored = false ∧ ∀ t ∈ c.threads, Fresh t

/-- `m` is what some of the submodels give, merged in some order. -/
def Merges (subs : List Doc) (m : Doc) : Prop := ∃ l, (∀ d ∈ l, d ∈ subs) ∧ MergedAll .null l m

/-- An error that somebody gave a reason for: one yielded or raised when a given submodel is validated, when one of them is merged into a merge
of them, or when a merge of them is validated. -/
inductive Reason {V : Type} (C : Checks V) (subs : List Doc) : BuildErr V → Prop
  | sub (d : Doc) (v : V) : d ∈ subs → v ∈ (C.check true d).1 → Reason C subs (.found 1 v)
  | subRaises (d : Doc) (e : PyErr) (x : BuildErr V) : d ∈ subs → (C.check true d).2 = some e →
      (x = .invalid 1 ∧ e = .validationError ∨ x = .failed 1 e) → Reason C subs x
  | merge (m d : Doc) (e : PyErr) (x : BuildErr V) : Merges subs m → d ∈ subs → mergeDoc m d = .error e →
      (x = .invalid 2 ∧ e = .validationError ∨ x = .failed 2 e) → Reason C subs x
  | model (m : Doc) (v : V) : Merges subs m → v ∈ (C.check false m).1 → Reason C subs (.found 3 v)
  | modelRaises (m : Doc) (e : PyErr) (x : BuildErr V) : Merges subs m → (C.check false m).2 = some e →
      (x = .invalid 3 ∧ e = .validationError ∨ x = .failed 3 e) → Reason C subs x

end Spec
