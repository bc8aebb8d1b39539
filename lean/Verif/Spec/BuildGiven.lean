import Verif.Spec.Combined
/-
Which values a stack of submodels gives.
-/
namespace Spec
open Py Model

/-- The document gives the value at the path of keys. -/
inductive GivesAt : Doc → List Str → Doc → Prop
  | here (v) : GivesAt v [] v
  | inside (kvs k x p v) : dget kvs k = some x → GivesAt x p v → GivesAt (.dict kvs) (k :: p) v

/-- The document says nothing about the path: on the way there, a key is missing or null. -/
inductive Silent : Doc → List Str → Prop
  | null (p) : Silent .null p
  | missing (kvs k p) : dget kvs k = none → Silent (.dict kvs) (k :: p)
  | inside (kvs k x p) : dget kvs k = some x → Silent x p → Silent (.dict kvs) (k :: p)

/-- Neither an object nor a list nor null. -/
inductive Scalar : Doc → Prop
  | bool (b) : Scalar (.bool b)
  | int (i) : Scalar (.int i)
  | atom (t) : Scalar (.atom t)
  | str (s) : Scalar (.str s)

/-- Of the submodels, the last one that says anything about the path gives the value. -/
inductive LastGiven (p : List Str) (v : Doc) : List Doc → Prop
  | last (before d after) : GivesAt d p v → (∀ e ∈ after, Silent e p) → LastGiven p v (before ++ d :: after)

/-- The value is a text, and one of the submodels gives a list at the path. -/
def TextAndList (subs : List Doc) (p : List Str) (v : Doc) : Prop :=
  (∃ s, v = .str s) ∧ ∃ d ∈ subs, ∃ xs, GivesAt d p (.list xs)

/-- Somewhere in the schema there is a property of which nulls are to be removed. -/
inductive RemovalIn (f : VFlags) (defs : Str → Option CSchema) : CSchema → Prop
  | here (s ps k t) : .properties ps ∈ s.kws → (k, t) ∈ ps → On t.head.autoRemoveNull f.autoRemoveNulls → RemovalIn f defs s
  | inside (s t) : PartOfC defs s t → RemovalIn f defs t → RemovalIn f defs s

end Spec
