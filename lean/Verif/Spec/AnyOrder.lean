import Verif.Spec.Combined
/-
Submodels that nowhere disagree, and the model that holds what all of them give.
-/
namespace Spec
open Py Model

/-- Two documents that nowhere disagree: one of them is `None`, they are the same value, or they are objects whose
documents under common keys nowhere disagree. -/
inductive Agree : Doc → Doc → Prop
  | left (b) : Agree .null b
  | right (a) : Agree a .null
  | same (a) : ¬ isDict a → Agree a a
  | objects (as bs) : (∀ k x y, dget as k = some x → dget bs k = some y → Agree x y) → Agree (.dict as) (.dict bs)

/-- The document that holds what the documents of a set give, and nothing else: their only value apart from `None`; or
an object with the keys of all of them, and under each key the document that holds what they give there. -/
inductive Gathers : (Doc → Prop) → Doc → Prop
  | nothing (D) : (∀ d, D d → d = .null) → Gathers D .null
  | value (D v) : v ≠ .null → ¬ isDict v → D v → (∀ d, D d → d = .null ∨ d = v) → Gathers D v
  | object (D kvs) : (∃ as, D (.dict as)) → (∀ d, D d → d = .null ∨ isDict d) →
      (∀ k, (dget kvs k).isSome ↔ ∃ as, D (.dict as) ∧ (dget as k).isSome) →
      (∀ k v, dget kvs k = some v → Gathers (fun x => ∃ as, D (.dict as) ∧ dget as k = some x) v) → Gathers D (.dict kvs)

/-- `None` is in the document. -/
inductive HasNone : Doc → Prop
  | here : HasNone .null
  | list (xs x) : x ∈ xs → HasNone x → HasNone (.list xs)
  | dict (kvs k x) : (k, x) ∈ kvs → HasNone x → HasNone (.dict kvs)

/-- One of the checks of values of the schema. -/
inductive CheckIn (defs : Str → Option CSchema) : CSchema → (Doc → Bool) → Prop
  | here (s p) : .check p ∈ s.kws → CheckIn defs s p
  | inside (s t p) : PartOfC defs s t → CheckIn defs t p → CheckIn defs s p

/-- No check of values of the schema looks at the order of keys. -/
def OrderBlind (defs : Str → Option CSchema) (s : CSchema) : Prop :=
  ∀ p, CheckIn defs s p → ∀ d d', SameJson d d' → p d = p d'

end Spec
