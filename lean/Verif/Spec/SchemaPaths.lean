import Verif.Model.SchemaPaths
/-
Specification of the leaves of a schema. Uses only the type of schemas of the model.
-/
namespace Spec
open Py Model

/-- The chain of property names leads from the schema to a leaf, that is a schema without properties,
going through the alternatives of "oneOf", "anyOf" and "allOf" for free. -/
inductive LeafChain : Schema → List Str → Prop
  | leaf {s} : s.props = [] → LeafChain s []
  | fork {s t names} : t ∈ s.oneOf ∨ t ∈ s.anyOf ∨ t ∈ s.allOf → LeafChain t names → LeafChain s names
  | prop {s p t names} : (p, t) ∈ s.props → LeafChain t names → LeafChain s (p :: names)

/-- All property names anywhere in the schema satisfy `P`. -/
inductive AllNames (P : Str → Prop) : Schema → Prop
  | mk {s} : (∀ t, t ∈ s.oneOf ∨ t ∈ s.anyOf ∨ t ∈ s.allOf → AllNames P t) →
      (∀ p t, (p, t) ∈ s.props → P p) → (∀ p t, (p, t) ∈ s.props → AllNames P t) → AllNames P s

/-- The name can be written in a pointer as it is: it has no slash, and no tilde before a `0` or a `1`. -/
def PlainName (p : Str) : Prop := '/' ∉ p ∧ ¬ "~0".toList <:+: p ∧ ¬ "~1".toList <:+: p

end Spec
