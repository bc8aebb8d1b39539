import Verif.Spec.Pmod
/-
Specification of mappings that are the same.
-/
namespace Spec
open Py Model

/-- Mappings that have the same names and regexes, with the same aliases, at all key-paths. -/
def SameMappings (x y : Pmod) : Prop :=
  ∀ ks, ((nodeAt x ks).isSome = true ↔ (nodeAt y ks).isSome = true) ∧ aliasAt x ks = aliasAt y ks

/-- The regexes that match a name, of some, in their order. -/
def matching (E : RegexLib) (t : Str) (ps : List Str) : List Str := ps.filter (fun p => (E.fullmatch p t).isSome)

/-- Regexes that match the same name come in the same order. -/
def SamePrecedence (E : RegexLib) (x y : Pmod) : Prop :=
  ∀ ks t, matching E t (regxsAt x ks) = matching E t (regxsAt y ks)

end Spec
