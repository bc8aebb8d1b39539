import Verif.Spec.Combined
/-
The errors that there are in a document, for schemas with combined keywords, each said with its place.
-/
namespace Spec
open Py Model

mutual
/-- This error is in the document: it is not as one of the keywords of the schema asks. -/
inductive BreachC (defs : Str → Option CSchema) : CSchema → Doc → CErr → Prop
  | mk (s d kw e) : kw ∈ s.kws → BreachOfC defs kw d e → BreachC defs s d e
/-- This error is in the document: it is not as the keyword asks. -/
inductive BreachOfC (defs : Str → Option CSchema) : CKw → Doc → CErr → Prop
  | check (p d) : p d = false → BreachOfC defs (.check p) d .failed
  | properties (ps kvs k s v e) : (k, s) ∈ ps → dget kvs k = some v → BreachC defs s v e →
      BreachOfC defs (.properties ps) (.dict kvs) (.inside k e)
  | keyed (sel s kvs k v e) : sel k = true → dget kvs k = some v → BreachC defs s v e →
      BreachOfC defs (.keyed sel s) (.dict kvs) (.inside k e)
  | items (s xs) (i : Nat) (x e) : xs[i]? = some x → BreachC defs s x e → BreachOfC defs (.items s) (.list xs) (.item i e)
  | allOf (ss s d e) : s ∈ ss → BreachC defs s d e → BreachOfC defs (.allOf ss) d e
  | anyOf (ss d) : (∀ s ∈ ss, InvalidC defs s d) → BreachOfC defs (.anyOf ss) d .noAlternative
  | noneOf (ss d) : (∀ s ∈ ss, InvalidC defs s d) → BreachOfC defs (.oneOf ss) d .noAlternative
  | manyOf (ss l1 s l2 t l3 d) : ss = l1 ++ s :: (l2 ++ t :: l3) → ValidC defs s d → ValidC defs t d →
      BreachOfC defs (.oneOf ss) d .manyAlternatives
  | not (s d) : ValidC defs s d → BreachOfC defs (.not s) d .excluded
  | thens (c t e d err) : ValidC defs c d → BreachC defs t d err → BreachOfC defs (.cond c t e) d err
  | elses (c t e d err) : InvalidC defs c d → BreachC defs e d err → BreachOfC defs (.cond c t e) d err
  | ref (name s d err) : defs name = some s → BreachC defs s d err → BreachOfC defs (.ref name) d err
end

/-- The place that an error names. -/
def CErr.places : CErr → List Place
  | .inside k e => .key k :: CErr.places e
  | .item i e => .item i :: CErr.places e
  | _ => []

/-- The second schema is the first one, or somewhere inside it, or referred to from there. -/
inductive WithinC (defs : Str → Option CSchema) : CSchema → CSchema → Prop
  | self (s) : WithinC defs s s
  | part (s t u) : PartOfC defs s t → WithinC defs t u → WithinC defs s u

end Spec
