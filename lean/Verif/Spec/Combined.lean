import Verif.Model.Combined
import Verif.Spec.Visitor
/-
Places in documents, what may be added by a validation, and what schemas with combined keywords ask.
-/
namespace Spec
open Py Model

/-- A step into a document: a key of an object, or a position in a list. -/
inductive Place
  | key (k : Str)
  | item (i : Nat)

/-- What is at a place of a document. -/
def placed : List Place → Doc → Option Doc
  | [], d => some d
  | .key k :: p, .dict kvs => match dget kvs k with
    | some v => placed p v
    | none => none
  | .item i :: p, .list xs => match xs[i]? with
    | some v => placed p v
    | none => none
  | _ :: _, _ => none

/-- `v'` is `v`, if that is a scalar; if it is an object or a list, `v'` is one too, of the same length if a list. -/
inductive SameKind : Doc → Doc → Prop
  | scalar (v) : (∀ kvs, v ≠ .dict kvs) → (∀ xs, v ≠ .list xs) → SameKind v v
  | object (kvs kvs') : SameKind (.dict kvs) (.dict kvs')
  | list (xs ys) : xs.length = ys.length → SameKind (.list xs) (.list ys)

/-- Everything in `d` that is no null is still in `d'`. -/
def StillThere (f : VFlags) (d d' : Doc) : Prop :=
  ∀ p v, placed p d = some v → ¬ IsNull f.toAutoFlags v → ∃ v', placed p d' = some v' ∧ SameKind v v'

/-- The second is one of the schemas right inside the first, or referred to. -/
inductive PartOfC (defs : Str → Option CSchema) : CSchema → CSchema → Prop
  | property (s ps k t) : .properties ps ∈ s.kws → (k, t) ∈ ps → PartOfC defs s t
  | keyed (s sel t) : .keyed sel t ∈ s.kws → PartOfC defs s t
  | items (s t) : .items t ∈ s.kws → PartOfC defs s t
  | allOf (s ss t) : .allOf ss ∈ s.kws → t ∈ ss → PartOfC defs s t
  | anyOf (s ss t) : .anyOf ss ∈ s.kws → t ∈ ss → PartOfC defs s t
  | oneOf (s ss t) : .oneOf ss ∈ s.kws → t ∈ ss → PartOfC defs s t
  | not (s t) : .not t ∈ s.kws → PartOfC defs s t
  | cond (s c t e u) : .cond c t e ∈ s.kws → u = c ∨ u = t ∨ u = e → PartOfC defs s u
  | ref (s name t) : .ref name ∈ s.kws → defs name = some t → PartOfC defs s t

/-- Somewhere in the schema there is a default for a property of that name. -/
inductive DefaultIn (defs : Str → Option CSchema) : CSchema → Str → Doc → Prop
  | here (s ps k t v) : .properties ps ∈ s.kws → (k, t) ∈ ps → t.default = some v → DefaultIn defs s k v
  | inside (s t k v) : PartOfC defs s t → DefaultIn defs t k v → DefaultIn defs s k v

/-- The type of values of the schema may be null. -/
def CSchema.Nullable : CSchema → Prop | .mk _ n _ _ _ _ => n = true

/-- Somewhere in the schema there is this schema for a property of that name. -/
inductive PropertyIn (defs : Str → Option CSchema) : CSchema → Str → CSchema → Prop
  | here (s ps k t) : .properties ps ∈ s.kws → (k, t) ∈ ps → PropertyIn defs s k t
  | inside (s u k t) : PartOfC defs s u → PropertyIn defs u k t → PropertyIn defs s k t

mutual
/-- The document is as the schema asks. -/
inductive ValidC (defs : Str → Option CSchema) : CSchema → Doc → Prop
  | mk (s d) : (∀ kw ∈ s.kws, HoldsC defs kw d) → ValidC defs s d
/-- The document is not as the schema asks. -/
inductive InvalidC (defs : Str → Option CSchema) : CSchema → Doc → Prop
  | mk (s d kw) : kw ∈ s.kws → FailsC defs kw d → InvalidC defs s d
/-- The document is as the keyword asks. -/
inductive HoldsC (defs : Str → Option CSchema) : CKw → Doc → Prop
  | check (p d) : p d = true → HoldsC defs (.check p) d
  | properties (ps d) : (∀ kvs k s v, d = .dict kvs → (k, s) ∈ ps → dget kvs k = some v → ValidC defs s v) →
      HoldsC defs (.properties ps) d
  | keyed (sel s d) : (∀ kvs k v, d = .dict kvs → sel k = true → dget kvs k = some v → ValidC defs s v) →
      HoldsC defs (.keyed sel s) d
  | items (s d) : (∀ xs x, d = .list xs → x ∈ xs → ValidC defs s x) → HoldsC defs (.items s) d
  | allOf (ss d) : (∀ s ∈ ss, ValidC defs s d) → HoldsC defs (.allOf ss) d
  | anyOf (ss s d) : s ∈ ss → ValidC defs s d → HoldsC defs (.anyOf ss) d
  | oneOf (ss bef s aft d) : ss = bef ++ s :: aft → ValidC defs s d → (∀ t ∈ bef, InvalidC defs t d) →
      (∀ t ∈ aft, InvalidC defs t d) → HoldsC defs (.oneOf ss) d
  | not (s d) : InvalidC defs s d → HoldsC defs (.not s) d
  | thens (c t e d) : ValidC defs c d → ValidC defs t d → HoldsC defs (.cond c t e) d
  | elses (c t e d) : InvalidC defs c d → ValidC defs e d → HoldsC defs (.cond c t e) d
  | ref (name s d) : defs name = some s → ValidC defs s d → HoldsC defs (.ref name) d
/-- The document is not as the keyword asks. -/
inductive FailsC (defs : Str → Option CSchema) : CKw → Doc → Prop
  | check (p d) : p d = false → FailsC defs (.check p) d
  | properties (ps kvs k s v) : (k, s) ∈ ps → dget kvs k = some v → InvalidC defs s v → FailsC defs (.properties ps) (.dict kvs)
  | keyed (sel s kvs k v) : sel k = true → dget kvs k = some v → InvalidC defs s v → FailsC defs (.keyed sel s) (.dict kvs)
  | items (s xs x) : x ∈ xs → InvalidC defs s x → FailsC defs (.items s) (.list xs)
  | allOf (ss s d) : s ∈ ss → InvalidC defs s d → FailsC defs (.allOf ss) d
  | anyOf (ss d) : (∀ s ∈ ss, InvalidC defs s d) → FailsC defs (.anyOf ss) d
  | noneOf (ss d) : (∀ s ∈ ss, InvalidC defs s d) → FailsC defs (.oneOf ss) d
  | manyOf (ss l1 s l2 t l3 d) : ss = l1 ++ s :: (l2 ++ t :: l3) → ValidC defs s d → ValidC defs t d → FailsC defs (.oneOf ss) d
  | not (s d) : ValidC defs s d → FailsC defs (.not s) d
  | thens (c t e d) : ValidC defs c d → InvalidC defs t d → FailsC defs (.cond c t e) d
  | elses (c t e d) : InvalidC defs c d → InvalidC defs e d → FailsC defs (.cond c t e) d
  | ref (name s d) : defs name = some s → InvalidC defs s d → FailsC defs (.ref name) d
end

end Spec
