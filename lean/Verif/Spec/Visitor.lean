import Verif.Model.Visitor
import Verif.Spec.Pandel
/-
What a schema asks of a document, what validating does to the document, and when the two go together.
-/
namespace Spec
open Py Model

/-! ### What a schema asks -/

/-- The document is of the type. -/
inductive HasType (f : VFlags) : JType → Doc → Prop
  | object (kvs) : HasType f .object (.dict kvs)
  | array (xs) : HasType f .array (.list xs)
  | string (s) : HasType f .string (.str s)
  | boolean (b) : HasType f .boolean (.bool b)
  | integer (i) : HasType f .integer (.int i)
  | whole (i) : HasType f .number (.int i)
  | number (t) : f.num t = true → HasType f .number (.atom t)
  | null (d) : IsNull f.toAutoFlags d → HasType f .null d

/-- The same JSON value, whatever the order of the keys. -/
inductive SameJson : Doc → Doc → Prop
  | null : SameJson .null .null
  | bool (b) : SameJson (.bool b) (.bool b)
  | int (i) : SameJson (.int i) (.int i)
  | atom (t) : SameJson (.atom t) (.atom t)
  | str (s) : SameJson (.str s) (.str s)
  | list (xs ys) : xs.length = ys.length → (∀ (i : Nat) x y, xs[i]? = some x → ys[i]? = some y → SameJson x y) →
      SameJson (.list xs) (.list ys)
  | dict (as bs) : (∀ k, (dget as k).isSome = (dget bs k).isSome) →
      (∀ k x y, dget as k = some x → dget bs k = some y → SameJson x y) → SameJson (.dict as) (.dict bs)

/-- Equal as *Python* has it: the same JSON value, whatever the order of the keys, where true is also 1, and false is 0. -/
inductive SamePython : Doc → Doc → Prop
  | null : SamePython .null .null
  | bool (b) : SamePython (.bool b) (.bool b)
  | int (i) : SamePython (.int i) (.int i)
  | one : SamePython (.int 1) (.bool true)
  | zero : SamePython (.int 0) (.bool false)
  | yes : SamePython (.bool true) (.int 1)
  | no : SamePython (.bool false) (.int 0)
  | atom (t) : SamePython (.atom t) (.atom t)
  | str (s) : SamePython (.str s) (.str s)
  | list (xs ys) : xs.length = ys.length → (∀ (i : Nat) x y, xs[i]? = some x → ys[i]? = some y → SamePython x y) →
      SamePython (.list xs) (.list ys)
  | dict (as bs) : (∀ k, (dget as k).isSome = (dget bs k).isSome) →
      (∀ k x y, dget as k = some x → dget bs k = some y → SamePython x y) → SamePython (.dict as) (.dict bs)

/-- A boolean, or one of the numbers 0 and 1, is in the document. -/
inductive HasBit : Doc → Prop
  | bool (b) : HasBit (.bool b)
  | zero : HasBit (.int 0)
  | one : HasBit (.int 1)
  | list (xs x) : x ∈ xs → HasBit x → HasBit (.list xs)
  | dict (kvs k x) : (k, x) ∈ kvs → HasBit x → HasBit (.dict kvs)

/-- The schema with these keywords has the property. -/
def Declared (kws : List VKw) (k : Str) : Prop := ∃ ps, .properties ps ∈ kws ∧ k ∈ dkeys ps

mutual
/-- The document is as the schema asks. -/
inductive Valid (f : VFlags) : VSchema → Doc → Prop
  | mk (s d) : (∀ kw ∈ s.kws, Holds f s.kws kw d) → Valid f s d
/-- The document is as one of the keywords asks. -/
inductive Holds (f : VFlags) : List VKw → VKw → Doc → Prop
  | type (kws ts t d) : t ∈ ts → HasType f t d → Holds f kws (.type ts) d
  | properties (kws ps d) : (∀ kvs k s v, d = .dict kvs → (k, s) ∈ ps → dget kvs k = some v → Valid f s v) →
      Holds f kws (.properties ps) d
  | required (kws ns d) : (∀ kvs n, d = .dict kvs → n ∈ ns → (dget kvs n).isSome) → Holds f kws (.required ns) d
  | allowed (kws d) : Holds f kws (.additional true) d
  | additional (kws d) : (∀ kvs k, d = .dict kvs → (dget kvs k).isSome → Declared kws k) →
      Holds f kws (.additional false) d
  | additionalS (kws s d) : (∀ kvs k v, d = .dict kvs → ¬ Declared kws k → dget kvs k = some v → Valid f s v) →
      Holds f kws (.additionalS s) d
  | propertyNames (kws s d) : (∀ kvs k, d = .dict kvs → (dget kvs k).isSome → Valid f s (.str k)) →
      Holds f kws (.propertyNames s) d
  | enum (kws vs v d) : v ∈ vs → SameJson v d → Holds f kws (.enum vs) d
  | items (kws s d) : (∀ xs x, d = .list xs → x ∈ xs → Valid f s x) → Holds f kws (.items s) d
end

/-! ### Conditions on schemas -/

/-- The second is one of the schemas right inside the first. -/
inductive PartOf : VSchema → VSchema → Prop
  | property (s ps k t) : .properties ps ∈ s.kws → (k, t) ∈ ps → PartOf s t
  | additional (s t) : .additionalS t ∈ s.kws → PartOf s t
  | names (s t) : .propertyNames t ∈ s.kws → PartOf s t
  | items (s t) : .items t ∈ s.kws → PartOf s t

/-- A schema and all those inside it are such. -/
inductive Throughout (P : VSchema → Prop) : VSchema → Prop
  | mk (s) : P s → (∀ t, PartOf s t → Throughout P t) → Throughout P s

/-- A keyword that can change the document. -/
inductive Changes : VKw → Prop
  | properties (ps) : Changes (.properties ps)
  | additionalS (s) : Changes (.additionalS s)
  | items (s) : Changes (.items s)

/-- Schemas are dictionaries: `type` and the keywords that can change the document are not there twice, and no
name of a property is there twice. -/
def DictSchema (s : VSchema) : Prop :=
  s.kws.Pairwise (fun a b => ¬ ((∃ ps qs, a = .properties ps ∧ b = .properties qs) ∨
    (∃ t u, a = .additionalS t ∧ b = .additionalS u) ∨ (∃ t u, a = .items t ∧ b = .items u))) ∧
  s.kws.Pairwise (fun a b => ¬ ∃ ts us, a = .type ts ∧ b = .type us) ∧
  ∀ ps, .properties ps ∈ s.kws → (dkeys ps).Nodup

/-- Running the second keyword after the first one may spoil what the first one has found. -/
inductive Spoils : VKw → VKw → Prop
  | required (ns ps) : Spoils (.required ns) (.properties ps)
  | names (s ps) : Spoils (.propertyNames s) (.properties ps)
  | enum (vs kw) : Changes kw → Spoils (.enum vs) kw

/-- The keywords are in an order where nothing spoils what was found before. -/
def Settled (s : VSchema) : Prop := s.kws.Pairwise (fun a b => ¬ Spoils a b)

/-- The values listed are scalars other than the numbers 0 and 1. -/
inductive ClearValue : Doc → Prop
  | null : ClearValue .null
  | bool (b) : ClearValue (.bool b)
  | int (i) : i ≠ 0 → i ≠ 1 → ClearValue (.int i)
  | atom (t) : ClearValue (.atom t)
  | str (s) : ClearValue (.str s)

/-- All enumerations are of such values. -/
def ClearEnums (s : VSchema) : Prop := ∀ vs, .enum vs ∈ s.kws → ∀ v ∈ vs, ClearValue v

/-- The type of the schema lets nulls in. -/
def NullAllowed (s : VSchema) : Prop := ∃ ts, .type ts ∈ s.kws ∧ .null ∈ ts

/-- No property is one whose nulls are removed and that is filled in when missing, but not when null. -/
def Steady (f : VFlags) (s : VSchema) : Prop :=
  ∀ ps k t, .properties ps ∈ s.kws → (k, t) ∈ ps → ¬ (¬ NullAllowed t ∧ t.default.isSome ∧
    On t.autoDefault f.autoDefault ∧ On t.autoRemoveNull f.autoRemoveNulls ∧
    ¬ On t.autoDefaultNull f.autoDefaultNulls)

/-! ### What validating does -/

/-- One of the arguments asks for defaults. -/
def Asked (f : VFlags) : Prop :=
  f.autoDefault = some true ∨ f.autoDefaultNulls = some true ∨ f.autoRemoveNulls = some true

/-- As far as defaults are concerned, the schema `s` is `p`. -/
structure Says (s : VSchema) (p : PSchema) : Prop where
  default : p.default = s.default
  autoDefault : p.autoDefault = s.autoDefault
  autoDefaultNull : p.autoDefaultNull = s.autoDefaultNull
  autoRemoveNull : p.autoRemoveNull = s.autoRemoveNull
  nullable : Nullable p ↔ NullAllowed s

/-- What a property is before its own schema is looked at. -/
inductive Given (f : VFlags) (s : VSchema) : Option Doc → Option Doc → Prop
  | filled (p a b) : Asked f → Says s p → Filled f.toAutoFlags p a b → Given f s a b
  | asIs (a) : ¬ Asked f → Given f s a a

/-- The document `d` becomes `d'`: properties are filled in, and the same goes on inside of them, inside
additional properties and items that have a schema; everything else stays. -/
inductive Completed (f : VFlags) : VSchema → Doc → Doc → Prop
  | scalar (s d) : (∀ kvs, d ≠ .dict kvs) → (∀ xs, d ≠ .list xs) → Completed f s d d
  | list (s xs) (ys : List Doc) : xs.length = ys.length →
      (∀ t (i : Nat) x y, .items t ∈ s.kws → xs[i]? = some x → ys[i]? = some y → Completed f t x y) →
      ((∀ t, .items t ∉ s.kws) → ys = xs) → Completed f s (.list xs) (.list ys)
  | object (s kvs kvs') :
      (∀ ps k t g, .properties ps ∈ s.kws → (k, t) ∈ ps → Given f t (dget kvs k) g →
        (dget kvs' k).isSome = g.isSome) →
      (∀ ps k t v v', .properties ps ∈ s.kws → (k, t) ∈ ps → Given f t (dget kvs k) (some v) →
        dget kvs' k = some v' → Completed f t v v') →
      (∀ k, ¬ Declared s.kws k → (dget kvs' k).isSome = (dget kvs k).isSome) →
      (∀ t k v v', .additionalS t ∈ s.kws → ¬ Declared s.kws k → dget kvs k = some v → dget kvs' k = some v' →
        Completed f t v v') →
      ((∀ t, .additionalS t ∉ s.kws) → ∀ k, ¬ Declared s.kws k → dget kvs' k = dget kvs k) →
      Completed f s (.dict kvs) (.dict kvs')

end Spec
