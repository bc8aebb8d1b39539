import Verif.Model.ErrorPaths
import Verif.Spec.Visitor
/-
What there is to report about a document, and where a path leads.
-/
namespace Spec
open Py Model

/-- The path leads from the document to the value. -/
inductive LeadsTo : List ErrStep → Doc → Doc → Prop
  | here (d) : LeadsTo [] d d
  | key (k p kvs v w) : dget kvs k = some v → LeadsTo p v w → LeadsTo (.key k :: p) (.dict kvs) w
  | index (i p) (xs : List Doc) (x w) : xs[i]? = some x → LeadsTo p x w → LeadsTo (.index i :: p) (.list xs) w

mutual
/-- The document breaks the schema in the way that the error says. -/
inductive Breach (f : VFlags) : VSchema → Doc → VErr → Prop
  | mk (s d kw e) : kw ∈ s.kws → BreachOf f s.kws kw d e → Breach f s d e
/-- The document breaks one of the keywords in the way that the error says. -/
inductive BreachOf (f : VFlags) : List VKw → VKw → Doc → VErr → Prop
  | type (kws ts d) : (∀ t ∈ ts, ¬ HasType f t d) → BreachOf f kws (.type ts) d .wrongType
  | property (kws ps kvs k s v e) : (k, s) ∈ ps → dget kvs k = some v → Breach f s v e →
      BreachOf f kws (.properties ps) (.dict kvs) (.inside k e)
  | required (kws ns kvs n) : n ∈ ns → dget kvs n = none → BreachOf f kws (.required ns) (.dict kvs) (.missing n)
  | additional (kws kvs) (ks : List Str) : ks ≠ [] → ks.Nodup → (∀ k, k ∈ ks ↔ (dget kvs k).isSome ∧ ¬ Declared kws k) →
      BreachOf f kws (.additional false) (.dict kvs) (.unexpected ks)
  | additionalS (kws s kvs k v e) : ¬ Declared kws k → dget kvs k = some v → Breach f s v e →
      BreachOf f kws (.additionalS s) (.dict kvs) (.inside k e)
  | propertyName (kws s kvs k e) : (dget kvs k).isSome → Breach f s (.str k) e →
      BreachOf f kws (.propertyNames s) (.dict kvs) (.name k e)
  | enum (kws vs d) : (∀ v ∈ vs, ¬ SameJson v d) → BreachOf f kws (.enum vs) d .notListed
  | items (kws s i) (xs : List Doc) (x e) : xs[i]? = some x → Breach f s x e →
      BreachOf f kws (.items s) (.list xs) (.item i e)
end

/-- The same is said, at the same place; the order in which unexpected keys are listed does not matter. -/
inductive SameError : VErr → VErr → Prop
  | wrongType : SameError .wrongType .wrongType
  | missing (k) : SameError (.missing k) (.missing k)
  | unexpected (ks ks') : ks.Perm ks' → SameError (.unexpected ks) (.unexpected ks')
  | notListed : SameError .notListed .notListed
  | inside (k e e') : SameError e e' → SameError (.inside k e) (.inside k e')
  | item (i e e') : SameError e e' → SameError (.item i e) (.item i e')
  | name (k e e') : SameError e e' → SameError (.name k e) (.name k e')

/-- The second is the first schema, or one somewhere inside of it. -/
inductive WithinSchema : VSchema → VSchema → Prop
  | self (s) : WithinSchema s s
  | inside (s t u) : PartOf s t → WithinSchema t u → WithinSchema s u

end Spec
