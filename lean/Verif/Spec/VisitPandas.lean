import Verif.Model.VisitPandas
import Verif.Spec.ErrorPaths
/-
What documents with *pandas* and *numpy* objects stand for: the table at `pandalone/pandata.py:357-375`.
-/
namespace Spec
open Py Model

/-- The schema `t` is for the property `k` of what `s` is for. -/
inductive ForProperty (s : VSchema) : Str → VSchema → Prop
  | own (ps k t) : .properties ps ∈ s.kws → (k, t) ∈ ps → ForProperty s k t
  | extra (k t) : .additionalS t ∈ s.kws → ¬ Declared s.kws k → ForProperty s k t

/-- The schema says nothing about arrays. -/
def NothingOnArrays (s : VSchema) : Prop :=
  (∀ t, .items t ∉ s.kws) ∧ ∀ ts, .type ts ∈ s.kws → .array ∉ ts

/-- The schema says nothing about objects. -/
def NothingOnObjects (s : VSchema) : Prop :=
  (∀ ps, .properties ps ∉ s.kws) ∧ (∀ ns, .required ns ∉ s.kws) ∧ (∀ b, .additional b ∉ s.kws) ∧ (∀ t, .additionalS t ∉ s.kws) ∧
  (∀ t, .propertyNames t ∉ s.kws) ∧ ∀ ts, .type ts ∈ s.kws → .object ∉ ts

/-- The columns with these names: all names are different. -/
def ByNames {α : Type} (xs : List (Label × α)) (kvs : List (Str × α)) : Prop :=
  xs = kvs.map (fun e => (.name e.1, e.2)) ∧ (dkeys kvs).Nodup

/-- There is just one value, a NaN among numbers. -/
def LoneNaN (f : VFlags) (numeric : Bool) (xs : List Scal) : Prop := numeric = true ∧ ∃ t, f.nan t = true ∧ xs = [.atom t]

/-- Seen with a schema, the first document stands for the second one, in which a Series is an object with the labels as keys or an array,
whichever the schema is about, a DataFrame is an object with the names of its columns as keys, and what is under a name is the column.
A schema that takes nulls is left out where all there is is one NaN among numbers. -/
inductive Stands (f : VFlags) : VSchema → PDoc → Doc → Prop
  | scalar (s np x) : Stands f s (.scal np x) x.doc
  | list (s xs) (ys : List Doc) : xs.length = ys.length →
      (∀ t (i : Nat) x y, .items t ∈ s.kws → xs[i]? = some x → ys[i]? = some y → Stands f t x y) → Stands f s (.list xs) (.list ys)
  | dict (s kvs kvs') : (∀ k, (dget kvs k).isSome = (dget kvs' k).isSome) →
      (∀ t k x y, ForProperty s k t → dget kvs k = some x → dget kvs' k = some y → Stands f t x y) → Stands f s (.dict kvs) (.dict kvs')
  | array (s b xs) : ¬ (NullAllowed s ∧ LoneNaN f b xs) → Stands f s (.arr b xs) (.list (xs.map Scal.doc))
  | seriesArray (s b es) : NothingOnObjects s → ¬ (NullAllowed s ∧ LoneNaN f b (es.map (·.2))) → Stands f s (.series b es) (.list (es.map (fun e => e.2.doc)))
  | seriesObject (s b es kvs) : NothingOnArrays s → ¬ (NullAllowed s ∧ LoneNaN f b (es.map (·.2))) → ByNames es kvs →
      Stands f s (.series b es) (.dict (kvs.map (fun e => (e.1, e.2.doc))))
  | frame (s index cols kvs kvs') : ¬ (NullAllowed s ∧ ∃ l b xs, cols = [(l, b, xs)] ∧ LoneNaN f b xs) → ByNames cols kvs →
      (∀ k, (dget kvs k).isSome = (dget kvs' k).isSome) →
      (∀ t k c y, ForProperty s k t → dget kvs k = some c → dget kvs' k = some y → Stands f t (.series c.1 (index.zip c.2)) y) →
      Stands f s (.frame index cols) (.dict kvs')

/-- The values listed are texts, nulls, numbers other than 0 and 1, and other scalars. -/
def NoBits (s : VSchema) : Prop := ∀ vs, .enum vs ∈ s.kws → ∀ v ∈ vs, ClearValue v ∧ ∀ b, v ≠ .bool b

/-- The same is said, at the same place, labels being the texts that they are; the order in which unexpected labels are listed does not
matter. -/
inductive SaysSame : PvErr → VErr → Prop
  | wrongType : SaysSame .wrongType .wrongType
  | missing (k) : SaysSame (.missing k) (.missing k)
  | unexpected (ls : List Label) (ks : List Str) : ls.Perm (ks.map .name) → SaysSame (.unexpected ls) (.unexpected ks)
  | notListed : SaysSame .notListed .notListed
  | inside (k e e') : SaysSame e e' → SaysSame (.inside (.name k) e) (.inside k e')
  | item (i e e') : SaysSame e e' → SaysSame (.item i e) (.item i e')
  | name (k e e') : SaysSame e e' → SaysSame (.name (.name k) e) (.name k e')

end Spec
