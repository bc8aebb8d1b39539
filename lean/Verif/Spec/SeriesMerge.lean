import Verif.Model.SeriesMerge
/-
What objects and Series hold, without the functions that merge them.
-/
namespace Spec
open Py Model

/-- `c`, which is not missing, is what an object or a Series holds under a label. -/
inductive HoldsAt : Tree → Label → Tree → Prop
  | object (kvs k c) : (k, c) ∈ kvs → c ≠ .null → HoldsAt (.dict kvs) (.name k) c
  | series (s l c) : (l, c) ∈ s → c ≠ .null → HoldsAt (.series s) l c

/-- `c`, which is not missing, is what a submodel of any kind puts under a label when it is merged with a Series: what objects and
Series hold; the items of a list under their positions; a single value under position 0. -/
inductive PutsAt : Tree → Label → Tree → Prop
  | held (t l c) : HoldsAt t l c → PutsAt t l c
  | item (xs i c) : xs[i]? = some c → c ≠ .null → PutsAt (.list xs) (.pos i) c
  | bool (b) : PutsAt (.bool b) (.pos 0) (.bool b)
  | int (i) : PutsAt (.int i) (.pos 0) (.int i)
  | atom (i) : PutsAt (.atom i) (.pos 0) (.atom i)
  | text (s) : PutsAt (.str s) (.pos 0) (.str s)

/-- Objects and Series have no repeated labels. -/
def LabelsOnce : Tree → Prop
  | .dict kvs => (kvs.map (·.1)).Nodup
  | .series s => (s.map (·.1)).Nodup
  | _ => True

/-- The labels of an object or a Series, also of missing values. -/
inductive HasLabel : Tree → Label → Prop
  | object (kvs k c) : (k, c) ∈ kvs → HasLabel (.dict kvs) (.name k)
  | series (s l c) : (l, c) ∈ s → HasLabel (.series s) l

/-- An object or a Series without repeated labels, or nothing. -/
inductive Labelled : Tree → Prop
  | nothing : Labelled .null
  | object (kvs) : (kvs.map (·.1)).Nodup → Labelled (.dict kvs)
  | series (s) : (s.map (·.1)).Nodup → Labelled (.series s)

/-- What is found along the keys of objects. -/
def along : List Str → Tree → Option Tree
  | [], t => some t
  | k :: ks, .dict kvs => match dget kvs k with
    | some t => along ks t
    | none => none
  | _ :: _, _ => none

/-- Objects along the keys have no repeated keys. -/
def KeysOnce : List Str → Tree → Prop
  | k :: ks, .dict kvs => (kvs.map (·.1)).Nodup ∧ ∀ t, dget kvs k = some t → KeysOnce ks t
  | _, _ => True

/-- `c` is the last of the values held by the submodels under a label. -/
inductive LastHeld : List Tree → Label → Tree → Prop
  | here (t ts l c) : HoldsAt t l c → (∀ u ∈ ts, ∀ c', ¬ HoldsAt u l c') → LastHeld (t :: ts) l c
  | later (t ts l c) : LastHeld ts l c → LastHeld (t :: ts) l c

end Spec
