import Verif.Model.PandelHeap
import Verif.Spec.PandelHeap
/-
What setting at a json-pointer should do to the objects.
-/
namespace Spec
open Py Model

/-- The parts lead from the value to the object at `m`: a dictionary is entered by key, a list by a number (a negative one counts
from the end). -/
inductive WayTo (h : Heap) : Val → List Str → Nat → Prop
  | here (l) : WayTo h (.ref l) [] l
  | key (l kvs k v ps m) : h[l]? = some (.dict kvs) → dget kvs k = some v → WayTo h v ps m → WayTo h (.ref l) (k :: ps) m
  | item (l vs p) (n : Int) (j : Nat) (v ps m) : h[l]? = some (.list vs) → pyInt p = some n →
      (n = j ∨ n = (j : Int) - vs.length) → vs[j]? = some v → WayTo h v ps m → WayTo h (.ref l) (p :: ps) m

/-- An object and what it is after writing to the entry that a part of a pointer names: in a dictionary all other keys have their
values, and none is lost; in a list an element is replaced, or added at the end. -/
inductive OneEntry (p : Str) : Obj → Obj → Prop
  | entry (kvs kvs') : (∀ k, k ≠ p → dget kvs' k = dget kvs k) → (dget kvs' p).isSome → OneEntry p (.dict kvs) (.dict kvs')
  | item (vs) (n : Int) (j : Nat) (v) : pyInt p = some n → (n = j ∨ n = (j : Int) - vs.length) → j < vs.length →
      OneEntry p (.list vs) (.list (vs.set j v))
  | added (vs v) : OneEntry p (.list vs) (.list (vs ++ [v]))

/-- No object is at two places inside of the value. -/
inductive Unshared (h : Heap) : Val → Prop
  | scalar (v) : (∀ l, v ≠ .ref l) → Unshared h v
  | list (l vs) : h[l]? = some (.list vs) → (∀ v ∈ vs, Unshared h v) → (∀ v ∈ vs, ¬ Inside h v l) →
      vs.Pairwise (Apart h) → Unshared h (.ref l)
  | dict (l kvs) : h[l]? = some (.dict kvs) → (∀ kv ∈ kvs, Unshared h kv.2) → (∀ kv ∈ kvs, ¬ Inside h kv.2 l) →
      kvs.Pairwise (fun a b => Apart h a.2 b.2) → Unshared h (.ref l)

end Spec
