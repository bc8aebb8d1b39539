import Verif.Model.PandelHeap
/-
What the building of unified models should do to the objects it was given.
-/
namespace Spec
open Py Model

/-- What can be looked up. -/
abbrev View := Nat → Option Obj

mutual
/-- The value `v` is the document `d`, through all references. -/
inductive Reads (g : View) : Val → Doc → Prop
  | null : Reads g .null .null
  | bool (b) : Reads g (.bool b) (.bool b)
  | int (i) : Reads g (.int i) (.int i)
  | atom (t) : Reads g (.atom t) (.atom t)
  | str (s) : Reads g (.str s) (.str s)
  | list (l vs ds) : g l = some (.list vs) → ReadsList g vs ds → Reads g (.ref l) (.list ds)
  | dict (l kvs ds) : g l = some (.dict kvs) → ReadsItems g kvs ds → Reads g (.ref l) (.dict ds)
inductive ReadsList (g : View) : List Val → List Doc → Prop
  | nil : ReadsList g [] []
  | cons (v d vs ds) : Reads g v d → ReadsList g vs ds → ReadsList g (v :: vs) (d :: ds)
inductive ReadsItems (g : View) : List (Str × Val) → List (Str × Doc) → Prop
  | nil : ReadsItems g [] []
  | cons (k v d vs ds) : Reads g v d → ReadsItems g vs ds → ReadsItems g ((k, v) :: vs) ((k, d) :: ds)
end

/-- All that is on a heap can be looked up. -/
def whole (h : Heap) : View := fun l => h[l]?

/-- The first `n` objects are as they were. -/
def Kept (n : Nat) (h h' : Heap) : Prop := ∀ l, l < n → h'[l]? = h[l]?

/-- Not one of the first `n` objects. -/
def NewTo (n : Nat) (v : Val) : Prop := ∀ l, v = .ref l → n ≤ l

/-- The validations, and the curations of a model that is new, write to none of the first `n` objects. -/
structure Careful (n : Nat) (mk : MakerH) : Prop where
  validator : ∀ pre h v, n ≤ h.length → Kept n h (mk.validator pre h v).1
  grows : ∀ pre h v, h.length ≤ (mk.validator pre h v).1.length
  curators : ∀ c ∈ mk.curators, ∀ h v, n ≤ h.length → NewTo n v →
    Kept n h (c h v).1 ∧ n ≤ (c h v).1.length ∧ NewTo n (c h v).2.1

/-- The depth of nesting. -/
inductive DepthLe : Nat → Doc → Prop
  | null (n) : DepthLe n .null
  | bool (n b) : DepthLe n (.bool b)
  | int (n i) : DepthLe n (.int i)
  | atom (n t) : DepthLe n (.atom t)
  | str (n s) : DepthLe n (.str s)
  | list (n ds) : (∀ d ∈ ds, DepthLe n d) → DepthLe (n + 1) (.list ds)
  | dict (n ds) : (∀ kd ∈ ds, DepthLe n kd.2) → DepthLe (n + 1) (.dict ds)

/-- An object that may have gained keys, but has lost nothing: a list is as it was, a dictionary has the
same values under the keys it had. -/
inductive Gained : Obj → Obj → Prop
  | list (vs) : Gained (.list vs) (.list vs)
  | dict (kvs kvs') : (∀ k v, dget kvs k = some v → dget kvs' k = some v) → Gained (.dict kvs) (.dict kvs')

/-- The object at `l` is the value, or inside of it at any depth. -/
inductive Inside (h : Heap) (v : Val) : Nat → Prop
  | here (l) : v = .ref l → Inside h v l
  | item (l vs m) : Inside h v l → h[l]? = some (.list vs) → .ref m ∈ vs → Inside h v m
  | entry (l kvs k m) : Inside h v l → h[l]? = some (.dict kvs) → (k, .ref m) ∈ kvs → Inside h v m

/-- A default of a property, at any depth. -/
inductive IsDefault : DSchema → Val → Prop
  | here (d ps k s x) : (k, s) ∈ ps → s.default = some x → IsDefault (.mk d ps) x
  | inside (d ps k s x) : (k, s) ∈ ps → IsDefault s x → IsDefault (.mk d ps) x

/-- The two values have no object in common. -/
def Apart (h : Heap) (v w : Val) : Prop := ∀ l, Inside h v l → ¬ Inside h w l

end Spec
