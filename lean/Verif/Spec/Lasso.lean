import Verif.Model.Lasso
import Verif.Spec.Truth
/-
Specification vocabulary for the ranger and its filters.
-/
namespace Spec
open Py Model

/-- The option `k` has the value `v`: it does in the first layer that has it. -/
def OptVal (o : Opts) (k : Str) (v : Doc) : Prop :=
  ∃ pre layer post, o = pre ++ layer :: post ∧ (∀ p ∈ pre, dget p k = none) ∧ dget layer k = some v

/-- A call is lenient: its keyword says so or, without that keyword, the options do. -/
def Lax (o : Opts) (kwds : List (Str × Doc)) : Prop :=
  (∃ v, dget kwds "lax".toList = some v ∧ Truth v) ∨
  (dget kwds "lax".toList = none ∧ ∃ v, OptVal o "lax".toList v ∧ Truth v)

/-- The options ask for verbose error messages. -/
def Verbose (o : Opts) : Prop := ∃ v, OptVal o "verbose".toList v ∧ Truth v

/-- Without the keyword `lax`, that filters never see. -/
def withoutLax (kwds : List (Str × Doc)) : List (Str × Doc) := kwds.filter (fun p => p.1 ≠ "lax".toList)

/-- Running calls one after the other, each on the output of the one before. -/
inductive Runs {S : Type} (call : FRes S → Doc → Except PyErr (FRes S)) : List Doc → FRes S → FRes S → Prop
  | nil (l) : Runs call [] l l
  | cons (f fs l l' l'') : call l f = .ok l' → Runs call fs l' l'' → Runs call (f :: fs) l l''

/-- A step into a value. -/
inductive VStep
  | key (k : Str)
  | idx (i : Nat)
  deriving DecidableEq

/-- The value one step inside. -/
def stepIn : Doc → VStep → Option Doc
  | .dict kvs, .key k => dget kvs k
  | .list xs, .idx i => xs[i]?
  | _, _ => none

/-- The value at the end of a path. -/
def valAt : Doc → List VStep → Option Doc
  | d, [] => some d
  | d, s :: p => (stepIn d s).bind (fun d' => valAt d' p)

/-- Elements of a list or a dictionary are still there, with the same keys in the same order. -/
def SameShape : Doc → Doc → Prop
  | .list xs, .list ys => xs.length = ys.length
  | .dict a, .dict b => a.map (·.1) = b.map (·.1)
  | a, b => a = b

/-- No two items of any dictionary inside have the same key, as in Python. -/
inductive KeysOk : Doc → Prop
  | null : KeysOk .null
  | bool (b) : KeysOk (.bool b)
  | int (i) : KeysOk (.int i)
  | atom (t) : KeysOk (.atom t)
  | str (t) : KeysOk (.str t)
  | list (xs) : (∀ x ∈ xs, KeysOk x) → KeysOk (.list xs)
  | dict (kvs) : (kvs.map (·.1)).Nodup → (∀ p ∈ kvs, KeysOk p.2) → KeysOk (.dict kvs)

def isDict : Doc → Prop
  | .dict _ => True
  | _ => False

/-- The element function is asked about the element `x` at path `p` of `v`, at position `bc`: the path is
shorter than the depth limit, its keys are selected, and no list on the way was itself processed.
`ask bc x` is the element function's answer: `none` when it leaves the element alone. -/
inductive Reached (sel : Str → Prop) (depth : Option Int) (pandas : Bool)
    (ask : Option Coords → Doc → Option Doc) (v : Doc) (st : Option Coords) :
    List VStep → Doc → Option Coords → Prop
  | root : depth ≠ some 0 → Reached sel depth pandas ask v st [] v st
  | key (p kvs bc k x) : Reached sel depth pandas ask v st p (.dict kvs) bc → dget kvs k = some x → sel k →
      depth ≠ some ((p.length : Int) + 1) → Reached sel depth pandas ask v st (p ++ [.key k]) x none
  | idx (p xs bc i x) : Reached sel depth pandas ask v st p (.list xs) bc → ask bc (.list xs) = none →
      xs[i]? = some x → depth ≠ some ((p.length : Int) + 1) →
      Reached sel depth pandas ask v st (p ++ [.idx i]) x (updBase pandas p.length bc i)

end Spec

namespace Spec
open Py Model

/-- Key selection: only the included ones if any are given, and none of the excluded ones. -/
def Selected {α : Type} (incl excl : Option (List α)) (k : α) : Prop :=
  (∀ l, incl = some l → l ≠ [] → k ∈ l) ∧ (∀ l, excl = some l → k ∉ l)

/-- The answer of an element function: `none` if it leaves the element alone, else the value that `after`
finds in the lasso it returns, or in the current one with the value it returns. -/
def askOf {S : Type} (ef : EFun S) (after : Lasso S → Option Doc) (l : Lasso S) (bc : Option Coords) (x : Doc) :
    Option Doc :=
  match ef l bc x with
  | .ok (true, .lasso l') => after l'
  | .ok (true, .other d) => after { l with values := d }
  | _ => none

/-- The values after running a pipe of filters. -/
def valuesAfter {S : Type} (R : Ranger S) (filters : List Doc) (l : Lasso S) : Option Doc :=
  match R.pipe filters (.lasso l) with
  | .ok (.lasso l') => some l'.values
  | .ok (.other d) => some d
  | .error _ => none

/-- Whether an element function processes the element: `none` if it leaves it alone or fails. -/
def took {S : Type} (ef : EFun S) (l : Lasso S) (bc : Option Coords) (x : Doc) : Option Doc :=
  match ef l bc x with
  | .ok (true, _) => some x
  | _ => none

/-- The lasso for the element: the one that the element function returns, or the current one with the value that it returns. -/
inductive Hands {S : Type} (ef : EFun S) (l : Lasso S) (bc : Option Coords) (x : Doc) : Lasso S → Prop
  | lasso (m) : ef l bc x = .ok (true, .lasso m) → Hands ef l bc x m
  | value (d) : ef l bc x = .ok (true, .other d) → Hands ef l bc x { l with values := d }

/-- None of the sub-filters has the keyword `lax`. -/
def NoLax (filters : List Doc) : Prop :=
  ∀ f ∈ filters, ∀ c, parseCallSpec f = .ok c → dget c.kwds "lax".toList = none

/-- The same calls, without the keyword `lax`. -/
inductive SameButLax : List Doc → List Doc → Prop
  | nil : SameButLax [] []
  | cons (f g c fs gs) : parseCallSpec f = .ok c → parseCallSpec g = .ok { c with kwds := withoutLax c.kwds } → SameButLax fs gs →
      SameButLax (f :: fs) (g :: gs)

end Spec
