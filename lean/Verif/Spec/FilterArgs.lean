import Verif.Model.Recurring
/-
How the arguments of element-wise filters are given in a call-specification and what they mean, as their documentation says.
-/
namespace Spec
open Py Model

/-- The parameters that `recurse` is documented to have, in order. -/
def recurseParams : List Str := ["filters".toList, "include".toList, "exclude".toList, "depth".toList]

/-- The parameters that `pyeval` is documented to have, in order. -/
def pyevalParams : List Str :=
  ["filters".toList, "eval_all".toList, "include".toList, "exclude".toList, "depth".toList]

/-- The call gives this value for the parameter: by its place or by its name. -/
inductive GivesArg (names : List Str) (args : List Doc) (kwds : List (Str × Doc)) (k : Str) (v : Doc) : Prop
  | place (i : Nat) : names[i]? = some k → args[i]? = some v → GivesArg names args kwds k v
  | name : (k, v) ∈ kwds → GivesArg names args kwds k v

/-- The value that a call gives for a parameter, if any. -/
inductive SaysArg (names : List Str) (args : List Doc) (kwds : List (Str × Doc)) (k : Str) : Option Doc → Prop
  | given (v : Doc) : GivesArg names args kwds k v → SaysArg names args kwds k (some v)
  | missing : (∀ v, ¬ GivesArg names args kwds k v) → SaysArg names args kwds k none

/-- A call that fits the parameters: no more arguments than parameters, no name that is not of a parameter, and nothing given twice. -/
structure Fits (names : List Str) (args : List Doc) (kwds : List (Str × Doc)) : Prop where
  few : args.length ≤ names.length
  known : ∀ kv ∈ kwds, kv.1 ∈ names
  once : ∀ kv ∈ kwds, ∀ i, i < args.length → names[i]? ≠ some kv.1

/-- The keys that `include` or `exclude` speak of: `none` for all keys and for no key, respectively. -/
inductive KeysMean : Option Doc → Option (List Str) → Prop
  | missing : KeysMean none none
  | null : KeysMean (some .null) none
  | empty : KeysMean (some (.list [])) none
  | emptyText : KeysMean (some (.str [])) none
  | text (t : Str) : t ≠ [] → KeysMean (some (.str t)) (some [t])
  | texts (ts : List Str) : ts ≠ [] → KeysMean (some (.list (ts.map .str))) (some ts)

/-- How deep to dive: `none` for any depth; true and false are the numbers 1 and 0. -/
inductive DepthMeans : Option Doc → Option Int → Prop
  | missing : DepthMeans none none
  | null : DepthMeans (some .null) none
  | negative (i : Int) : i < 0 → DepthMeans (some (.int i)) none
  | number (n : Nat) : DepthMeans (some (.int n)) (some n)
  | flag (b : Bool) : DepthMeans (some (.bool b)) (some (if b then 1 else 0))

/-- The filters to apply to elements that were processed. -/
inductive FiltersMean : Option Doc → List Doc → Prop
  | missing : FiltersMean none []
  | list (fs : List Doc) : FiltersMean (some (.list fs)) fs

/-- Whether something is asked for. -/
inductive SwitchMeans : Option Doc → Bool → Prop
  | missing : SwitchMeans none false
  | given (b : Bool) : SwitchMeans (some (.bool b)) b

end Spec
