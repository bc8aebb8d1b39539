import Verif.Model.Lasso
/-
Model of what lassos of `pandalone/xleash/_lasso.py` do to the call-specifications that their callers give them
(`do_lasso(xlref, call_spec=...)`): `make_call` pops `lax` from the very dictionary of the caller, and filters get the very
objects of its arguments.
-/
namespace Model
open Py

/-- A filter function: what it leaves of its arguments, and what it returns or raises. `*args` and `**kwds` are new containers in
Python; what is in them is not. -/
abbrev FFunA (S : Type) := Lasso S → List Doc → List (Str × Doc) → (List Doc × List (Str × Doc)) × Except PyErr (FRes S)

/-- An entry of `available_filters`, see `FRec`. -/
structure FRecA (S : Type) where
  func : FFunA S
  desc : Bool

/-- `pandalone/xleash/_lasso.py:47-95` `Ranger`, see `Model.Ranger`. -/
structure RangerA (S : Type) where
  fetch : Option Str → Option Str → Option S → Except PyErr S
  baseOpts : List (Str × Doc)
  filters : Str → Option (FRecA S)

/-- The ranger whose filters are taken for what they return. -/
def RangerA.plain {S : Type} (R : RangerA S) : Ranger S :=
  ⟨R.fetch, R.baseOpts, fun f => (R.filters f).map (fun i => ⟨fun l a k => (i.func l a k).2, i.desc⟩)⟩

/-- `pandalone/xleash/_lasso.py:97-136` `Ranger.make_call`: what is left of the arguments given, and what is returned or raised.
`lax` is popped (line 116) once the options were asked for `verbose` (line 115), whether the filter exists or not. That the
`call_spec` of the lasso handed to the filter shows the same is left out. -/
def RangerA.makeCall {S : Type} (R : RangerA S) (l : FRes S) (func : Str) (args : List Doc) (kwds : List (Str × Doc)) :
    (List Doc × List (Str × Doc)) × Except PyErr (FRes S) :=
  match l with
  | .other _ => ((args, kwds), .error .attributeError)
  | .lasso l =>
    match l.opts with
    | none => ((args, kwds), .error .attributeError)
    | some opts =>
      let verbose := (opts.get "verbose".toList (.bool false)).truthy
      let lax := ((dget kwds "lax".toList).getD (opts.get "lax".toList (.bool false))).truthy
      let kwds := ddel kwds "lax".toList
      match R.filters func with
      | none => ((args, kwds), if lax then .ok (.lasso l) else .error .valueError)
      | some rec =>
        match rec.func l args kwds with
        | (left, .ok (.lasso l')) => (left, .ok (.lasso l'))
        | (left, .ok (.other d)) =>
          (left, if verbose && !rec.desc then .error .typeError
            else if lax then .ok (.other d) else .error .valueError)
        | (left, .error _) =>
          (left, if verbose && !rec.desc then .error .typeError
            else if lax then .ok (.lasso l) else .error .valueError)

/-- The list of arguments or the dictionary of keywords, if it is one, after it was changed. -/
def putBackItem (args : List Doc) (kwds : List (Str × Doc)) : Doc → Doc
  | .list _ => .list args
  | .dict _ => .dict kwds
  | d => d

/-- The value of a key, after it was changed. -/
def putBackKey (args : List Doc) (kwds : List (Str × Doc)) (k : Str) (kvs : List (Str × Doc)) : List (Str × Doc) :=
  match dget kvs k with
  | none => kvs
  | some d => dset kvs k (putBackItem args kwds d)

/-- A call-specification that was read from JSON, after its arguments were changed: `parse_call_spec`
(pandalone/xleash/_parse.py:215-288) hands out the very list and dictionary in it. -/
def putBack (args : List Doc) (kwds : List (Str × Doc)) : Doc → Doc
  | .list (f :: items) => .list (f :: items.map (putBackItem args kwds))
  | .dict kvs => .dict (putBackKey args kwds "kwds".toList (putBackKey args kwds "args".toList kvs))
  | d => d

/-- `pandalone/xleash/_filter.py:34-45` `pipe_filter`: what is left of the call-specifications, and what is returned or raised. -/
def RangerA.pipe {S : Type} (R : RangerA S) : List Doc → FRes S → List Doc × Except PyErr (FRes S)
  | [], l => ([], .ok l)
  | f :: fs, l =>
    match parseCallSpec f with
    | .error e => (f :: fs, .error e)
    | .ok c =>
      let q := R.makeCall l c.func c.args c.kwds
      let f' := putBack q.1.1 q.1.2 f
      match q.2 with
      | .error e => (f' :: fs, .error e)
      | .ok l' =>
        let r := R.pipe fs l'
        (f' :: r.1, r.2)

/-- `pandalone/xleash/_filter.py:34-45` `pipe_filter` as an entry of the filters; its keywords are ignored. -/
def RangerA.pipeFilter {S : Type} (R : RangerA S) : FFunA S := fun l args kwds =>
  let q := R.pipe args (.lasso l)
  ((q.1, kwds), q.2)

/-- A call of `do_lasso`: the reference, the fields of the context but its call-specification, and which one of those that the
caller holds is given as `call_spec`, if any. -/
structure Throw (S : Type) where
  xlref : Str
  ctx : Lasso S
  spec : Option Nat

/-- The context of a call, the caller's call-specifications being these. -/
def Throw.context {S : Type} (t : Throw S) (specs : List CallSpec) : Lasso S :=
  { t.ctx with callSpec := t.spec.bind (fun i => specs[i]?) }

/-- Whether the reference says itself which filter to call; then it is not that of the context
(pandalone/xleash/_lasso.py:158-159). -/
def Throw.ownFilter {S : Type} (jsonLoads : Str → Option Doc) (t : Throw S) : Bool :=
  match parseXlref jsonLoads t.xlref with
  | .ok p => p.frag.callSpec.isSome
  | .error _ => false

/-- `pandalone/xleash/_lasso.py:201-209` `_run_filters`: what is left of the call-specification in use, if any. -/
def RangerA.runFilters {S : Type} (R : RangerA S) (l : Lasso S) : Option CallSpec × Except PyErr (FRes S) :=
  match l.callSpec with
  | none => (none, .ok (.lasso l))
  | some c =>
    let q := R.makeCall (.lasso l) c.func c.args c.kwds
    (some ⟨c.func, q.1.1, q.1.2⟩, match q.2 with
      | .error _ => .error .valueError
      | .ok r => .ok r)

/-- `pandalone/xleash/_lasso.py:211-256` `Ranger.do_lasso`: what is left of the call-specification in use, if it got to be used, and
what is returned or raised. -/
def RangerA.doLasso {S : Type} (R : RangerA S) (A : SheetApi S) (jsonLoads : Str → Option Doc)
    (xlref : Str) (ctx : Lasso S) : Option CallSpec × Except PyErr (FRes S) :=
  match R.plain.parseMerge jsonLoads xlref ctx with
  | .error e => (none, .error e)
  | .ok l =>
    match R.fetch l.urlFile l.shName l.sheet with
    | .error _ => (none, .error .valueError)
    | .ok sheet =>
      let l : Lasso S := { l with sheet := some sheet }
      match resolveRect A l sheet with
      | .error e => (none, .error e)
      | .ok none => R.runFilters { l with st := none, nd := none, values := .list [] }
      | .ok (some (st, nd)) =>
        match A.readRect sheet st nd with
        | .error e => (none, .error e)
        | .ok v => R.runFilters { l with st := some st, nd := nd, values := v.toDoc }

/-- One call of `do_lasso`: the caller's call-specifications after it, and what is returned or raised. -/
def RangerA.throwOne {S : Type} (R : RangerA S) (A : SheetApi S) (jsonLoads : Str → Option Doc) (specs : List CallSpec)
    (t : Throw S) : List CallSpec × Except PyErr (FRes S) :=
  let q := R.doLasso A jsonLoads t.xlref (t.context specs)
  match q.1, t.spec, t.ownFilter jsonLoads with
  | some c, some i, false => (specs.set i c, q.2)
  | _, _, _ => (specs, q.2)

/-- Calls of `do_lasso` one after another: the caller's call-specifications after them, and what each returned or raised. -/
def RangerA.throwAll {S : Type} (R : RangerA S) (A : SheetApi S) (jsonLoads : Str → Option Doc) :
    List CallSpec → List (Throw S) → List CallSpec × List (Except PyErr (FRes S))
  | specs, [] => (specs, [])
  | specs, t :: ts =>
    let q := R.throwOne A jsonLoads specs t
    let r := R.throwAll A jsonLoads q.1 ts
    (r.1, q.2 :: r.2)

end Model
