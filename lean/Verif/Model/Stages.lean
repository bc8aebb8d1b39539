import Verif.Model.Lasso
/-
Model of `Ranger.intermediate_lasso` of `pandalone/xleash/_lasso.py`: what a ranger remembers of the last lasso thrown.
-/
namespace Model
open Py

/-- `pandalone/xleash/_lasso.py:72-75, 88` `Ranger.intermediate_lasso`: a stage and a lasso, or `None`. -/
abbrev InterLasso (S : Type) := Option (Str × Lasso S)

/-- A filter function that is given the ranger: it may use it for calling filters and throwing lassos, so it may change what the
ranger remembers. -/
abbrev FFunI (S : Type) := Lasso S → List Doc → List (Str × Doc) → InterLasso S → InterLasso S × Except PyErr (FRes S)

/-- An entry of `available_filters`, see `FRec`. -/
structure FRecI (S : Type) where
  func : FFunI S
  desc : Bool

/-- `pandalone/xleash/_lasso.py:47-95` `Ranger`, see `Model.Ranger`. -/
structure RangerI (S : Type) where
  fetch : Option Str → Option Str → Option S → Except PyErr S
  baseOpts : List (Str × Doc)
  filters : Str → Option (FRecI S)

/-- `pandalone/xleash/_lasso.py:97-136` `Ranger.make_call`, with line 113: what is given to the filter is remembered by the name
of the filter. What is no lasso has no `_replace` (line 92). -/
def RangerI.makeCall {S : Type} (R : RangerI S) (l : FRes S) (func : Str) (args : List Doc)
    (kwds : List (Str × Doc)) (s : InterLasso S) : InterLasso S × Except PyErr (FRes S) :=
  match l with
  | .other _ => (s, .error .attributeError)
  | .lasso l =>
    let s : InterLasso S := some (func, l)
    match l.opts with
    | none => (s, .error .attributeError)
    | some opts =>
      let verbose := (opts.get "verbose".toList (.bool false)).truthy
      let lax := ((dget kwds "lax".toList).getD (opts.get "lax".toList (.bool false))).truthy
      match R.filters func with
      | none => (s, if lax then .ok (.lasso l) else .error .valueError)
      | some rec =>
        match rec.func l args (ddel kwds "lax".toList) s with
        | (s, .ok (.lasso l')) => (s, .ok (.lasso l'))
        | (s, .ok (.other d)) =>
          (s, if verbose && !rec.desc then .error .typeError
            else if lax then .ok (.other d) else .error .valueError)
        | (s, .error _) =>
          (s, if verbose && !rec.desc then .error .typeError
            else if lax then .ok (.lasso l) else .error .valueError)

/-- `pandalone/xleash/_filter.py:34-45` `pipe_filter`. -/
def RangerI.pipe {S : Type} (R : RangerI S) : List Doc → FRes S → InterLasso S → InterLasso S × Except PyErr (FRes S)
  | [], l, s => (s, .ok l)
  | f :: fs, l, s =>
    match parseCallSpec f with
    | .error e => (s, .error e)
    | .ok c => match R.makeCall l c.func c.args c.kwds s with
      | (s, .error e) => (s, .error e)
      | (s, .ok l') => R.pipe fs l' s

/-- The ranger without its memory: what it needs for reading a reference and a sheet. -/
def RangerI.plain {S : Type} (R : RangerI S) : Ranger S := ⟨R.fetch, R.baseOpts, fun _ => none⟩

/-- `pandalone/xleash/_lasso.py:201-209` `_run_filters`. -/
def RangerI.runFilters {S : Type} (R : RangerI S) (l : Lasso S) (s : InterLasso S) : InterLasso S × Except PyErr (FRes S) :=
  match l.callSpec with
  | none => (s, .ok (.lasso l))
  | some c => match R.makeCall (.lasso l) c.func c.args c.kwds s with
    | (s, .error _) => (s, .error .valueError)
    | (s, .ok r) => (s, .ok r)

/-- `pandalone/xleash/_lasso.py:211-256` `Ranger.do_lasso`: what is remembered afterwards, and what is returned or raised. What is
no text is refused before anything is forgotten (lines 231-233). -/
def RangerI.doLasso {S : Type} (R : RangerI S) (A : SheetApi S) (jsonLoads : Str → Option Doc)
    (xlref : Doc) (ctx : Lasso S) (s : InterLasso S) : InterLasso S × Except PyErr (FRes S) :=
  match xlref with
  | .str xlref =>
    let ini : Lasso S := { ctx with opts := some [R.baseOpts] }
    match R.plain.parseMerge jsonLoads xlref ctx with
    | .error e => (some ("context".toList, ini), .error e)
    | .ok l =>
      match R.fetch l.urlFile l.shName l.sheet with
      | .error _ => (some ("parse".toList, l), .error .valueError)
      | .ok sheet =>
        let l : Lasso S := { l with sheet := some sheet }
        match resolveRect A l sheet with
        | .error e => (some ("open".toList, l), .error e)
        | .ok none =>
          let l : Lasso S := { l with st := none, nd := none, values := .list [] }
          R.runFilters l (some ("read_rect".toList, l))
        | .ok (some (st, nd)) =>
          let l : Lasso S := { l with st := some st, nd := nd }
          match A.readRect sheet st nd with
          | .error e => (some ("capture".toList, l), .error e)
          | .ok v =>
            let l : Lasso S := { l with values := v.toDoc }
            R.runFilters l (some ("read_rect".toList, l))
  | _ => (s, .error .valueError)

end Model
