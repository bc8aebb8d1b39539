import Verif.Model.Recurring
/-
Model of element-wise filters of `pandalone/xleash/_filter.py` that change the captured values in place, and of what is left of them when
the filter fails half-way: `make_call` of `pandalone/xleash/_lasso.py` then has a lasso whose values were changed.
-/
namespace Model
open Py

section Dive
variable {σ : Type} (cfg : DiveCfg) (step : σ → Option Coords → Doc → Except PyErr (Option Doc × σ))

/-- A value without elements, see `diveLeaf`. -/
def diveLeafLeft (cdepth : Nat) (bc : Option Coords) (s : σ) (d : Doc) : Doc × Except PyErr σ :=
  if cfg.depth = some (cdepth : Int) then (d, .ok s)
  else match step s bc d with
    | .error e => (d, .error e)
    | .ok (some y, s') => (y, .ok s')
    | .ok (none, s') => (d, .ok s')

mutual
/-- `pandalone/xleash/_filter.py:322-348` `dive_list` and `dive_indexed`: what is found in the place of the value afterwards, and whether it was
gone through to the end or an exception was raised. `elval[i] = dive_indexed(...)` (line 328) does not happen for the element that raised,
but what is inside that element was changed as far as it was gone through. -/
def diveLeft (cdepth : Nat) (bc : Option Coords) (s : σ) : Doc → Doc × Except PyErr σ
  | .dict kvs =>
    if cfg.depth = some (cdepth : Int) then (.dict kvs, .ok s)
    else ((Doc.dict (diveItemsLeft cdepth s kvs).1), (diveItemsLeft cdepth s kvs).2)
  | .list xs =>
    if cfg.depth = some (cdepth : Int) then (.list xs, .ok s)
    else match step s bc (.list xs) with
      | .error e => (.list xs, .error e)
      | .ok (some y, s') => (y, .ok s')
      | .ok (none, s') => ((Doc.list (diveListLeft cdepth bc 0 s' xs).1), (diveListLeft cdepth bc 0 s' xs).2)
  | .null => diveLeafLeft cfg step cdepth bc s .null
  | .bool b => diveLeafLeft cfg step cdepth bc s (.bool b)
  | .int i => diveLeafLeft cfg step cdepth bc s (.int i)
  | .atom t => diveLeafLeft cfg step cdepth bc s (.atom t)
  | .str t => diveLeafLeft cfg step cdepth bc s (.str t)

/-- The loop over the elements of a list, `pandalone/xleash/_filter.py:324-328`. -/
def diveListLeft (cdepth : Nat) (bc : Option Coords) (i : Nat) (s : σ) : List Doc → List Doc × Except PyErr σ
  | [] => ([], .ok s)
  | x :: xs => match diveLeft (cdepth + 1) (updBase cfg.pandas cdepth bc i) s x with
    | (y, .error e) => (y :: xs, .error e)
    | (y, .ok s') => (y :: (diveListLeft cdepth bc (i + 1) s' xs).1, (diveListLeft cdepth bc (i + 1) s' xs).2)

/-- The loop over the items of a dictionary, `pandalone/xleash/_filter.py:338-343`. -/
def diveItemsLeft (cdepth : Nat) (s : σ) : List (Str × Doc) → List (Str × Doc) × Except PyErr σ
  | [] => ([], .ok s)
  | (k, x) :: kvs =>
    if cfg.sel k then
      match diveLeft (cdepth + 1) none s x with
      | (y, .error e) => ((k, y) :: kvs, .error e)
      | (y, .ok s') => ((k, y) :: (diveItemsLeft cdepth s' kvs).1, (diveItemsLeft cdepth s' kvs).2)
    else ((k, x) :: (diveItemsLeft cdepth s kvs).1, (diveItemsLeft cdepth s kvs).2)
end

end Dive

/-- A filter function: what it leaves of the values of the lasso that it is given, and what it returns or raises. -/
abbrev FFunLeft (S : Type) := Lasso S → List Doc → List (Str × Doc) → Doc × Except PyErr (FRes S)

/-- An entry of `available_filters`, see `FRec`. -/
structure FRecLeft (S : Type) where
  func : FFunLeft S
  desc : Bool

/-- `pandalone/xleash/_lasso.py:47-95` `Ranger`, see `Model.Ranger`. -/
structure RangerLeft (S : Type) where
  fetch : Option Str → Option Str → Option S → Except PyErr S
  baseOpts : List (Str × Doc)
  filters : Str → Option (FRecLeft S)

/-- The ranger whose filters are taken for what they return or raise. -/
def RangerLeft.plain {S : Type} (R : RangerLeft S) : Ranger S :=
  ⟨R.fetch, R.baseOpts, fun f => (R.filters f).map (fun i => ⟨fun l a k => (i.func l a k).2, i.desc⟩)⟩

/-- `pandalone/xleash/_lasso.py:97-136` `Ranger.make_call`, see `Ranger.makeCall`: when the filter raises, `lasso` (line 125) is still the one
given, with the values that the filter left. -/
def RangerLeft.makeCall {S : Type} (R : RangerLeft S) (l : FRes S) (func : Str) (args : List Doc)
    (kwds : List (Str × Doc)) : Except PyErr (FRes S) :=
  match l with
  | .other _ => .error .attributeError
  | .lasso l =>
    match l.opts with
    | none => .error .attributeError
    | some opts =>
      let verbose := (opts.get "verbose".toList (.bool false)).truthy
      let lax := ((dget kwds "lax".toList).getD (opts.get "lax".toList (.bool false))).truthy
      match R.filters func with
      | none => if lax then .ok (.lasso l) else .error .valueError
      | some rec =>
        match rec.func l args (ddel kwds "lax".toList) with
        | (_, .ok (.lasso l')) => .ok (.lasso l')
        | (_, .ok (.other d)) =>
          if verbose && !rec.desc then .error .typeError
          else if lax then .ok (.other d) else .error .valueError
        | (left, .error _) =>
          if verbose && !rec.desc then .error .typeError
          else if lax then .ok (.lasso { l with values := left }) else .error .valueError

/-- `pandalone/xleash/_filter.py:34-45` `pipe_filter`, see `Ranger.pipe`. -/
def RangerLeft.pipe {S : Type} (R : RangerLeft S) : List Doc → FRes S → Except PyErr (FRes S)
  | [], l => .ok l
  | f :: fs, l =>
    match parseCallSpec f with
    | .error e => .error e
    | .ok c => match R.makeCall l c.func c.args c.kwds with
      | .error e => .error e
      | .ok l' => R.pipe fs l'

/-- The loop over the sub-filters, `pandalone/xleash/_filter.py:316-317`, see `Ranger.runSubs`. -/
def RangerLeft.runSubs {S : Type} (R : RangerLeft S) : List CallSpec → FRes S → Except PyErr (FRes S × List CallSpec)
  | [], l => .ok (l, [])
  | c :: cs, l => match R.makeCall l c.func c.args c.kwds with
    | .error e => .error e
    | .ok l' => match R.runSubs cs l' with
      | .error e => .error e
      | .ok (l'', cs') => .ok (l'', c.popLax :: cs')

/-- `pandalone/xleash/_filter.py:300-320` `call_element_func`, see `Ranger.callElement`. Simplification: what the element function and the
sub-filters hand on is not the element itself but new values, as those that were captured by a reference are. -/
def RangerLeft.callElement {S : Type} (R : RangerLeft S) (ef : EFun S) (l : Lasso S) (subs : List CallSpec)
    (bc : Option Coords) (elval : Doc) : Except PyErr (Option Doc × List CallSpec) :=
  match ef l bc elval with
  | .error _ => .error .valueError
  | .ok (false, _) => .ok (none, subs)
  | .ok (true, res) =>
    let res : Lasso S := match res with
      | .lasso l' => l'
      | .other d => { l with values := d }
    match R.runSubs subs (.lasso res) with
    | .error e => .error e
    | .ok (.lasso l', subs') => .ok (some l'.values, subs')
    | .ok (.other d, subs') => if d.truthy then .error .attributeError else .ok (some d, subs')

/-- `pandalone/xleash/_filter.py:207-353` `run_filter_elementwise`: what it leaves of the values, and what it returns or raises. -/
def RangerLeft.elementwise {S : Type} (R : RangerLeft S) (pandas : Bool) (ef : EFun S) (filters : List Doc)
    (incl excl : Option (List Str)) (depth : Option Int) (l : Lasso S) : Doc × Except PyErr (FRes S) :=
  match parseSubs filters with
  | .error e => (l.values, .error e)
  | .ok subs =>
    match diveLeft ⟨included incl excl, depth, pandas⟩ (R.callElement ef l) 0 l.st subs l.values with
    | (v, .error e) => (v, .error e)
    | (v, .ok _) => (v, .ok (.lasso { l with values := v }))

/-- `pandalone/xleash/_lasso.py:138-178` `_parse_and_merge_with_context`, see `Ranger.parseMerge`: no filters are run. -/
def RangerLeft.parseMerge {S : Type} (R : RangerLeft S) (jsonLoads : Str → Option Doc) (xlref : Str) (ctx : Lasso S) :
    Except PyErr (Lasso S) :=
  R.plain.parseMerge jsonLoads xlref ctx

/-- `pandalone/xleash/_lasso.py:201-209` `_run_filters`, see `Ranger.runFilters`. -/
def RangerLeft.runFilters {S : Type} (R : RangerLeft S) (l : Lasso S) : Except PyErr (FRes S) :=
  match l.callSpec with
  | none => .ok (.lasso l)
  | some c => match R.makeCall (.lasso l) c.func c.args c.kwds with
    | .error _ => .error .valueError
    | .ok r => .ok r

/-- `pandalone/xleash/_lasso.py:211-256` `Ranger.do_lasso`, see `Ranger.doLasso`. -/
def RangerLeft.doLasso {S : Type} (R : RangerLeft S) (A : SheetApi S) (jsonLoads : Str → Option Doc)
    (xlref : Str) (ctx : Lasso S) : Except PyErr (FRes S) :=
  match R.parseMerge jsonLoads xlref ctx with
  | .error e => .error e
  | .ok l =>
    match R.fetch l.urlFile l.shName l.sheet with
    | .error _ => .error .valueError
    | .ok sheet =>
      let l : Lasso S := { l with sheet := some sheet }
      match resolveRect A l sheet with
      | .error e => .error e
      | .ok none => R.runFilters { l with st := none, nd := none, values := .list [] }
      | .ok (some (st, nd)) =>
        match A.readRect sheet st nd with
        | .error e => .error e
        | .ok v => R.runFilters { l with st := some st, nd := nd, values := v.toDoc }

/-- What filters other than the element-wise ones leave of the values of the lasso that they are given: it depends on the objects that their
results share with these values, and is a parameter. -/
abbrev OthersLeave (S : Type) := Str → Lasso S → List Doc → List (Str × Doc) → Doc

/-- The function of a filter, on a ranger, see `FilterKind.func`: `pipe_filter` (`pandalone/xleash/_filter.py:34-45`), `recursive_filter`
(373-393) and `pyeval_filter` (440-499). -/
def FilterKind.funcLeft {S : Type} (others : Lasso S → List Doc → List (Str × Doc) → Doc) (pandas : Bool) (A : SheetApi S)
    (jsonLoads : Str → Option Doc) (R : RangerLeft S) : FilterKind S → FFunLeft S
  | .pipe => fun l args kwds => (others l args kwds, R.pipe args (.lasso l))
  | .recurse => fun l args kwds => match elementArgs recurseNames args kwds with
    | .error e => (l.values, .error e)
    | .ok a => R.elementwise pandas (recurseElement (R.doLasso A jsonLoads)) a.filters a.incl a.excl a.depth l
  | .pyeval eval => fun l args kwds => match elementArgs pyevalNames args kwds with
    | .error e => (l.values, .error e)
    | .ok a => R.elementwise pandas (pyevalElement eval a.evalAll) a.filters a.incl a.excl a.depth l
  | .own f => fun l args kwds => (others l args kwds, f l args kwds)

/-- A `Ranger` when there is stack left for `n` filters within one another, see `Setup.ranger`. -/
def Setup.rangerLeft {S : Type} (U : Setup S) (others : OthersLeave S) : Nat → RangerLeft S
  | 0 => ⟨U.fetch, U.baseOpts, fun f => (U.filters f).map (fun i => ⟨fun l _ _ => (l.values, .error .recursionError), i.2⟩)⟩
  | n + 1 => ⟨U.fetch, U.baseOpts, fun f => (U.filters f).map (fun i =>
      ⟨i.1.funcLeft (others f) U.pandas U.api U.jsonLoads (U.rangerLeft others n), i.2⟩)⟩

end Model
