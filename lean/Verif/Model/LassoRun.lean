import Verif.Model.Lasso
import Verif.Model.Backend
/-
Model of `lasso()`, `make_default_Ranger` and `get_default_opts` of `pandalone/xleash/_lasso.py`, with the
sheets factory as state: programs that fetch sheets from a factory, and what they leave behind.
-/
namespace Model
open Py

/-- A program that uses a sheets factory: it ends, asks for a sheet or adds one. The code of filters
is any such program, so that nested `do_lasso` calls are covered. -/
inductive Run (α : Type)
  | done (r : Except PyErr α)
  | fetch (wb : Option Str) (sh : ShId) (base : Option SheetObj) (k : Except PyErr SheetObj → Run α)
  | add (s : SheetObj) (wbs : Ids Str) (shs : Ids ShId) (k : Except PyErr Unit → Run α)

/-- Go on with the result, whether a value or an exception. -/
def Run.andThen {α β : Type} : Run α → (Except PyErr α → Run β) → Run β
  | .done r, g => g r
  | .fetch wb sh b k, g => .fetch wb sh b (fun r => (k r).andThen g)
  | .add s ws ss k, g => .add s ws ss (fun r => (k r).andThen g)

/-- What happens to sheets: a workbook is opened for one, a sibling of another is opened, or one is
handed over by a filter. -/
inductive Event
  | opened (s : SheetObj)
  | sibling (base s : SheetObj)
  | added (s : SheetObj)
  deriving DecidableEq

/-- The sheet it is about. -/
def Event.sheet : Event → SheetObj
  | .opened s => s
  | .sibling _ s => s
  | .added s => s

/-- The sheet that `fetch_sheet` (pandalone/xleash/io/backend.py:216-245) opens, if it opens one. -/
def fetchEvents (o : Openers) (f : Factory) (wb : Option Str) (sh : ShId) (base : Option SheetObj) : List Event :=
  match wb, base with
  | none, some b =>
    if sh = .none then []
    else match f.get (b.wb, sh) with
      | some _ => []
      | none => match o.sibling f.opened b sh with
        | .ok s => [.sibling b s]
        | .error _ => []
  | none, none => match o.book f.opened none sh with
    | .ok s => [.opened s]
    | .error _ => []
  | some w, _ => match f.get (w, sh) with
    | some _ => []
    | none => match o.book f.opened (some w) sh with
      | .ok s => [.opened s]
      | .error _ => []

/-- Run a program on a factory: the factory after it, what happened to sheets, and the result. -/
def Run.exec {α : Type} (order : List SKey → List SKey) (o : Openers) :
    Run α → Factory → Factory × List Event × Except PyErr α
  | .done r, f => (f, [], r)
  | .fetch wb sh b k, f =>
    let r := f.fetch order o wb sh b
    let q := (k r.2).exec order o r.1
    (q.1, fetchEvents o f wb sh b ++ q.2.1, q.2.2)
  | .add s ws ss k, f =>
    match f.add order s ws ss with
    | .error e => (k (.error e)).exec order o f
    | .ok f' =>
      let q := (k (.ok ())).exec order o f'
      (q.1, .added s :: q.2.1, q.2.2)

/-- A filter as a program, and whether its help can be made (see `FRec`). -/
structure RunFilter where
  func : Lasso SheetObj → List Doc → List (Str × Doc) → Run (FRes SheetObj)
  desc : Bool

/-- `pandalone/xleash/_lasso.py:47-95` `Ranger`, on a factory of its own. -/
structure RunRanger where
  baseOpts : List (Str × Doc)
  filters : Str → Option RunFilter

/-- `pandalone/xleash/_lasso.py:97-136` `Ranger.make_call`, see `Ranger.makeCall`. -/
def RunRanger.makeCall (R : RunRanger) (l : Lasso SheetObj) (func : Str) (args : List Doc)
    (kwds : List (Str × Doc)) : Run (FRes SheetObj) :=
  match l.opts with
  | none => .done (.error .attributeError)
  | some opts =>
    let verbose := (opts.get "verbose".toList (.bool false)).truthy
    let lax := ((dget kwds "lax".toList).getD (opts.get "lax".toList (.bool false))).truthy
    match R.filters func with
    | none => .done (if lax then .ok (.lasso l) else .error .valueError)
    | some rec =>
      (rec.func l args (ddel kwds "lax".toList)).andThen (fun r => .done (match r with
        | .ok (.lasso l') => .ok (.lasso l')
        | .ok (.other d) =>
          if verbose && !rec.desc then .error .typeError
          else if lax then .ok (.other d) else .error .valueError
        | .error _ =>
          if verbose && !rec.desc then .error .typeError
          else if lax then .ok (.lasso l) else .error .valueError))

/-- `pandalone/xleash/_lasso.py:201-209` `_run_filters`. -/
def RunRanger.runFilters (R : RunRanger) (l : Lasso SheetObj) : Run (FRes SheetObj) :=
  match l.callSpec with
  | none => .done (.ok (.lasso l))
  | some c => (R.makeCall l c.func c.args c.kwds).andThen (fun r => .done (match r with
    | .error _ => .error .valueError
    | .ok v => .ok v))

/-- The id of a sheet as parsed from a reference. -/
def shIdOf : Option Str → ShId
  | none => .none
  | some t => .text t

/-- `pandalone/xleash/_lasso.py:211-256` `Ranger.do_lasso`, with the sheet coming from the factory. -/
def RunRanger.doLasso (R : RunRanger) (A : SheetApi SheetObj) (jsonLoads : Str → Option Doc) (xlref : Str)
    (ctx : Lasso SheetObj) : Run (FRes SheetObj) :=
  let R0 : Ranger SheetObj := ⟨fun _ _ _ => .error .valueError, R.baseOpts, fun _ => none⟩
  match R0.parseMerge jsonLoads xlref ctx with
  | .error e => .done (.error e)
  | .ok l =>
    .fetch l.urlFile (shIdOf l.shName) l.sheet (fun r => match r with
    | .error _ => .done (.error .valueError)
    | .ok sheet =>
      let l : Lasso SheetObj := { l with sheet := some sheet }
      match resolveRect A l sheet with
      | .error e => .done (.error e)
      | .ok none => R.runFilters { l with st := none, nd := none, values := .list [] }
      | .ok (some (st, nd)) =>
        match A.readRect sheet st nd with
        | .error e => .done (.error e)
        | .ok v => R.runFilters { l with st := some st, nd := nd, values := v.toDoc })

/-- `pandalone/xleash/_lasso.py:259-271` `get_default_opts`. -/
def defaultOpts (overrides : Option (List (Str × Doc))) : List (Str × Doc) :=
  let opts : List (Str × Doc) :=
    [("lax".toList, .bool false), ("verbose".toList, .bool false),
      ("read".toList, .dict [("on_demand".toList, .bool true)])]
  match overrides with
  | none => opts
  | some kvs => kvs.foldl (fun acc kv => dset acc kv.1 kv.2) opts

/-- `pandalone/xleash/_lasso.py:274-313` `make_default_Ranger`, the ranger without its factory; the
installed filters are `xleash.installed_filters`. -/
def makeDefaultRanger (installed : Str → Option RunFilter) (baseOpts : Option (List (Str × Doc)))
    (available : Option (Str → Option RunFilter)) : RunRanger where
  baseOpts := match baseOpts with
    | none => defaultOpts none
    | some [] => defaultOpts none
    | some o => o
  filters := available.getD installed

/-- How a call of `lasso()` ends: the factory, what happened to sheets, the sheets on which `_close_all`
was called by closing the factory, and the result. -/
structure Ended where
  factory : Factory
  events : List Event
  released : List SheetObj
  result : Except PyErr (FRes SheetObj)

/-- The sheets in the cache. -/
def Factory.cached (f : Factory) : List SheetObj := f.cache.flatMap (fun w => w.2.map (fun e => e.2))

/-- The last line of `lasso()`: the lasso or its values. What is no lasso (a lax call) has no values
(a simplification for dictionaries, which have a method of that name). -/
def lassoReturn (returnLasso : Bool) : FRes SheetObj → Except PyErr (FRes SheetObj)
  | .lasso l => if returnLasso then .ok (.lasso l) else .ok (.other l.values)
  | .other d => if returnLasso then .ok (.other d) else .error .attributeError

/-- `pandalone/xleash/_lasso.py:316-392` `lasso()`. `given` is the factory given, if any. -/
def lassoCall (order : List SKey → List SKey) (o : Openers) (installed : Str → Option RunFilter)
    (A : SheetApi SheetObj) (jsonLoads : Str → Option Doc) (xlref : Str) (given : Option Factory)
    (baseOpts : Option (List (Str × Doc))) (available : Option (Str → Option RunFilter)) (returnLasso : Bool)
    (ctx : Lasso SheetObj) : Ended :=
  let baseOpts := match baseOpts with
    | none => some (defaultOpts none)
    | some o => some o
  let R := makeDefaultRanger installed baseOpts available
  let q := (R.doLasso A jsonLoads xlref ctx).exec order o (given.getD Factory.new)
  let res := match q.2.2 with
    | .error e => .error e
    | .ok l => lassoReturn returnLasso l
  match given with
  | some _ => ⟨q.1, q.2.1, [], res⟩
  | none => ⟨q.1.close, q.2.1, q.1.cached, res⟩

end Model
