import Verif.Model.Parse
import Verif.Model.Sheet
/-
Model of `pandalone/xleash/_lasso.py` (the `Ranger`) and of the filters of
`pandalone/xleash/_filter.py` that do not evaluate Python expressions.
-/
namespace Model
open Py

/-- Options in force: a `ChainMap` as its layers, first one first; a plain dictionary is one layer. -/
abbrev Opts := List (List (Str × Doc))

/-- `opts.get(k, default)` -/
def Opts.get (o : Opts) (k : Str) (default : Doc) : Doc :=
  (o.findSome? (fun l => dget l k)).getD default

/-- `pandalone/xleash/__init__.py:785-845` `Lasso`; `S` is the type of sheets. `None` as values is
`Doc.null`. -/
structure Lasso (S : Type) where
  xlRef : Option Str := none
  urlFile : Option Str := none
  shName : Option Str := none
  stEdge : Option TEdge := none
  ndEdge : Option TEdge := none
  expMoves : Option Str := none
  callSpec : Option CallSpec := none
  sheet : Option S := none
  st : Option Coords := none
  nd : Option Coords := none
  values : Doc := .null
  baseCoords : Option Coords := none
  opts : Option Opts := none

/-- What a filter function returns: a `Lasso` or, wrongly, something else. -/
inductive FRes (S : Type)
  | lasso (l : Lasso S)
  | other (d : Doc)

/-- A filter function; an exception (a subclass of `Exception`) is an `error`. -/
abbrev FFun (S : Type) := Lasso S → List Doc → List (Str × Doc) → Except PyErr (FRes S)

/-- An entry of `available_filters`: the function, and whether its help can be made, that is whether there is any description of it
(`pandalone/xleash/_lasso.py:33-36, 107-110`). The listing of its arguments by `inspect.formatargspec` is taken to work (it is gone since
Python 3.11). -/
structure FRec (S : Type) where
  func : FFun S
  desc : Bool

/-- `pandalone/xleash/_lasso.py:47-95` `Ranger`; `fetch` is `sheets_factory.fetch_sheet`, pure here. -/
structure Ranger (S : Type) where
  fetch : Option Str → Option Str → Option S → Except PyErr S
  baseOpts : List (Str × Doc)
  filters : Str → Option (FRec S)

/-- `pandalone/xleash/_lasso.py:97-136` `Ranger.make_call`. The updates of `intermediate_lasso` and
logging are left out; the `lax` keyword that the code pops from the caller's dictionary is dealt with
by `popLax`, and by `RangerA.makeCall` of Model/SharedSpecs for the dictionaries of callers (that the `call_spec` of the lasso
shows the same is left out). A filter that fails is taken to leave the values of its lasso as they were, see `RangerLeft.makeCall` of
Model/InPlace for those that do not. -/
def Ranger.makeCall {S : Type} (R : Ranger S) (l : FRes S) (func : Str) (args : List Doc)
    (kwds : List (Str × Doc)) : Except PyErr (FRes S) :=
  match l with
  | .other _ => .error .attributeError
  | .lasso l =>
    match l.opts with
    | none => .error .attributeError
    | some opts =>
      let verbose := (opts.get "verbose".toList (.bool false)).truthy
      let lax := ((dget kwds "lax".toList).getD (opts.get "lax".toList (.bool false))).truthy
      match R.filters func with
      | none => if lax then .ok (.lasso l) else .error .valueError
      | some rec =>
        match rec.func l args (ddel kwds "lax".toList) with
        | .ok (.lasso l') => .ok (.lasso l')
        | .ok (.other d) =>
          if verbose && !rec.desc then .error .typeError
          else if lax then .ok (.other d) else .error .valueError
        | .error _ =>
          if verbose && !rec.desc then .error .typeError
          else if lax then .ok (.lasso l) else .error .valueError

/-- `pandalone/xleash/_lasso.py:116`: what is left of a call-specification after it was used. -/
def CallSpec.popLax (c : CallSpec) : CallSpec := { c with kwds := ddel c.kwds "lax".toList }

/-- `pandalone/xleash/_filter.py:34-45` `pipe_filter`. -/
def Ranger.pipe {S : Type} (R : Ranger S) : List Doc → FRes S → Except PyErr (FRes S)
  | [], l => .ok l
  | f :: fs, l =>
    match parseCallSpec f with
    | .error e => .error e
    | .ok c => match R.makeCall l c.func c.args c.kwds with
      | .error e => .error e
      | .ok l' => R.pipe fs l'

/-- `None` keeps what there was, `pandalone/xleash/_lasso.py:158-159`. -/
def overlay {α : Type} (new old : Option α) : Option α := match new with
  | some a => some a
  | none => old

/-- `pandalone/xleash/_lasso.py:138-167` `_make_init_Lasso` and `_parse_and_merge_with_context`: the
non-null parsed fields replace those of the context; a field that `Lasso` does not have (`xl-ref`) is
refused by `_replace`. -/
def Ranger.parseMerge {S : Type} (R : Ranger S) (jsonLoads : Str → Option Doc) (xlref : Str)
    (ctx : Lasso S) : Except PyErr (Lasso S) :=
  let ini : Lasso S := { ctx with opts := some [R.baseOpts] }
  match parseXlref jsonLoads xlref with
  | .error .syntaxError => .error .syntaxError
  | .error _ => .error .valueError
  | .ok p =>
    if p.encased.isSome then .error .valueError
    else .ok { ini with
      xlRef := some p.xlRef
      urlFile := overlay p.urlFile ini.urlFile
      shName := overlay p.frag.shName ini.shName
      stEdge := overlay p.frag.stEdge ini.stEdge
      ndEdge := overlay p.frag.ndEdge ini.ndEdge
      expMoves := overlay p.frag.expMoves ini.expMoves
      callSpec := overlay p.frag.callSpec ini.callSpec
      opts := overlay (p.frag.opts.map (fun o => [o])) ini.opts }

/-- What the ranger asks of a sheet. -/
structure SheetApi (S : Type) where
  states : S → Except PyErr Mat
  margins : S → Except PyErr (Coords × Coords)
  readRect : S → Coords → Option Coords → Except PyErr Captured

/-- The moves of a parsed edge as directions; `none` if they are not (a `KeyError` later on). -/
def TEdge.toEdge (e : TEdge) : Option Edge :=
  match e.mov with
  | none => some ⟨e.land, none, e.mod.bind List.head?⟩
  | some t => match dirsOf t with
    | none => none
    | some ds => some ⟨e.land, some ds, e.mod.bind List.head?⟩

/-- `pandalone/xleash/_capture.py:666-789` `resolve_capture_rect` from the parsed fields: the moves and
the expansion are interpreted there. -/
def resolveText (m : Mat) (mg : Coords × Coords) (st nd : Option TEdge) (exp : Option Str)
    (base : Option Coords) : Except PyErr (Coords × Option Coords) :=
  match st with
  | none => .error .attributeError
  | some st =>
    match st.toEdge, nd.map TEdge.toEdge with
    | none, _ => .error .lookupError
    | _, some none => .error .lookupError
    | some st, nd =>
      let nd : Option Edge := nd.bind id
      match resolveCaptureRect m mg.1 mg.2 st nd [] base with
      | .error e => .error e
      | .ok r =>
        match exp with
        | none => .ok r
        | some [] => .ok r
        | some t => match parseExpMoves t with
          | .error e => .error e
          | .ok gs => resolveCaptureRect m mg.1 mg.2 st nd gs base

/-- `pandalone/xleash/_lasso.py:180-199` `_resolve_capture_rect`. The message of its `ValueError` is made by
`_Lasso_to_edges_str` (lines 39-44), which for a first edge without a second one adds a text to a named tuple: then the error
is a `TypeError`. -/
def resolveRect {S : Type} (A : SheetApi S) (l : Lasso S) (sheet : S) :
    Except PyErr (Option (Coords × Option Coords)) :=
  let r : Except PyErr (Coords × Option Coords) := match A.states sheet with
    | .error e => .error e
    | .ok m => match A.margins sheet with
      | .error e => .error e
      | .ok mg => resolveText m mg l.stEdge l.ndEdge l.expMoves l.baseCoords
  match r with
  | .ok p => .ok (some p)
  | .error .emptyCapture =>
    match l.opts with
    | none => .error .attributeError
    | some o => if (o.get "no_empty".toList (.bool false)).truthy then .error .emptyCapture else .ok none
  | .error _ => if l.stEdge.isSome && l.ndEdge.isNone then .error .typeError else .error .valueError

/-- The values as a Python value: a cell, or a list of lists. -/
def Captured.toDoc : Captured → Doc
  | .scalar v => v
  | .table t => .list (t.map .list)

/-- `pandalone/xleash/_lasso.py:201-209` `_run_filters`. -/
def Ranger.runFilters {S : Type} (R : Ranger S) (l : Lasso S) : Except PyErr (FRes S) :=
  match l.callSpec with
  | none => .ok (.lasso l)
  | some c => match R.makeCall (.lasso l) c.func c.args c.kwds with
    | .error _ => .error .valueError
    | .ok r => .ok r

/-- `pandalone/xleash/_lasso.py:211-256` `Ranger.do_lasso`. -/
def Ranger.doLasso {S : Type} (R : Ranger S) (A : SheetApi S) (jsonLoads : Str → Option Doc)
    (xlref : Str) (ctx : Lasso S) : Except PyErr (FRes S) :=
  match R.parseMerge jsonLoads xlref ctx with
  | .error e => .error e
  | .ok l =>
    match R.fetch l.urlFile l.shName l.sheet with
    | .error _ => .error .valueError
    | .ok sheet =>
      let l : Lasso S := { l with sheet := some sheet }
      match resolveRect A l sheet with
      | .error e => .error e
      | .ok none => R.runFilters { l with st := none, nd := none, values := .list [] }
      | .ok (some (st, nd)) =>
        match A.readRect sheet st nd with
        | .error e => .error e
        | .ok v => R.runFilters { l with st := some st, nd := nd, values := v.toDoc }

/-- An `ArraySheet`, `pandalone/xleash/io/backend.py:435-465`. -/
def arrayApi : SheetApi Grid where
  states := Grid.states
  margins g := match g.states with
    | .error e => .error e
    | .ok m => .ok (getMargins (none, none) m)
  readRect := Grid.readRect

/-- An *xlrd* sheet, `pandalone/xleash/io/_xlrd.py:145-212`, for the given conversion of dates and value of
error cells. -/
def xlrdApi (dateOf : Nat → Doc) (nan : Doc) : SheetApi XlGrid where
  states g := .ok g.states
  margins g := match g.dnMargin with
    | .error e => .error e
    | .ok dn => .ok (getMargins (none, some dn) g.states)
  readRect g := g.readRect dateOf nan

/-! Element-wise filters -/

/-- The position passed on while diving, `pandalone/xleash/_filter.py:282-298` `upd_base_coords`, for a
list: it moves only if *pandas* is not installed; dictionaries have no positions. -/
def updBase (pandas : Bool) (cdepth : Nat) (bc : Option Coords) (i : Nat) : Option Coords :=
  bc.map (fun c => if pandas then c
    else if cdepth = 0 then ⟨c.row + i, c.col⟩
    else if cdepth = 1 then ⟨c.row, c.col + i⟩
    else c)

/-- Parameters of `run_filter_elementwise`: which keys to dive into and how deep. -/
structure DiveCfg where
  sel : Str → Bool
  depth : Option Int
  pandas : Bool

section Dive
variable {σ : Type} (cfg : DiveCfg) (step : σ → Option Coords → Doc → Except PyErr (Option Doc × σ))

mutual
/-- `pandalone/xleash/_filter.py:322-348` `dive_list` and `dive_indexed`. `step` is
`call_element_func`: the new value if processed, with a state. The code updates lists and
dictionaries in place; here the new ones are returned. What the code leaves of the old ones when it raises is in Model/InPlace. -/
def dive (cdepth : Nat) (bc : Option Coords) (s : σ) : Doc → Except PyErr (Doc × σ)
  | .dict kvs =>
    if cfg.depth = some (cdepth : Int) then .ok (.dict kvs, s)
    else match diveItems cdepth s kvs with
      | .error e => .error e
      | .ok (kvs', s') => .ok (.dict kvs', s')
  | .list xs =>
    if cfg.depth = some (cdepth : Int) then .ok (.list xs, s)
    else match step s bc (.list xs) with
      | .error e => .error e
      | .ok (some y, s') => .ok (y, s')
      | .ok (none, s') => match diveList cdepth bc 0 s' xs with
        | .error e => .error e
        | .ok (xs', s') => .ok (.list xs', s')
  | .null => diveLeaf cdepth bc s .null
  | .bool b => diveLeaf cdepth bc s (.bool b)
  | .int i => diveLeaf cdepth bc s (.int i)
  | .atom t => diveLeaf cdepth bc s (.atom t)
  | .str t => diveLeaf cdepth bc s (.str t)

/-- A value without elements. -/
def diveLeaf (cdepth : Nat) (bc : Option Coords) (s : σ) (d : Doc) : Except PyErr (Doc × σ) :=
  if cfg.depth = some (cdepth : Int) then .ok (d, s)
  else match step s bc d with
    | .error e => .error e
    | .ok (some y, s') => .ok (y, s')
    | .ok (none, s') => .ok (d, s')

/-- The loop over the elements of a list. -/
def diveList (cdepth : Nat) (bc : Option Coords) (i : Nat) (s : σ) : List Doc → Except PyErr (List Doc × σ)
  | [] => .ok ([], s)
  | x :: xs => match dive (cdepth + 1) (updBase cfg.pandas cdepth bc i) s x with
    | .error e => .error e
    | .ok (y, s') => match diveList cdepth bc (i + 1) s' xs with
      | .error e => .error e
      | .ok (ys, s'') => .ok (y :: ys, s'')

/-- The loop over the items of a dictionary. -/
def diveItems (cdepth : Nat) (s : σ) : List (Str × Doc) → Except PyErr (List (Str × Doc) × σ)
  | [] => .ok ([], s)
  | (k, x) :: kvs =>
    if cfg.sel k then
      match dive (cdepth + 1) none s x with
      | .error e => .error e
      | .ok (y, s') => match diveItems cdepth s' kvs with
        | .error e => .error e
        | .ok (kvs', s'') => .ok ((k, y) :: kvs', s'')
    else match diveItems cdepth s kvs with
      | .error e => .error e
      | .ok (kvs', s') => .ok ((k, x) :: kvs', s')
end

end Dive

/-- An element function: given the element and its position, whether it was processed and the result. -/
abbrev EFun (S : Type) := Lasso S → Option Coords → Doc → Except PyErr (Bool × FRes S)

/-- The loop over the sub-filters, `pandalone/xleash/_filter.py:316-317`: what is returned, and the
call-specifications after it. -/
def Ranger.runSubs {S : Type} (R : Ranger S) : List CallSpec → FRes S → Except PyErr (FRes S × List CallSpec)
  | [], l => .ok (l, [])
  | c :: cs, l => match R.makeCall l c.func c.args c.kwds with
    | .error e => .error e
    | .ok l' => match R.runSubs cs l' with
      | .error e => .error e
      | .ok (l'', cs') => .ok (l'', c.popLax :: cs')

/-- `pandalone/xleash/_filter.py:300-320` `call_element_func`; the state is `sub_call_specs`. What a sub-filter that is lax returned and
is no lasso has no `values` (a simplification for dictionaries, which have a method of that name). -/
def Ranger.callElement {S : Type} (R : Ranger S) (ef : EFun S) (l : Lasso S) (subs : List CallSpec)
    (bc : Option Coords) (elval : Doc) : Except PyErr (Option Doc × List CallSpec) :=
  match ef l bc elval with
  | .error _ => .error .valueError
  | .ok (false, _) => .ok (none, subs)
  | .ok (true, res) =>
    let res : Lasso S := match res with
      | .lasso l' => l'
      | .other d => { l with values := d }
    match R.runSubs subs (.lasso res) with
    | .error e => .error e
    | .ok (.lasso l', subs') => .ok (some l'.values, subs')
    | .ok (.other d, subs') => if d.truthy then .error .attributeError else .ok (some d, subs')

/-- All of the filters, or the first error. -/
def parseSubs : List Doc → Except PyErr (List CallSpec)
  | [] => .ok []
  | f :: fs => match parseCallSpec f with
    | .error e => .error e
    | .ok c => match parseSubs fs with
      | .error e => .error e
      | .ok cs => .ok (c :: cs)

/-- `pandalone/xleash/_filter.py:272-280` `is_included`, on dictionaries; lists of keys, `None` when
not given. -/
def included {α : Type} [BEq α] (incl excl : Option (List α)) (k : α) : Bool :=
  (match incl with | none => true | some l => l.isEmpty || l.contains k) &&
  (match excl with | none => true | some l => l.isEmpty || !l.contains k)

/-- `pandalone/xleash/_filter.py:207-353` `run_filter_elementwise`. -/
def Ranger.elementwise {S : Type} (R : Ranger S) (pandas : Bool) (ef : EFun S) (filters : List Doc)
    (incl excl : Option (List Str)) (depth : Option Int) (l : Lasso S) : Except PyErr (Lasso S) :=
  match parseSubs filters with
  | .error e => .error e
  | .ok subs =>
    match dive ⟨included incl excl, depth, pandas⟩ (R.callElement ef l) 0 l.st subs l.values with
    | .error e => .error e
    | .ok (v, _) => .ok { l with values := v }

/-- `pandalone/xleash/_filter.py:356-370` `_recurse_element_func`; `lassoRef` is `ranger.do_lasso` with the
sheet, edges and position of the context. -/
def recurseElement {S : Type} (lassoRef : Str → Lasso S → Except PyErr (FRes S)) : EFun S :=
  fun l bc elval => match elval with
    | .str t =>
      match lassoRef t { sheet := l.sheet, st := l.st, nd := l.nd, baseCoords := bc } with
      | .ok r => .ok (true, r)
      | .error .syntaxError => .ok (false, .lasso l)
      | .error _ => .error .valueError
    | _ => .ok (false, .lasso l)

end Model
