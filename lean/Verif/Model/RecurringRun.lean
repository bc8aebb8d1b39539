import Verif.Model.Recurring
import Verif.Model.LassoRun
/-
Model of the filters of `pandalone/xleash/_filter.py` that run others and follow references, as in `Model/Recurring`, on a ranger whose sheets
factory has a state.
-/
namespace Model
open Py

/-- Go on with the value, if there is one. -/
def Run.next {α β : Type} (p : Run α) (g : α → Run β) : Run β :=
  p.andThen (fun r => match r with
    | .error e => .done (.error e)
    | .ok a => g a)

/-- `pandalone/xleash/_lasso.py:97-136` `Ranger.make_call` on what the filter before returned, which may be no lasso. -/
def RunRanger.call (R : RunRanger) (l : FRes SheetObj) (func : Str) (args : List Doc) (kwds : List (Str × Doc)) : Run (FRes SheetObj) :=
  match l with
  | .other _ => .done (.error .attributeError)
  | .lasso l => R.makeCall l func args kwds

/-- `pandalone/xleash/_filter.py:34-45` `pipe_filter`, see `Ranger.pipe`. -/
def RunRanger.pipe (R : RunRanger) : List Doc → FRes SheetObj → Run (FRes SheetObj)
  | [], l => .done (.ok l)
  | f :: fs, l =>
    match parseCallSpec f with
    | .error e => .done (.error e)
    | .ok c => (R.call l c.func c.args c.kwds).next (R.pipe fs)

/-- The loop over the sub-filters, `pandalone/xleash/_filter.py:316-317`, see `Ranger.runSubs`. -/
def RunRanger.runSubs (R : RunRanger) : List CallSpec → FRes SheetObj → Run (FRes SheetObj × List CallSpec)
  | [], l => .done (.ok (l, []))
  | c :: cs, l => (R.call l c.func c.args c.kwds).next (fun l' => (R.runSubs cs l').next (fun q => .done (.ok (q.1, c.popLax :: q.2))))

/-- An element function that fetches sheets, see `EFun`. -/
abbrev RunEFun := Lasso SheetObj → Option Coords → Doc → Run (Bool × FRes SheetObj)

/-- `pandalone/xleash/_filter.py:300-320` `call_element_func`, see `Ranger.callElement`. -/
def RunRanger.callElement (R : RunRanger) (ef : RunEFun) (l : Lasso SheetObj) (subs : List CallSpec) (bc : Option Coords) (elval : Doc) :
    Run (Option Doc × List CallSpec) :=
  (ef l bc elval).andThen (fun r => match r with
    | .error _ => .done (.error .valueError)
    | .ok (false, _) => .done (.ok (none, subs))
    | .ok (true, res) =>
      (R.runSubs subs (.lasso (match res with
        | .lasso l' => l'
        | .other d => { l with values := d }))).next (fun q => match q with
        | (.lasso l', subs') => .done (.ok (some l'.values, subs'))
        | (.other d, subs') => .done (if d.truthy then .error .attributeError else .ok (some d, subs'))))

section Dive
variable {σ : Type} (cfg : DiveCfg) (step : σ → Option Coords → Doc → Run (Option Doc × σ))

mutual
/-- `pandalone/xleash/_filter.py:322-348` `dive_list` and `dive_indexed`, see `dive`. -/
def diveRun (cdepth : Nat) (bc : Option Coords) (s : σ) : Doc → Run (Doc × σ)
  | .dict kvs =>
    if cfg.depth = some (cdepth : Int) then .done (.ok (.dict kvs, s))
    else (diveItemsRun cdepth s kvs).next (fun q => .done (.ok (.dict q.1, q.2)))
  | .list xs =>
    if cfg.depth = some (cdepth : Int) then .done (.ok (.list xs, s))
    else (step s bc (.list xs)).next (fun q => match q with
      | (some y, s') => .done (.ok (y, s'))
      | (none, s') => (diveListRun cdepth bc 0 s' xs).next (fun q => .done (.ok (.list q.1, q.2))))
  | .null => diveLeafRun cdepth bc s .null
  | .bool b => diveLeafRun cdepth bc s (.bool b)
  | .int i => diveLeafRun cdepth bc s (.int i)
  | .atom t => diveLeafRun cdepth bc s (.atom t)
  | .str t => diveLeafRun cdepth bc s (.str t)

/-- A value without elements, `pandalone/xleash/_filter.py:322-348`, see `diveLeaf`. -/
def diveLeafRun (cdepth : Nat) (bc : Option Coords) (s : σ) (d : Doc) : Run (Doc × σ) :=
  if cfg.depth = some (cdepth : Int) then .done (.ok (d, s))
  else (step s bc d).next (fun q => match q with
    | (some y, s') => .done (.ok (y, s'))
    | (none, s') => .done (.ok (d, s')))

/-- The loop over the elements of a list, `pandalone/xleash/_filter.py:322-348`, see `diveList`. -/
def diveListRun (cdepth : Nat) (bc : Option Coords) (i : Nat) (s : σ) : List Doc → Run (List Doc × σ)
  | [] => .done (.ok ([], s))
  | x :: xs => (diveRun (cdepth + 1) (updBase cfg.pandas cdepth bc i) s x).next (fun q =>
      (diveListRun cdepth bc (i + 1) q.2 xs).next (fun q' => .done (.ok (q.1 :: q'.1, q'.2))))

/-- The loop over the items of a dictionary, `pandalone/xleash/_filter.py:322-348`, see `diveItems`. -/
def diveItemsRun (cdepth : Nat) (s : σ) : List (Str × Doc) → Run (List (Str × Doc) × σ)
  | [] => .done (.ok ([], s))
  | (k, x) :: kvs =>
    if cfg.sel k then
      (diveRun (cdepth + 1) none s x).next (fun q => (diveItemsRun cdepth q.2 kvs).next (fun q' => .done (.ok ((k, q.1) :: q'.1, q'.2))))
    else (diveItemsRun cdepth s kvs).next (fun q' => .done (.ok ((k, x) :: q'.1, q'.2)))
end

end Dive

/-- `pandalone/xleash/_filter.py:207-353` `run_filter_elementwise`, see `Ranger.elementwise`. -/
def RunRanger.elementwise (R : RunRanger) (pandas : Bool) (ef : RunEFun) (filters : List Doc) (incl excl : Option (List Str))
    (depth : Option Int) (l : Lasso SheetObj) : Run (FRes SheetObj) :=
  match parseSubs filters with
  | .error e => .done (.error e)
  | .ok subs => (diveRun ⟨included incl excl, depth, pandas⟩ (R.callElement ef l) 0 l.st subs l.values).next
      (fun q => .done (.ok (.lasso { l with values := q.1 })))

/-- `pandalone/xleash/_filter.py:356-370` `_recurse_element_func`, see `recurseElement`. -/
def recurseElementRun (lassoRef : Str → Lasso SheetObj → Run (FRes SheetObj)) : RunEFun :=
  fun l bc elval => match elval with
    | .str t => (lassoRef t { sheet := l.sheet, st := l.st, nd := l.nd, baseCoords := bc }).andThen (fun r => .done (match r with
      | .ok r => .ok (true, r)
      | .error .syntaxError => .ok (false, .lasso l)
      | .error _ => .error .valueError))
    | _ => .done (.ok (false, .lasso l))

/-- The installed filters, `pandalone/xleash/_filter.py:540-574`, see `FilterKind`. -/
inductive RunKind
  | pipe
  | recurse
  | pyeval (eval : Evaluator SheetObj)
  | own (f : Lasso SheetObj → List Doc → List (Str × Doc) → Run (FRes SheetObj))

/-- The function of a filter, on a ranger: `pipe_filter` (`pandalone/xleash/_filter.py:34-45`), `recursive_filter` (373-393) and
`pyeval_filter` (440-499), see `FilterKind.func`. -/
def RunKind.func (pandas : Bool) (A : SheetApi SheetObj) (jsonLoads : Str → Option Doc) (R : RunRanger) :
    RunKind → Lasso SheetObj → List Doc → List (Str × Doc) → Run (FRes SheetObj)
  | .pipe => fun l args _ => R.pipe args (.lasso l)
  | .recurse => fun l args kwds => match elementArgs recurseNames args kwds with
    | .error e => .done (.error e)
    | .ok a => R.elementwise pandas (recurseElementRun (R.doLasso A jsonLoads)) a.filters a.incl a.excl a.depth l
  | .pyeval eval => fun l args kwds => match elementArgs pyevalNames args kwds with
    | .error e => .done (.error e)
    | .ok a => R.elementwise pandas (fun l bc x => .done (pyevalElement eval a.evalAll l bc x)) a.filters a.incl a.excl a.depth l
  | .own f => f

/-- What a ranger is made of, but for its factory: its options and filters with whether they have a description, and what is around it; see
`Setup`. The fields of `Ranger` are at `pandalone/xleash/_lasso.py:47-95`. -/
structure RunSetup where
  baseOpts : List (Str × Doc)
  filters : Str → Option (RunKind × Bool)
  pandas : Bool
  api : SheetApi SheetObj
  jsonLoads : Str → Option Doc

/-- A `Ranger` (`pandalone/xleash/_lasso.py:47-95`) when there is stack left for `n` filters within one another; one more is a
`RecursionError`. -/
def RunSetup.ranger (U : RunSetup) : Nat → RunRanger
  | 0 => ⟨U.baseOpts, fun f => (U.filters f).map (fun i => ⟨fun _ _ _ => .done (.error .recursionError), i.2⟩)⟩
  | n + 1 => ⟨U.baseOpts, fun f => (U.filters f).map (fun i => ⟨i.1.func U.pandas U.api U.jsonLoads (U.ranger n), i.2⟩)⟩

/-- `pandalone/xleash/_lasso.py:211-256` `Ranger.do_lasso` with stack for `n` filters within one another. -/
def RunSetup.doLasso (U : RunSetup) (n : Nat) (xlref : Str) (ctx : Lasso SheetObj) : Run (FRes SheetObj) :=
  (U.ranger n).doLasso U.api U.jsonLoads xlref ctx

end Model
