import Verif.Model.Eval
/-
Model of the installed filters of `pandalone/xleash/_filter.py` with the ranger they run on: filters that call other filters and follow
references, which call filters and follow references again, up to the recursion limit of Python.
-/
namespace Model
open Py

/-- What a Python function with these parameters, all of them optional, gets for a parameter: `none` if it is not given. A call that does not
fit is a `TypeError`. -/
def bindArgs (names : List Str) (args : List Doc) (kwds : List (Str × Doc)) : Except PyErr (Str → Option Doc) :=
  if names.length < args.length then .error .typeError
  else if kwds.any (fun kv => !names.contains kv.1 || (names.take args.length).contains kv.1) then .error .typeError
  else .ok (fun k => match dget (names.zip args) k with
    | some d => some d
    | none => dget kwds k)

/-- What `for f in filters` goes through, `pandalone/xleash/_filter.py:350`. -/
def iterArg : Doc → Except PyErr (List Doc)
  | .list xs => .ok xs
  | .str t => .ok (t.map (fun c => .str [c]))
  | .dict kvs => .ok (kvs.map (fun kv => .str kv.1))
  | _ => .error .typeError

/-- The text that it is, if it is one. -/
def Doc.text? : Doc → Option Str
  | .str t => some t
  | _ => none

/-- The arguments `include` and `exclude`, `pandalone/xleash/_filter.py:272-273`. Simplification: only a text, a list of texts, or what is
false; others are refused. -/
def keysArg (d : Doc) : Except PyErr (Option (List Str)) :=
  if d.truthy then match d with
    | .str t => .ok (some [t])
    | .list xs => if xs.all (fun x => x.text?.isSome) then .ok (some (xs.filterMap Doc.text?)) else .error .typeError
    | _ => .error .typeError
  else .ok none

/-- The argument `depth`: what depths are compared with, `pandalone/xleash/_filter.py:332`; other values are equal to no depth (a
simplification for floats). -/
def depthArg : Doc → Option Int
  | .int i => some i
  | .bool b => some (if b then 1 else 0)
  | _ => none

/-- The arguments that all element-wise filters have. -/
structure ElementArgs where
  filters : List Doc
  incl : Option (List Str)
  excl : Option (List Str)
  depth : Option Int
  evalAll : Bool

/-- `pandalone/xleash/_filter.py:373` and `440-442`: the signatures of `recursive_filter` and `pyeval_filter`. -/
def elementArgs (names : List Str) (args : List Doc) (kwds : List (Str × Doc)) : Except PyErr ElementArgs :=
  match bindArgs names args kwds with
  | .error e => .error e
  | .ok arg =>
    match iterArg ((arg "filters".toList).getD (.list [])) with
    | .error e => .error e
    | .ok fs => match keysArg ((arg "include".toList).getD .null) with
      | .error e => .error e
      | .ok incl => match keysArg ((arg "exclude".toList).getD .null) with
        | .error e => .error e
        | .ok excl => .ok ⟨fs, incl, excl, depthArg ((arg "depth".toList).getD (.int (-1))),
            ((arg "eval_all".toList).getD (.bool false)).truthy⟩

/-- The installed filters, `pandalone/xleash/_filter.py:540-574`: those that run others on the ranger, and any that do not use the ranger.
The expressions of `pyeval` are taken not to use the ranger, which they could. -/
inductive FilterKind (S : Type)
  | pipe
  | recurse
  | pyeval (eval : Evaluator S)
  | own (f : FFun S)

/-- The parameters of `recursive_filter`, `pandalone/xleash/_filter.py:373`. -/
def recurseNames : List Str := ["filters".toList, "include".toList, "exclude".toList, "depth".toList]

/-- The parameters of `pyeval_filter`, `pandalone/xleash/_filter.py:440-442`. -/
def pyevalNames : List Str := ["filters".toList, "eval_all".toList, "include".toList, "exclude".toList, "depth".toList]

/-- The function of a filter, on a ranger: `pipe_filter` (`pandalone/xleash/_filter.py:34-45`), `recursive_filter` (373-393) and
`pyeval_filter` (440-499). -/
def FilterKind.func {S : Type} (pandas : Bool) (A : SheetApi S) (jsonLoads : Str → Option Doc) (R : Ranger S) : FilterKind S → FFun S
  | .pipe => fun l args _ => R.pipe args (.lasso l)
  | .recurse => fun l args kwds => match elementArgs recurseNames args kwds with
    | .error e => .error e
    | .ok a => (R.elementwise pandas (recurseElement (R.doLasso A jsonLoads)) a.filters a.incl a.excl a.depth l).map .lasso
  | .pyeval eval => fun l args kwds => match elementArgs pyevalNames args kwds with
    | .error e => .error e
    | .ok a => (R.pyeval pandas eval a.filters a.evalAll a.incl a.excl a.depth l).map .lasso
  | .own f => f

/-- What a ranger is made of: its factory, options and filters with whether they have a description (see `FRec`), and what is around it. -/
structure Setup (S : Type) where
  fetch : Option Str → Option Str → Option S → Except PyErr S
  baseOpts : List (Str × Doc)
  filters : Str → Option (FilterKind S × Bool)
  pandas : Bool
  api : SheetApi S
  jsonLoads : Str → Option Doc

/-- A `Ranger` when there is stack left for `n` filters within one another; one more is a `RecursionError`. -/
def Setup.ranger {S : Type} (U : Setup S) : Nat → Ranger S
  | 0 => ⟨U.fetch, U.baseOpts, fun f => (U.filters f).map (fun i => ⟨fun _ _ _ => .error .recursionError, i.2⟩)⟩
  | n + 1 => ⟨U.fetch, U.baseOpts, fun f => (U.filters f).map (fun i => ⟨i.1.func U.pandas U.api U.jsonLoads (U.ranger n), i.2⟩)⟩

/-- `Ranger.do_lasso` with stack for `n` filters within one another. -/
def Setup.doLasso {S : Type} (U : Setup S) (n : Nat) (xlref : Str) (ctx : Lasso S) : Except PyErr (FRes S) :=
  (U.ranger n).doLasso U.api U.jsonLoads xlref ctx

end Model
