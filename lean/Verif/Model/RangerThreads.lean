import Verif.Model.Stages
/-
Threads that share one `Ranger` (`pandalone/xleash/_lasso.py`), one access of its attribute `intermediate_lasso` at a time.
-/
namespace Model
open Py

/-- What is left to do of a call of a method of a ranger, as the next operation on `intermediate_lasso` (`pandalone/xleash/_lasso.py:88`),
that the other threads see, and what follows it. Simplification: the rest is not seen by the other threads. Lassos are tuples, the options
of a ranger are copied (line 140), filters are looked up in a dictionary that is not changed, and fetching sheets and asking them are
functions; threads that share factories and sheets are in Model/FactoryThreads and Model/SheetThreads. -/
inductive Throwing (S α : Type)
  /-- It returned, or raised. -/
  | done (a : α)
  /-- `self.intermediate_lasso = ...`. -/
  | remember (i : InterLasso S) (k : Throwing S α)
  /-- Looking at `self.intermediate_lasso`. -/
  | recall (k : InterLasso S → Throwing S α)

/-- One call after another. -/
def Throwing.bind {S α β : Type} : Throwing S α → (α → Throwing S β) → Throwing S β
  | .done a, f => f a
  | .remember i k, f => .remember i (k.bind f)
  | .recall k, f => .recall (fun i => (k i).bind f)

/-- One operation of a thread. -/
def Throwing.step {S α : Type} (s : InterLasso S) : Throwing S α → InterLasso S × Throwing S α
  | .done a => (s, .done a)
  | .remember i k => (i, k)
  | .recall k => (s, k s)

/-- An entry of `available_filters`, see `FRec`. -/
structure FRecT (S : Type) where
  func : Lasso S → List Doc → List (Str × Doc) → Throwing S (Except PyErr (FRes S))
  desc : Bool

/-- `pandalone/xleash/_lasso.py:47-95` `Ranger`, see `Model.Ranger`; what it remembers is shared. -/
structure RangerT (S : Type) where
  fetch : Option Str → Option Str → Option S → Except PyErr S
  baseOpts : List (Str × Doc)
  filters : Str → Option (FRecT S)

/-- The ranger without its memory, as `RangerI.plain`. -/
def RangerT.plain {S : Type} (R : RangerT S) : Ranger S := ⟨R.fetch, R.baseOpts, fun _ => none⟩

/-- `pandalone/xleash/_lasso.py:90-95` `_relasso`: the lasso that is handed on is the one that was made, not the one remembered. -/
def relassoT {S α : Type} (l : Lasso S) (stage : Str) (k : Lasso S → Throwing S α) : Throwing S α :=
  .remember (some (stage, l)) (k l)

/-- `pandalone/xleash/_lasso.py:97-136` `Ranger.make_call`, see `RangerI.makeCall`. -/
def RangerT.makeCall {S : Type} (R : RangerT S) (l : FRes S) (func : Str) (args : List Doc) (kwds : List (Str × Doc)) :
    Throwing S (Except PyErr (FRes S)) :=
  match l with
  | .other _ => .done (.error .attributeError)
  | .lasso l => relassoT l func (fun l =>
    match l.opts with
    | none => .done (.error .attributeError)
    | some opts =>
      let verbose := (opts.get "verbose".toList (.bool false)).truthy
      let lax := ((dget kwds "lax".toList).getD (opts.get "lax".toList (.bool false))).truthy
      match R.filters func with
      | none => .done (if lax then .ok (.lasso l) else .error .valueError)
      | some rec => (rec.func l args (ddel kwds "lax".toList)).bind (fun r => .done (match r with
        | .ok (.lasso l') => .ok (.lasso l')
        | .ok (.other d) => if verbose && !rec.desc then .error .typeError
            else if lax then .ok (.other d) else .error .valueError
        | .error _ => if verbose && !rec.desc then .error .typeError
            else if lax then .ok (.lasso l) else .error .valueError)))

/-- `pandalone/xleash/_filter.py:34-45` `pipe_filter`. -/
def RangerT.pipe {S : Type} (R : RangerT S) : List Doc → FRes S → Throwing S (Except PyErr (FRes S))
  | [], l => .done (.ok l)
  | f :: fs, l =>
    match parseCallSpec f with
    | .error e => .done (.error e)
    | .ok c => (R.makeCall l c.func c.args c.kwds).bind (fun r => match r with
      | .error e => .done (.error e)
      | .ok l' => R.pipe fs l')

/-- `pandalone/xleash/_lasso.py:201-209` `_run_filters`. -/
def RangerT.runFilters {S : Type} (R : RangerT S) (l : Lasso S) : Throwing S (Except PyErr (FRes S)) :=
  match l.callSpec with
  | none => .done (.ok (.lasso l))
  | some c => (R.makeCall (.lasso l) c.func c.args c.kwds).bind (fun r => match r with
    | .error _ => .done (.error .valueError)
    | .ok r => .done (.ok r))

/-- `pandalone/xleash/_lasso.py:211-256` `Ranger.do_lasso`: what was remembered is forgotten (line 233), and then each stage is
remembered. -/
def RangerT.doLasso {S : Type} (R : RangerT S) (A : SheetApi S) (jsonLoads : Str → Option Doc) (xlref : Doc) (ctx : Lasso S) :
    Throwing S (Except PyErr (FRes S)) :=
  match xlref with
  | .str xlref => .remember none (relassoT { ctx with opts := some [R.baseOpts] } "context".toList (fun _ =>
    match R.plain.parseMerge jsonLoads xlref ctx with
    | .error e => .done (.error e)
    | .ok l => relassoT l "parse".toList (fun l =>
      match R.fetch l.urlFile l.shName l.sheet with
      | .error _ => .done (.error .valueError)
      | .ok sheet => relassoT { l with sheet := some sheet } "open".toList (fun l =>
        match resolveRect A l sheet with
        | .error e => .done (.error e)
        | .ok none => relassoT { l with st := none, nd := none } "capture".toList (fun l =>
          relassoT { l with values := .list [] } "read_rect".toList (fun l => R.runFilters l))
        | .ok (some (st, nd)) => relassoT { l with st := some st, nd := nd } "capture".toList (fun l =>
          match A.readRect sheet st nd with
          | .error e => .done (.error e)
          | .ok v => relassoT { l with values := v.toDoc } "read_rect".toList (fun l => R.runFilters l))))))
  | _ => .done (.error .valueError)

/-- A ranger's memory and the threads that use the ranger. -/
structure Rangers (S : Type) where
  mem : InterLasso S
  threads : List (Throwing S (Except PyErr (FRes S)))

/-- A call of `do_lasso`, `pandalone/xleash/_lasso.py:211`: the reference and the context. -/
structure ThreadThrow (S : Type) where
  xlref : Doc
  ctx : Lasso S

/-- The threads that will throw these lassos with the ranger. A thread that throws several ones is several threads here. -/
def RangerT.start {S : Type} (R : RangerT S) (A : SheetApi S) (jsonLoads : Str → Option Doc) (s : InterLasso S) (ts : List (ThreadThrow S)) :
    Rangers S := ⟨s, ts.map (fun t => R.doLasso A jsonLoads t.xlref t.ctx)⟩

/-- One operation of a thread (`pandalone/xleash/_lasso.py:93, 233`). -/
def Rangers.step {S : Type} (c : Rangers S) (j : Nat) : Rangers S :=
  match c.threads[j]? with
  | none => c
  | some t => ⟨(t.step c.mem).1, c.threads.set j (t.step c.mem).2⟩

/-- Operations of the threads in the given order. -/
def Rangers.run {S : Type} (c : Rangers S) (js : List Nat) : Rangers S := js.foldl Rangers.step c

end Model
