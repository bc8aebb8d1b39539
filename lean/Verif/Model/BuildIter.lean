import Verif.Model.PandelHeap
/-
Model of `Pandel.build_iter` of `pandalone/pandata.py` as a generator: it is advanced error by error, and may be abandoned at any of them.
-/
namespace Model
open Py

/-- What advancing the iteration over the errors of one validation gives. -/
inductive VOut (I V : Type)
  | finished
  | raised (e : PyErr)
  | yields (v : V) (rest : I)

/-- A concrete model-maker whose validations are iterators with states `I`: each advance may write to the heap. The curation functions are
as in `MakerH`. -/
structure IterMaker (I V : Type) where
  /-- `PandelVisitor(schema).iter_errors(mdl)`, `pandalone/pandata.py:873-875`: nothing is done before it is advanced -/
  start : (isPrevalidation : Bool) → Val → I
  advance : Heap → I → Heap × VOut I V
  curators : List (Heap → Val → Heap × Val × Option PyErr)

/-- Where a generator of `build_iter` is suspended. -/
inductive Gen (I : Type)
  /-- at line 877, below line 943, in the validation of the submodel with this index -/
  | inSubmodel (k : Nat) (it : I)
  /-- at line 877, below line 956 -/
  | inModel (it : I)
  /-- at line 1011 or 1021: the exception that ended this step has been yielded -/
  | afterRaise (step : Nat)
  /-- at line 1024 -/
  | gaveUp
  /-- exhausted -/
  | over

/-- All objects, and the attributes `_submodel_tuples`, `model` and `_errored` of the maker, `pandalone/pandata.py:773-775`. -/
structure Attrs where
  heap : Heap
  subs : List Val
  model : Val
  errored : Option Bool

/-- What one advance of a generator leaves: the attributes, where it is suspended, and what it yielded, if not exhausted. -/
structure Advanced (I V : Type) where
  attrs : Attrs
  gen : Gen I
  out : Option (BuildErr V)

/-- `pandalone/pandata.py:1009-1021`: an exception out of step `i`. -/
def stepRaised {I V : Type} (s : Attrs) (i : Nat) (e : PyErr) : Advanced I V :=
  ⟨{ s with errored := some true }, .afterRaise i, some (if e = .validationError then .invalid i else .failed i e)⟩

/-- `pandalone/pandata.py:1023-1028`: after step `i`, either give up or go on. -/
def afterStep {I V : Type} (s : Attrs) (i : Nat) (next : Attrs → Advanced I V) : Advanced I V :=
  if s.errored = some true then ⟨s, .gaveUp, some (.gaveUp i)⟩ else next s

/-- The loop of `Pandel._curate`, `pandalone/pandata.py:963-964`. -/
def curateLoop (h : Heap) (model : Val) : List (Heap → Val → Heap × Val × Option PyErr) → Heap × Val × Option PyErr
  | [] => (h, model, none)
  | c :: cs =>
    match c h model with
    | (h1, m, some e) => (h1, m, some e)
    | (h1, m, none) => curateLoop h1 m cs

/-- The loop of `Pandel._merge`, `pandalone/pandata.py:948-949`: the model so far stays when merging raises. -/
def mergeLoop (fuel : Nat) (h : Heap) (model : Val) : List Val → Heap × Val × Option PyErr
  | [] => (h, model, none)
  | v :: vs =>
    match mergeH fuel h model v with
    | (h1, .error e) => (h1, model, some e)
    | (h1, .ok m) => mergeLoop fuel h1 m vs

/-- From the beginning of step 4, `pandalone/pandata.py:959-964`. -/
def fromCurate {I V : Type} (mk : IterMaker I V) (s : Attrs) : Advanced I V :=
  match curateLoop s.heap s.model mk.curators with
  | (h, m, some e) => stepRaised { s with heap := h, model := m } 4 e
  | (h, m, none) => afterStep { s with heap := h, model := m } 4 (fun s => ⟨s, .over, none⟩)

/-- From within step 3, `pandalone/pandata.py:953-957` and `873-877`: the flag is set before an error is yielded. -/
def fromModel {I V : Type} (mk : IterMaker I V) (s : Attrs) (it : I) : Advanced I V :=
  match mk.advance s.heap it with
  | (h, .finished) => afterStep { s with heap := h } 3 (fromCurate mk)
  | (h, .raised e) => stepRaised { s with heap := h } 3 e
  | (h, .yields v it) => ⟨{ s with heap := h, errored := some true }, .inModel it, some (.found 3 v)⟩

/-- From the beginning of step 2, `pandalone/pandata.py:946-951`. -/
def fromMerge {I V : Type} (mk : IterMaker I V) (fuel : Nat) (s : Attrs) : Advanced I V :=
  match mergeLoop fuel s.heap s.model s.subs with
  | (h, m, some e) => stepRaised { s with heap := h, model := m } 2 e
  | (h, m, none) => afterStep { s with heap := h, model := m } 2 (fun s => fromModel mk s (mk.start false s.model))

/-- The loop of step 1, `pandalone/pandata.py:941-944`, over the submodels from the one with index `k` on. -/
def fromSubmodels {I V : Type} (mk : IterMaker I V) (fuel : Nat) (s : Attrs) : Nat → List Val → Advanced I V
  | _, [] => afterStep s 1 (fromMerge mk fuel)
  | k, v :: vs =>
    match mk.advance s.heap (mk.start true v) with
    | (h, .finished) => fromSubmodels mk fuel { s with heap := h } (k + 1) vs
    | (h, .raised e) => stepRaised { s with heap := h } 1 e
    | (h, .yields x it) => ⟨{ s with heap := h, errored := some true }, .inSubmodel k it, some (.found 1 x)⟩

/-- The first `next()` on a generator of `build_iter`, `pandalone/pandata.py:1002-1005`. -/
def genStart {I V : Type} (mk : IterMaker I V) (fuel : Nat) (s : Attrs) : Advanced I V :=
  fromSubmodels mk fuel { s with errored := some false, model := .null } 0 s.subs

/-- `next()` on a suspended generator. The loop over the submodels goes on with the list as it then is. -/
def genNext {I V : Type} (mk : IterMaker I V) (fuel : Nat) (s : Attrs) : Gen I → Advanced I V
  | .inSubmodel k it =>
    match mk.advance s.heap it with
    | (h, .finished) => fromSubmodels mk fuel { s with heap := h } (k + 1) (s.subs.drop (k + 1))
    | (h, .raised e) => stepRaised { s with heap := h } 1 e
    | (h, .yields x it) => ⟨{ s with heap := h, errored := some true }, .inSubmodel k it, some (.found 1 x)⟩
  | .inModel it => fromModel mk s it
  | .afterRaise 1 => afterStep s 1 (fromMerge mk fuel)
  | .afterRaise 2 => afterStep s 2 (fun s => fromModel mk s (mk.start false s.model))
  | .afterRaise 3 => afterStep s 3 (fromCurate mk)
  | .afterRaise _ => afterStep s 4 (fun s => ⟨s, .over, none⟩)
  | .gaveUp => ⟨s, .over, none⟩
  | .over => ⟨s, .over, none⟩

/-- What can happen to a model-maker: its user makes an object, adds a submodel, begins to iterate over the errors of a build (leaving the
iteration before, if any, where it is), or asks for the next error. `Pandel.build`, `pandalone/pandata.py:1030-1041`, is `begin`. -/
inductive IterOp
  | new (o : Obj)
  | add (v : Val)
  | begin
  | next

/-- The attributes, the last iteration begun, and what it has reported so far. -/
structure IterState (I V : Type) where
  attrs : Attrs
  gen : Gen I
  reported : List (BuildErr V)

/-- `Pandel.__init__`, `pandalone/pandata.py:767-778`. -/
def iterNew {I V : Type} (h : Heap) : IterState I V := ⟨⟨h, [], .null, none⟩, .over, []⟩

/-- One operation. -/
def iterStep {I V : Type} (mk : IterMaker I V) (fuel : Nat) (s : IterState I V) : IterOp → IterState I V
  | .new o => { s with attrs := { s.attrs with heap := s.attrs.heap ++ [o] } }
  | .add v => { s with attrs := { s.attrs with subs := s.attrs.subs ++ [v] } }
  | .begin => let r := genStart mk fuel s.attrs
    ⟨r.attrs, r.gen, r.out.toList⟩
  | .next => let r := genNext mk fuel s.attrs s.gen
    ⟨r.attrs, r.gen, s.reported ++ r.out.toList⟩

/-- One after the other. -/
def iterRun {I V : Type} (mk : IterMaker I V) (fuel : Nat) (s : IterState I V) : List IterOp → IterState I V
  | [] => s
  | op :: ops => iterRun mk fuel (iterStep mk fuel s op) ops

/-- A model-maker with validations that report nothing, fill in defaults of schemas, and no curation: as `plainMaker`. -/
def plainIter (pre post : DSchema) : IterMaker (Bool × Val) Nat where
  start := fun isPre v => (isPre, v)
  advance := fun h it => (defaultsH (if it.1 then pre else post) h it.2, .finished)
  curators := []

end Model
