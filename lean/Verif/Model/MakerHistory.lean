import Verif.Model.PandelHeap
/-
Model of the use of one model-maker (`Pandel` of `pandalone/pandata.py`) many times.
-/
namespace Model
open Py

/-- What can happen to a model-maker: its user makes an object, adds a submodel, or builds. -/
inductive MakerOp
  | new (o : Obj)
  | add (v : Val)
  | build

/-- All objects, and the attributes `_submodel_tuples` and `model` of the maker, `pandalone/pandata.py:773-778`. -/
structure MakerState where
  heap : Heap
  subs : List Val
  model : Val

/-- `Pandel.__init__`, `pandalone/pandata.py:767-778`. -/
def makerNew (h : Heap) : MakerState := ⟨h, [], .null⟩

/-- `Pandel.add_submodel`, `pandalone/pandata.py:966-986`, and `build_iter`, lines 988-1028, run to its end. The submodels are kept; the
context-maps of submodels, which nothing uses, are left out. -/
def makerStep (mk : MakerH) (fuel : Nat) (s : MakerState) : MakerOp → MakerState
  | .new o => { s with heap := s.heap ++ [o] }
  | .add v => { s with subs := s.subs ++ [v] }
  | .build => let r := buildH mk fuel s.heap s.subs
    { s with heap := r.1, model := r.2 }

/-- One after the other. -/
def makerRun (mk : MakerH) (fuel : Nat) (s : MakerState) : List MakerOp → MakerState
  | [] => s
  | op :: ops => makerRun mk fuel (makerStep mk fuel s op) ops

end Model
