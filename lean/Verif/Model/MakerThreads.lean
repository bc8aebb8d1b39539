import Verif.Model.Pandel
/-
Threads that share one model-maker (`Pandel` of `pandalone/pandata.py`), one access of its attributes at a time.
-/
namespace Model
open Py

/-- A model-maker whose validation only checks: the errors it yields, and the exception that ends it. Simplification: nothing is filled in by
validation (see Model/InPlace and Model/BuildIter for that), and there are no functions that curate. -/
structure Checks (V : Type) where
  check : (isPrevalidation : Bool) → Doc → List V × Option PyErr

/-- The same as a `Maker`. -/
def Checks.maker {V : Type} (C : Checks V) : Maker V := ⟨fun pre d => ⟨(C.check pre d).1, (C.check pre d).2, d⟩, []⟩

/-- The first that is yielded when a document is validated in this step, `pandalone/pandata.py:873-877, 1006-1021`. -/
def Checks.first {V : Type} (C : Checks V) (i : Nat) (pre : Bool) (d : Doc) : Option (BuildErr V) :=
  ((C.check pre d).1.map (BuildErr.found i) ++ raisedErr i (C.check pre d).2).head?

/-- The attributes of a `Pandel` that change, `pandalone/pandata.py:773-775`. -/
structure SharedMaker where
  subs : List Doc
  model : Doc
  errored : Bool

/-- Where a thread is, in `build` (`pandalone/pandata.py:1030-1041`) or in adding submodels (`add_submodel`, 966-986): before the next access of
an attribute. Validating and merging documents are no accesses. -/
inductive MakerPc (V : Type)
  /-- `self._errored = False`. -/
  | begin
  /-- `self.model = None`. -/
  | clear
  /-- The next submodel to be validated, by its position: iterators of lists see what is appended meanwhile. -/
  | pre (i : Nat)
  /-- The next submodel to be merged. -/
  | merge (i : Nat)
  /-- Reading `self.model`, to merge the submodel into it. -/
  | into (i : Nat) (d : Doc)
  /-- `self.model = ...`, with what they were merged to. -/
  | write (i : Nat) (m : Doc)
  /-- Reading `self.model`, to validate it. -/
  | check
  /-- `if self._errored`, after a step. -/
  | asked (step : Nat)
  /-- `self._errored = True`, and then the error is yielded. -/
  | fails (e : BuildErr V)
  /-- `return self.model`. -/
  | final
  /-- The end of `build`. -/
  | done (r : Except (BuildErr V) Doc)
  /-- Submodels that this thread has still to add. -/
  | add (ds : List Doc)

/-- One access by a thread, `pandalone/pandata.py:939-957, 986, 1002-1041`. -/
def MakerPc.step {V : Type} (C : Checks V) (S : SharedMaker) : MakerPc V → SharedMaker × MakerPc V
  | .begin => ({ S with errored := false }, .clear)
  | .clear => ({ S with model := .null }, .pre 0)
  | .pre i => (S, match S.subs[i]? with
    | none => .asked 1
    | some d => match C.first 1 true d with
      | none => .pre (i + 1)
      | some e => .fails e)
  | .merge i => (S, match S.subs[i]? with
    | none => .asked 2
    | some d => .into i d)
  | .into i d => (S, match mergeDoc S.model d with
    | .error e => match raisedErr 2 (some e) with
      | x :: _ => .fails x
      | [] => .fails (.invalid 2)
    | .ok m => .write i m)
  | .write i m => ({ S with model := m }, .merge (i + 1))
  | .check => (S, match C.first 3 false S.model with
    | none => .asked 3
    | some e => .fails e)
  | .asked i => (S, if S.errored then .done (.error (.gaveUp i))
      else if i = 1 then .merge 0 else if i = 2 then .check else if i = 3 then .asked 4 else .final)
  | .fails e => ({ S with errored := true }, .done (.error e))
  | .final => (S, .done (.ok S.model))
  | .done r => (S, .done r)
  | .add [] => (S, .add [])
  | .add (d :: ds) => ({ S with subs := S.subs ++ [d] }, .add ds)

/-- What is shared, and the threads. -/
structure Makers (V : Type) where
  shared : SharedMaker
  threads : List (MakerPc V)

/-- One access by the given thread (`pandalone/pandata.py:939-1041`). -/
def Makers.step {V : Type} (C : Checks V) (c : Makers V) (j : Nat) : Makers V :=
  match c.threads[j]? with
  | none => c
  | some t => ⟨(t.step C c.shared).1, c.threads.set j (t.step C c.shared).2⟩

/-- Accesses in the given order of threads. -/
def Makers.run {V : Type} (C : Checks V) (c : Makers V) (js : List Nat) : Makers V := js.foldl (Makers.step C) c

end Model
