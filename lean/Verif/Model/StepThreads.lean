import Verif.Model.Pstep
/-
Threads that read attributes of shared path steps (`Pstep` of `pandalone/mappings.py`), one access of what they share at a time.
-/
namespace Model
open Py

/-- What is left of reading a chain of attributes, as the next operation on what the threads share, and what follows it.
Simplification: making a step (`pandalone/mappings.py:1099`, the right hand side) is one operation, in which the step that is cloned is looked
at once; texts of steps never change, so that the truth of a step is no operation of its own. The operations that test a dictionary
and look into it in one expression (line 1110) are one: children are never taken away, and so the outcome is that of looking at one of the two moments. -/
inductive Reading
  /-- It returned, or raised. -/
  | done (r : Except PyErr (List Nat))
  /-- `self._csteps`, of this step. -/
  | kids (s : Nat) (k : Option Nat → Reading)
  /-- `csteps and csteps.get(attr, None)`, where a step without text counts as none. -/
  | find (d : Option Nat) (key : Str) (k : Option Nat → Reading)
  /-- `not csteps`: the dictionary, if it has children. -/
  | test (d : Option Nat) (k : Option Nat → Reading)
  /-- `self._csteps = csteps = {}`. -/
  | newKids (s : Nat) (k : Nat → Reading)
  /-- `csteps.get(ckey, None)`. -/
  | existing (d : Nat) (key : Str) (k : Option Nat → Reading)
  /-- `Pstep(ckey, existing_cstep or self._pmod, alias)`, where there is no alias. -/
  | make (s : Nat) (key : Str) (ex : Option Nat) (k : Except PyErr Nat → Reading)
  /-- `csteps[ckey] = child`. -/
  | store (d : Nat) (key : Str) (c : Nat) (k : Reading)

/-- One operation of a thread, `pandalone/mappings.py:1084-1111`. -/
def Reading.step (F : Nat) (E : RegexLib) (σ : PsState) : Reading → PsState × Reading
  | .done r => (σ, .done r)
  | .kids s k => match σ.steps[s]? with
    | none => (σ, .done (.error .attributeError))   -- no such object: does not occur
    | some o => (σ, k o.csteps)
  | .find d key k => (σ, k (match d.bind (fun d => dget ((σ.dicts[d]?).getD []) key) with
    | none => none
    | some c => match σ.steps[c]? with
      | none => none
      | some co => if co.name = [] then none else some c))
  | .test d k => (σ, k (match d with
    | none => none
    | some d => if ((σ.dicts[d]?).getD []).isEmpty then none else some d))
  | .newKids s k => match σ.steps[s]? with
    | none => (σ, .done (.error .attributeError))   -- no such object: does not occur
    | some o => ({ σ with
        dicts := σ.dicts ++ [[]]
        steps := σ.steps.set s { o with csteps := some σ.dicts.length } }, k σ.dicts.length)
  | .existing d key k => (σ, k (dget ((σ.dicts[d]?).getD []) key))
  | .make s key ex k =>
    let r := newStep F E σ key (existingOr σ ex ((σ.steps[s]?).bind StepObj.pmod)) none []
    (r.1, k r.2)
  | .store d key c k => ({ σ with dicts := σ.dicts.set d (dset ((σ.dicts[d]?).getD []) key c) }, k)

/-- `pandalone/mappings.py:1099`: the child is made and stored. -/
def storeT (s d : Nat) (key : Str) (ex : Option Nat) (k : Except PyErr (Option Nat) → Reading) : Reading :=
  .make s key ex (fun r => match r with
    | .error e => k (.error e)
    | .ok c => .store d key c (k (.ok (some c))))

/-- `pandalone/mappings.py:1084-1101` `__make_cstep`, as called by `__getattr__`. -/
def makeCstepT (s : Nat) (key : Str) (k : Except PyErr (Option Nat) → Reading) : Reading :=
  .kids s (fun d => .test d (fun d => match d with
    | none => .newKids s (fun d => storeT s d key none k)
    | some d => .existing d key (fun ex => storeT s d key ex k)))

/-- `pandalone/mappings.py:1103-1111` attribute lookup, see `getAttr`. -/
def getAttrT (s : Nat) (attr : Str) (k : Except PyErr (Option Nat) → Reading) : Reading :=
  if attr ∈ plainAttrs then k (.ok none)
  else if startsWith ['_'] attr ∨ attr ∈ forbiddenAttrs then k (.error .attributeError)
  else .kids s (fun d => .find d attr (fun c => match c with
    | some c => k (.ok (some c))
    | none => makeCstepT s attr k))

/-- Reading a chain of attributes, each by `pandalone/mappings.py:1103-1111`; with the steps met so far, last first. -/
def getPathT (s : Nat) : List Str → List Nat → Reading
  | [], met => .done (.ok met.reverse)
  | a :: as, met => getAttrT s a (fun r => match r with
    | .ok (some c) => getPathT c as (c :: met)
    | .ok none => .done (.error .attributeError)
    | .error e => .done (.error e))

/-- What is shared, and the threads. -/
structure Readers where
  shared : PsState
  threads : List Reading

/-- A chain of attributes to be read from a step (`pandalone/mappings.py:1103`). -/
structure ThreadRead where
  from_ : Nat
  chain : List Str

/-- The threads that will read these chains. A thread that reads several ones is modelled by several threads. -/
def Readers.start (σ : PsState) (ts : List ThreadRead) : Readers := ⟨σ, ts.map (fun t => getPathT t.from_ t.chain [])⟩

/-- One operation of a thread (`pandalone/mappings.py:1084-1111`). -/
def Readers.step (F : Nat) (E : RegexLib) (c : Readers) (j : Nat) : Readers :=
  match c.threads[j]? with
  | none => c
  | some t => ⟨(t.step F E c.shared).1, c.threads.set j (t.step F E c.shared).2⟩

/-- Operations of the threads in the given order. -/
def Readers.run (F : Nat) (E : RegexLib) (c : Readers) (js : List Nat) : Readers := js.foldl (Readers.step F E) c

end Model
