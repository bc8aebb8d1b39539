import Verif.Model.SheetCache
/-
Threads that ask one sheet (`pandalone/xleash/io/backend.py` `ABCSheet`) for its states and margins, one access of the shared attributes at a time.
-/
namespace Model
open Py

/-- What is left to do of a question to a sheet, as the next operation that other threads see and what follows it. Simplification: reading the
states or the reported margins from the backend is one operation. -/
inductive Asking
  /-- It was answered. -/
  | done (a : SheetAnswer)
  /-- Looking at `self._states_matrix`. -/
  | loadStates (k : Option Mat → Asking)
  /-- `self._read_states_matrix()`. -/
  | readStates (k : Except PyErr Mat → Asking)
  /-- `self._states_matrix = ...`. -/
  | storeStates (m : Mat) (k : Asking)
  /-- Looking at `self._margin_coords`. -/
  | loadMargins (k : Option (Coords × Coords) → Asking)
  /-- `self._read_margin_coords()`. -/
  | readReported (k : Except PyErr (Option Coords × Option Coords) → Asking)
  /-- `self._margin_coords = ...`. -/
  | storeMargins (b : Coords × Coords) (k : Asking)

/-- What was found in an attribute. Nothing would be `None`, that no caller expects: an `AttributeError` later on. -/
def loaded {α : Type} : Option α → Except PyErr α
  | some a => .ok a
  | none => .error .attributeError

/-- `pandalone/xleash/io/backend.py:365-375` `get_states_matrix`: the attribute is looked at twice. -/
def statesT (k : Except PyErr Mat → Asking) : Asking :=
  .loadStates (fun o => match o with
    | some _ => .loadStates (fun o => k (loaded o))
    | none => .readStates (fun r => match r with
      | .error e => k (.error e)
      | .ok m => .storeStates m (.loadStates (fun o => k (loaded o)))))

/-- `pandalone/xleash/io/backend.py:411-428` `get_margin_coords`, likewise. -/
def marginsT (k : Except PyErr (Coords × Coords) → Asking) : Asking :=
  .loadMargins (fun o => match o with
    | some _ => .loadMargins (fun o => k (loaded o))
    | none => .readReported (fun r => match r with
      | .error e => k (.error e)
      | .ok (some up, some dn) => .storeMargins (up, dn) (.loadMargins (fun o => k (loaded o)))
      | .ok (up, dn) => statesT (fun q => match q with
        | .error e => k (.error e)
        | .ok m => .storeMargins (up.getD (marginCoords m).1, dn.getD (marginCoords m).2) (.loadMargins (fun o => k (loaded o))))))

/-- What is asked, `pandalone/xleash/io/backend.py:365-375` and `411-428`. -/
inductive Question
  | states
  | margins
  deriving DecidableEq

/-- The call of the method, by a thread. -/
def Question.ask : Question → Asking
  | .states => statesT (fun r => .done (.states r))
  | .margins => marginsT (fun r => .done (.margins r))

/-- One operation of a thread on the attributes of the sheet (`pandalone/xleash/io/backend.py:332-333`). -/
def Asking.step (o : CachedSheet) : Asking → CachedSheet × Asking
  | .done a => (o, .done a)
  | .loadStates k => (o, k o.states)
  | .readStates k => (o, k o.src.states)
  | .storeStates m k => ({ o with states := some m }, k)
  | .loadMargins k => (o, k o.margins)
  | .readReported k => (o, k o.src.reported)
  | .storeMargins b k => ({ o with margins := some b }, k)

/-- What happens next: an operation of a thread, or a change of the contents from outside. -/
inductive Moment
  | thread (j : Nat)
  | change (s : SheetContents)

/-- A sheet and the threads that ask it. A thread that asks again, after its answer, is another one here. -/
structure Askers where
  sheet : CachedSheet
  threads : List Asking

/-- A new sheet and the threads that will ask it. -/
def Askers.start (s : SheetContents) (qs : List Question) : Askers := ⟨⟨s, none, none⟩, qs.map Question.ask⟩

/-- One thing that happens. -/
def Askers.step (c : Askers) : Moment → Askers
  | .change s => { c with sheet := { c.sheet with src := s } }
  | .thread j => match c.threads[j]? with
    | none => c
    | some t => ⟨(t.step c.sheet).1, c.threads.set j (t.step c.sheet).2⟩

/-- Things in the order in which they happen. -/
def Askers.run (c : Askers) (ms : List Moment) : Askers := ms.foldl Askers.step c

end Model
