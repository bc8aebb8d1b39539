import Verif.Model.Sheet
/-
Model of the caching of states and margins in `pandalone/xleash/io/backend.py` `ABCSheet`.
-/
namespace Model
open Py

/-- What a backend answers, as long as its sheet does not change: `_read_states_matrix()` and
`_read_margin_coords()`, abstract in `pandalone/xleash/io/backend.py:356-363` and `399-409`. -/
structure SheetContents where
  states : Except PyErr Mat
  reported : Except PyErr (Option Coords × Option Coords)

/-- A sheet: its source at the moment, and the cached `_states_matrix` and `_margin_coords`,
`pandalone/xleash/io/backend.py:332-333`. -/
structure CachedSheet where
  src : SheetContents
  states : Option Mat := none
  margins : Option (Coords × Coords) := none

/-- `pandalone/xleash/io/backend.py:365-375` `get_states_matrix`. -/
def CachedSheet.getStates (o : CachedSheet) : CachedSheet × Except PyErr Mat :=
  match o.states with
  | some m => (o, .ok m)
  | none => match o.src.states with
    | .error e => (o, .error e)
    | .ok m => ({ o with states := some m }, .ok m)

/-- `pandalone/xleash/io/backend.py:411-428` `get_margin_coords` (a pair is always true, and so are coordinates). -/
def CachedSheet.getMargins (o : CachedSheet) : CachedSheet × Except PyErr (Coords × Coords) :=
  match o.margins with
  | some b => (o, .ok b)
  | none => match o.src.reported with
    | .error e => (o, .error e)
    | .ok (some up, some dn) => ({ o with margins := some (up, dn) }, .ok (up, dn))
    | .ok (up, dn) =>
      let q := o.getStates
      match q.2 with
      | .error e => (q.1, .error e)
      | .ok m =>
        let b := (up.getD (marginCoords m).1, dn.getD (marginCoords m).2)
        ({ q.1 with margins := some b }, .ok b)

/-- What happens to a sheet: being asked for its states or its margins, or a change of its contents from
outside (the array of an `ArraySheet` belongs to the user). -/
inductive SheetEvent
  | states
  | margins
  | change (s : SheetContents)

/-- What is answered. -/
inductive SheetAnswer
  | states (r : Except PyErr Mat)
  | margins (r : Except PyErr (Coords × Coords))
  | changed

/-- One event. -/
def CachedSheet.step (o : CachedSheet) : SheetEvent → CachedSheet × SheetAnswer
  | .states => (o.getStates.1, .states o.getStates.2)
  | .margins => (o.getMargins.1, .margins o.getMargins.2)
  | .change s => ({ o with src := s }, .changed)

/-- The answers to a history of events. -/
def CachedSheet.run (o : CachedSheet) : List SheetEvent → List SheetAnswer
  | [] => []
  | e :: es => (o.step e).2 :: (o.step e).1.run es

end Model
