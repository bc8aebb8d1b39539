import Verif.Model.Visitor
/-
Model of the type checks of `PandelVisitor` (`pandalone/pandata.py:147-185, 462-473`) on Python values,
those of *pandas* and *numpy* included.
-/
namespace Model
open Py

/-- The values that a *numpy* or *pandas* object holds, in one row: whether each is NaN; and whether they are
kept as numbers, since `np.isnan` raises for anything else. -/
structure Held where
  numeric : Bool
  nans : List Bool

/-- A Python value, as far as the type checks can tell. `npNan` is the object `np.nan`, which is a Python
float; `float` is any other Python float. The contents of texts and containers do not matter to the checks.
Simplified: a class not in the list, complex and decimal numbers, is left out. -/
inductive PyThing
  | none
  | npNan
  | float (nan : Bool)
  | int (i : Int)
  | bool (b : Bool)
  | str (s : Str)
  | bytes (n : Nat)
  | list (n : Nat)
  | tuple (n : Nat)
  | dict (n : Nat)
  | set (n : Nat)
  | npBool (b : Bool)
  | npInt (i : Int)
  | npFloat (nan : Bool)
  | npStr (s : Str)
  | ndarray (shape : List Nat) (held : Held)
  | series (held : Held)
  | frame (rows cols : Nat) (held : Held)

/-- The classes that the checks ask for. -/
inductive PyClass
  | str
  | bool
  | int
  | sequence
  | mapping
  | number
  | npBool
  | npInteger
  | ndarray
  deriving DecidableEq

/-- The classes of a value among those: its own, those it inherits from, and the abstract ones it has been
registered with, by Python, by *numpy* (its numbers) and in `pandalone/pandata.py:147-149` (`Series` as
a sequence and as a mapping, `DataFrame` as a mapping). `np.str_` is a text, `np.float64` a float. -/
def PyThing.classes : PyThing → List PyClass
  | .none => []
  | .npNan => [.number]
  | .float _ => [.number]
  | .int _ => [.int, .number]
  | .bool _ => [.bool, .int, .number]
  | .str _ => [.str, .sequence]
  | .bytes _ => [.sequence]
  | .list _ => [.sequence]
  | .tuple _ => [.sequence]
  | .dict _ => [.mapping]
  | .set _ => []
  | .npBool _ => [.npBool]
  | .npInt _ => [.npInteger, .number]
  | .npFloat _ => [.number]
  | .npStr _ => [.str, .sequence]
  | .ndarray _ _ => [.ndarray]
  | .series _ => [.sequence, .mapping]
  | .frame _ _ _ => [.mapping]

/-- `isinstance(v, classes)`. -/
def PyThing.isinstance (v : PyThing) (cs : List PyClass) : Bool :=
  cs.any (fun c => v.classes.contains c)

/-- `_is_array`, `pandalone/pandata.py:152-155`. -/
def pyIsArray (v : PyThing) : Bool :=
  !v.isinstance [.str] && v.isinstance [.sequence, .ndarray]

/-- `_is_object`, `pandalone/pandata.py:158-159`. -/
def pyIsObject (v : PyThing) : Bool :=
  v.isinstance [.mapping]

/-- `_is_bool`, `pandalone/pandata.py:162-163`. -/
def pyIsBool (v : PyThing) : Bool :=
  v.isinstance [.bool, .npBool]

/-- `_is_integer`, `pandalone/pandata.py:166-170`. -/
def pyIsInteger (v : PyThing) : Bool :=
  if v.isinstance [.bool] then false
  else v.isinstance [.int, .npInteger]

/-- `v.size`; the values of Python itself have none, which raises. -/
def PyThing.size : PyThing → Option Nat
  | .npBool _ => some 1
  | .npInt _ => some 1
  | .npFloat _ => some 1
  | .npStr _ => some 1
  | .ndarray _ h => some h.nans.length
  | .series h => some h.nans.length
  | .frame _ _ h => some h.nans.length
  | _ => Option.none

/-- `np.isnan(v).all()`; `none` where it raises. For a `DataFrame` it gives a `Series`, which counts as true
or false if it has one value. -/
def PyThing.allNan : PyThing → Option Bool
  | .npBool _ => some false
  | .npInt _ => some false
  | .npFloat nan => some nan
  | .ndarray _ h => if h.numeric then some (h.nans.all id) else Option.none
  | .series h => if h.numeric then some (h.nans.all id) else Option.none
  | .frame _ _ h => if h.numeric then some (h.nans.all id) else Option.none
  | _ => Option.none

/-- `_is_null`, `pandalone/pandata.py:173-185`. `float("nan")` makes a new object, that no other is. -/
def pyIsNull (v : PyThing) : Bool :=
  match v with
  | .none => true
  | .npNan => true
  | v => match v.size with
    | Option.none => false
    | some n => if n = 1 then (v.allNan).getD false else false

/-- The type checks of the validator, `pandalone/pandata.py:462-473`; those for texts and numbers are those
of *jsonschema*: texts are `str`, numbers are `numbers.Number` except `bool`. -/
def pyIsType (t : JType) (v : PyThing) : Bool :=
  match t with
  | .array => pyIsArray v
  | .object => pyIsObject v
  | .integer => pyIsInteger v
  | .boolean => pyIsBool v
  | .null => pyIsNull v
  | .string => v.isinstance [.str]
  | .number => if v.isinstance [.bool] then false else v.isinstance [.number]

end Model
