import Verif.Py.Str
/-
Exceptions of the modelled code, as values, and JSON-like documents.
-/
namespace Model
open Py

/-- The Python exceptions that the modelled functions raise or let escape. -/
inductive PyErr
  | refResolution   -- jsonschema.RefResolutionError
  | valueError
  | typeError
  | lookupError     -- KeyError or IndexError
  | attributeError
  | unboundLocal    -- UnboundLocalError
  | syntaxError
  | validationError -- jsonschema.ValidationError
  | assertionError
  | emptyCapture    -- EmptyCaptureException
  | recursionError
  | nameError
  | xlrdError       -- xlrd.biffh.XLRDError
  | notImplemented
  deriving DecidableEq, Repr

/-- Documents handled by `pandalone/pandata.py`: JSON values with Python identity abstracted away.
Simplifications: dictionary keys are strings; `atom` stands for any other object that cannot be
subscripted (floats, dates, ...); pandas objects are not modelled. -/
inductive Doc
  | null
  | bool (b : Bool)
  | int (i : Int)
  | atom (tag : Nat)
  | str (s : Str)
  | list (xs : List Doc)
  | dict (kvs : List (Str × Doc))
  deriving Repr

/-- `d.get(k)` of a dictionary held as an association list. -/
def dget {α β : Type} [DecidableEq α] (kvs : List (α × β)) (k : α) : Option β :=
  match kvs with
  | [] => none
  | (k', v) :: t => if k' = k then some v else dget t k

/-- `d[k] = v` of a dictionary held as an association list: in place if present, else appended. -/
def dset {α β : Type} [DecidableEq α] (kvs : List (α × β)) (k : α) (v : β) : List (α × β) :=
  match kvs with
  | [] => [(k, v)]
  | (k', v') :: t => if k' = k then (k', v) :: t else (k', v') :: dset t k v

/-- `del d[k]` / `d.pop(k, None)` of a dictionary held as an association list. -/
def ddel {α β : Type} [DecidableEq α] (kvs : List (α × β)) (k : α) : List (α × β) :=
  kvs.filter (fun p => p.1 ≠ k)

/-- Keys of a dictionary. -/
def dkeys {α β : Type} (kvs : List (α × β)) : List α := kvs.map (·.1)

/-- Python truth value of a document (opaque atoms are taken as true). -/
def Doc.truthy : Doc → Bool
  | .null => false
  | .bool b => b
  | .int i => i ≠ 0
  | .atom _ => true
  | .str s => !s.isEmpty
  | .list xs => !xs.isEmpty
  | .dict kvs => !kvs.isEmpty

/-- `isinstance(doc, collections.abc.Sequence)`: lists and strings. -/
def Doc.isSeq : Doc → Bool
  | .list _ => true
  | .str _ => true
  | _ => false

/-- A subscript: text or number. -/
inductive Idx
  | s (k : Str)
  | i (n : Int)
  deriving DecidableEq, Repr

/-- How `doc[idx]` fails. -/
inductive GetErr
  | lookup  -- KeyError, IndexError
  | type    -- TypeError
  deriving DecidableEq, Repr

/-- Python `doc[idx]`. -/
def Doc.getItem : Doc → Idx → Except GetErr Doc
  | .dict kvs, .s k => match dget kvs k with
    | some d => .ok d
    | none => .error .lookup
  | .dict _, .i _ => .error .lookup
  | .list xs, .i n => match (seqIndex xs.length n).bind (fun j => xs[j]?) with
    | some d => .ok d
    | none => .error .lookup
  | .list _, .s _ => .error .type
  | .str cs, .i n => match (seqIndex cs.length n).bind (fun j => cs[j]?) with
    | some c => .ok (.str [c])
    | none => .error .lookup
  | .str _, .s _ => .error .type
  | _, _ => .error .type

end Model
