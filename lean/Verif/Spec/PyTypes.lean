import Verif.Model.PyTypes
/-
Which Python values are of which JSON type, as the table in the documentation of `PandelVisitor` says.
-/
namespace Spec
open Py Model

/-- The value is NaN, or holds one value only, which is NaN. -/
inductive IsNan : PyThing → Prop
  | npNan : IsNan .npNan
  | float : IsNan (.float true)
  | npFloat : IsNan (.npFloat true)
  | ndarray (shape) : IsNan (.ndarray shape ⟨true, [true]⟩)
  | series : IsNan (.series ⟨true, [true]⟩)
  | frame (r c) : IsNan (.frame r c ⟨true, [true]⟩)

/-- The value is of the JSON type. -/
inductive TypedAs : JType → PyThing → Prop
  /-- Mappings, a `DataFrame` by its columns, and a `Series` by its index. -/
  | dict (n) : TypedAs .object (.dict n)
  | frame (r c h) : TypedAs .object (.frame r c h)
  | seriesObject (h) : TypedAs .object (.series h)
  /-- Sequences that are no texts, a `Series`, and an array of one dimension. -/
  | list (n) : TypedAs .array (.list n)
  | tuple (n) : TypedAs .array (.tuple n)
  | bytes (n) : TypedAs .array (.bytes n)
  | seriesArray (h) : TypedAs .array (.series h)
  | ndarray (n h) : TypedAs .array (.ndarray [n] h)
  | str (s) : TypedAs .string (.str s)
  | npStr (s) : TypedAs .string (.npStr s)
  | bool (b) : TypedAs .boolean (.bool b)
  | npBool (b) : TypedAs .boolean (.npBool b)
  | int (i) : TypedAs .integer (.int i)
  | npInt (i) : TypedAs .integer (.npInt i)
  | intNumber (i) : TypedAs .number (.int i)
  | npIntNumber (i) : TypedAs .number (.npInt i)
  | float (n) : TypedAs .number (.float n)
  | npNan : TypedAs .number .npNan
  | npFloat (n) : TypedAs .number (.npFloat n)
  /-- `None` and what is not a number. -/
  | none : TypedAs .null .none
  | nan (v) : IsNan v → TypedAs .null v

/-- Arrays that have no dimension or more than one. -/
def OtherDims : PyThing → Prop
  | .ndarray shape _ => shape.length ≠ 1
  | _ => False

/-- A NaN of Python that is not the object `np.nan`. -/
def OwnNan (v : PyThing) : Prop := v = .float true

/-- The Python value that a document stands for, given what the opaque values are. -/
def thing (atom : Nat → PyThing) : Doc → PyThing
  | .null => .none
  | .bool b => .bool b
  | .int i => .int i
  | .str s => .str s
  | .atom t => atom t
  | .list xs => .list xs.length
  | .dict kvs => .dict kvs.length

/-- The floats of Python and *numpy*. -/
def Floating (v : PyThing) : Prop := v = .npNan ∨ (∃ n, v = .float n) ∨ ∃ n, v = .npFloat n

end Spec
