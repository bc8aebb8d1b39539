import Verif.Model.Basic
/-
Specification vocabulary for nested lists of values.
-/
namespace Spec
open Py Model

def isList : Doc → Bool
  | .list _ => true
  | _ => false

/-- Regular nested lists: `Shape [2, 3] d` says that `d` is a list of two lists of three values. -/
inductive Shape : List Nat → Doc → Prop
  | leaf (d) : isList d = false → Shape [] d
  | list (xs sh) : (∀ x ∈ xs, Shape sh x) → Shape (xs.length :: sh) (.list xs)

/-- The value at an index. -/
def nth : Doc → List Nat → Option Doc
  | d, [] => some d
  | .list xs, i :: ix => (xs[i]?).bind (fun x => nth x ix)
  | _, _ :: _ => none

mutual
/-- The values inside nested lists, in order. -/
def cells : Doc → List Doc
  | .list xs => cellsOf xs
  | .null => [.null]
  | .bool b => [.bool b]
  | .int i => [.int i]
  | .atom t => [.atom t]
  | .str s => [.str s]
  | .dict kvs => [.dict kvs]
def cellsOf : List Doc → List Doc
  | [] => []
  | x :: xs => cells x ++ cellsOf xs
end

/-- Indexes of a shape. -/
def InShape : List Nat → List Nat → Prop
  | [], [] => True
  | n :: sh, i :: ix => i < n ∧ InShape sh ix
  | _, _ => False

/-- Values that numpy keeps as they are: of one type, or with an object among them. -/
def Uniform (l : List Doc) : Prop :=
  (∀ d ∈ l, ∃ s, d = .str s) ∨ (∀ d ∈ l, ∃ i, d = .int i) ∨ (∀ d ∈ l, ∃ b, d = .bool b) ∨
  (∃ d ∈ l, d = .null ∨ (∃ t, d = .atom t) ∨ ∃ kvs, d = .dict kvs)

/-- The number that Python takes an integer or a boolean for: `True == 1` and `False == 0`. -/
def asNumber : Doc → Option Int
  | .int i => some i
  | .bool b => some (if b then 1 else 0)
  | _ => none

/-- A text, or the text of an integer or of a boolean. -/
def asText : Doc → Str
  | .str s => s
  | .int i => intStr i
  | .bool b => if b then "True".toList else "False".toList
  | _ => []

/-- The number of values of a shape. -/
def count (sh : List Nat) : Nat := sh.foldr (· * ·) 1

/-- Whether a shape can be brought to `k` dimensions: adding trivial ones, dropping trivial ones, or all in
one row. -/
def Permits (sh : List Nat) (k : Int) : Prop :=
  (sh.length : Int) ≤ k ∨ k = 1 ∨ (((sh.filter (· ≠ 1)).length : Int) ≤ k)

end Spec
