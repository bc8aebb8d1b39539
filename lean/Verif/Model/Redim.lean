import Verif.Model.Lasso
/-
Model of the `redim` filter of `pandalone/xleash/_filter.py`, on a model of the part of *numpy* it uses:
arrays as a shape and their elements in row-major order.
-/
namespace Model
open Py

/-- The product of the dimensions. -/
def volume : List Nat → Nat
  | [] => 1
  | n :: sh => n * volume sh

mutual
/-- The values inside nested lists, in order. -/
def leaves : Doc → List Doc
  | .null => [.null]
  | .bool b => [.bool b]
  | .int i => [.int i]
  | .atom t => [.atom t]
  | .str s => [.str s]
  | .dict kvs => [.dict kvs]
  | .list xs => leavesL xs
def leavesL : List Doc → List Doc
  | [] => []
  | x :: xs => leaves x ++ leavesL xs
end

/-- The shape that numpy discovers, along first elements. -/
def shapeOf : Doc → List Nat
  | .list [] => [0]
  | .list (x :: xs) => (xs.length + 1) :: shapeOf x
  | _ => []

/-- Whether nested lists are regular, with the given dimensions. -/
def hasShape : List Nat → Doc → Bool
  | [], .list _ => false
  | [], _ => true
  | n :: sh, .list xs => xs.length == n && xs.all (hasShape sh)
  | _ :: _, _ => false

/-- `str(x)` for the types that numpy makes strings of. -/
def promoteStr : Doc → Doc
  | .int i => .str (intStr i)
  | .bool true => .str "True".toList
  | .bool false => .str "False".toList
  | d => d

/-- `True` as 1. -/
def promoteInt : Doc → Doc
  | .bool true => .int 1
  | .bool false => .int 0
  | d => d

/-- The common type that numpy gives to all elements: strings if there is any besides numbers and
booleans, integers if there are any besides booleans. With `None` or any other object among them they
are left as they are. Floats are not modelled here (`atom` is an object without a numpy type). Integers are taken to fit in 64 bits,
and texts not to end with NUL characters. -/
def promote (l : List Doc) : List Doc :=
  if l.any (fun d => match d with | .null => true | .atom _ => true | .dict _ => true | _ => false) then l
  else if l.any (fun d => match d with | .str _ => true | _ => false) then l.map promoteStr
  else if l.any (fun d => match d with | .int _ => true | _ => false) then l.map promoteInt
  else l

/-- A numpy array. -/
structure NdArr where
  shape : List Nat
  data : List Doc

/-- `numpy.asarray`; irregular lists are refused, as recent versions do. The greatest number of dimensions
(32 or 64) is not modelled. -/
def asarray (d : Doc) : Except PyErr NdArr :=
  if hasShape (shapeOf d) d then .ok ⟨shapeOf d, promote (leaves d)⟩ else .error .valueError

/-- `ndarray.tolist` -/
def tolist : List Nat → List Doc → Doc
  | [], data => data.headD .null
  | n :: sh, data => .list ((List.range n).map (fun i => tolist sh ((data.drop (i * volume sh)).take (volume sh))))

/-- All indexes, in row-major order. -/
def indices : List Nat → List (List Nat)
  | [] => [[]]
  | n :: sh => (List.range n).flatMap (fun i => (indices sh).map (i :: ·))

/-- The position of an index in row-major order. -/
def ravel : List Nat → List Nat → Nat
  | _ :: sh, i :: ix => i * volume sh + ravel sh ix
  | _, _ => 0

/-- `ndarray.T` -/
def NdArr.transpose (a : NdArr) : NdArr :=
  ⟨a.shape.reverse, (indices a.shape.reverse).map (fun ix => (a.data[ravel a.shape ix.reverse]?).getD .null)⟩

/-- `ndarray.squeeze(axis)`: errors are `ValueError`s. -/
def NdArr.squeeze (a : NdArr) (i : Nat) : Except PyErr NdArr :=
  if a.shape[i]? = some 1 then .ok ⟨a.shape.eraseIdx i, a.data⟩ else .error .valueError

/-- Squeezing axes one after the other. -/
def NdArr.squeezes (a : NdArr) : List Nat → Except PyErr NdArr
  | [] => .ok a
  | i :: is => match a.squeeze i with
    | .error e => .error e
    | .ok a' => a'.squeezes is

/-- `pandalone/xleash/_filter.py:89-97` `_updim`. -/
def updim (a : NdArr) (k : Nat) : NdArr := ⟨List.replicate (k - a.shape.length) 1 ++ a.shape, a.data⟩

/-- `pandalone/xleash/_filter.py:100-118` `_downdim`. -/
def downdim (a : NdArr) (k : Int) : Except PyErr NdArr :=
  let trivials := (List.range a.shape.length).filter (fun i => a.shape[i]? == some 1)
  let offset : Int := a.shape.length - k
  if offset > trivials.length then .ok ⟨[a.data.length], a.data⟩
  else if offset = trivials.length then .ok ⟨a.shape.filter (fun d => d != 1), a.data⟩
  else a.squeezes (trivials.take offset.toNat)

/-- What may be asked: a number of dimensions, or a pair of it (or `None`) and whether to transpose. -/
inductive NDim
  | int (k : Int)
  | pair (k : Option Int) (transpose : Bool)

/-- `pandalone/xleash/_filter.py:167-172` -/
def toDim (a : NdArr) (k : Int) : Except PyErr NdArr :=
  if (a.shape.length : Int) < k then .ok (updim a k.toNat)
  else if (a.shape.length : Int) > k then downdim a k
  else .ok a

/-- `pandalone/xleash/_filter.py:121-174` `_redim`, when something is asked. -/
def redim (values : Doc) (n : NDim) : Except PyErr Doc :=
  match asarray values with
  | .error e => .error e
  | .ok a =>
    let r : Except PyErr NdArr := match n with
      | .int k => toDim a k
      | .pair k t =>
        let a := if t then a.transpose else a
        match k with
        | none => .ok a
        | some k => toDim a k
    match r with
    | .error e => .error e
    | .ok a => .ok (tolist a.shape a.data)

/-- `pandalone/xleash/_filter.py:48-82` `_classify_rect_shape`. -/
def classifyRect (st nd : Option Coords) : Nat :=
  match st, nd with
  | some st, some nd => 1 + (if nd.col - st.col ≠ 0 then 1 else 0) + 2 * (if nd.row - st.row ≠ 0 then 1 else 0)
  | _, _ => 0

/-- `pandalone/xleash/_filter.py:182-195` `redim_filter`; the arguments are those for scalars, cells, rows,
columns and tables. -/
def redimFilter {S : Type} (l : Lasso S) (scalar cell row col table : Option NDim) : Except PyErr (Lasso S) :=
  match ([scalar, cell, row, col, table][classifyRect l.st l.nd]?).bind id with
  | none => .ok l
  | some n => match redim l.values n with
    | .error e => .error e
    | .ok v => .ok { l with values := v }

end Model
