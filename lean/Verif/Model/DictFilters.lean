import Verif.Model.Pstep
/-
Model of the filters `dict`, `odict`, `sorted` of `pandalone/xleash/_filter.py` and `sr` of `pandalone/xleash/_pandas_filters.py`, on the
values of ranges.
-/
namespace Model
open Py

/-- The value of a cell. `other` stands for any object that can be hashed, is equal to itself only and cannot be compared by order.
Numbers that are not integers are left out. -/
inductive CVal
  | null
  | bool (b : Bool)
  | int (i : Int)
  | text (s : Str)
  | other (tag : Nat)
  deriving DecidableEq, Repr

/-- An item of captured values: a cell, or a row of cells. -/
inductive CItem
  | cell (c : CVal)
  | row (cs : List CVal)
  deriving DecidableEq, Repr

/-- Captured values: a cell, or a list. More than two dimensions are left out. -/
inductive CVals
  | scalar (c : CVal)
  | items (xs : List CItem)
  deriving DecidableEq, Repr

/-- What is the same for values that are equal in Python: `True == 1`. -/
inductive CKey
  | null
  | num (i : Int)
  | text (s : Str)
  | other (tag : Nat)
  deriving DecidableEq

/-- Equality and hashing of cells. -/
def CVal.key : CVal → CKey
  | .null => .null
  | .bool b => .num (if b then 1 else 0)
  | .int i => .num i
  | .text s => .text s
  | .other t => .other t

/-- `d[k] = v`: the key that is there already stays. -/
def putItem (k v : CVal) : List (CVal × CVal) → List (CVal × CVal)
  | [] => [(k, v)]
  | (k', v') :: t => if k'.key = k.key then (k', v) :: t else (k', v') :: putItem k v t

/-- An item as two values, as `dict()` takes it: a row of two cells, or a text of two characters. -/
def CItem.pair : CItem → Except PyErr (CVal × CVal)
  | .row [k, v] => .ok (k, v)
  | .row _ => .error .valueError
  | .cell (.text [a, b]) => .ok (.text [a], .text [b])
  | .cell (.text _) => .error .valueError
  | .cell _ => .error .typeError

/-- The loop of `dict()` over a list. -/
def putItems (d : List (CVal × CVal)) : List CItem → Except PyErr (List (CVal × CVal))
  | [] => .ok d
  | x :: xs => match x.pair with
    | .error e => .error e
    | .ok (k, v) => putItems (putItem k v d) xs

/-- `dict(values)`; a text is the list of its characters. -/
def dictOf : CVals → Except PyErr (List (CVal × CVal))
  | .scalar (.text s) => putItems [] (s.map (fun c => .cell (.text [c])))
  | .scalar _ => .error .typeError
  | .items xs => putItems [] xs

/-- The keyword arguments of `dict()`. -/
def putKwds (d : List (CVal × CVal)) : List (Str × CVal) → List (CVal × CVal)
  | [] => d
  | (k, v) :: t => putKwds (putItem (.text k) v d) t

/-- The filters `dict` and `odict`, `pandalone/xleash/_filter.py:560-571`, with `nargs` positional arguments. -/
def dictFilter (nargs : Nat) (kwds : List (Str × CVal)) (values : CVals) : Except PyErr (List (CVal × CVal)) :=
  if nargs = 0 then
    match dictOf values with
    | .error e => .error e
    | .ok d => .ok (putKwds d kwds)
  else .error .typeError

/-- The filter `sr`, `pandalone/xleash/_pandas_filters.py:238-241`, without arguments: the labels and cells of the Series, which
`pd.Series` takes from the dictionary as they are. -/
def srFilter (values : CVals) : Except PyErr (List (CVal × CVal)) := dictOf values

/-- `a < b` of cells. -/
def CVal.lt (a b : CVal) : Except PyErr Bool :=
  match a.key, b.key with
  | .num i, .num j => .ok (i < j)
  | .text s, .text t => .ok (strLt s t)
  | _, _ => .error .typeError

/-- `a < b` of rows: by the first cells that are not equal, else by length. -/
def rowLt : List CVal → List CVal → Except PyErr Bool
  | [], [] => .ok false
  | [], _ :: _ => .ok true
  | _ :: _, [] => .ok false
  | a :: as, b :: bs => if a.key = b.key then rowLt as bs else a.lt b

/-- `a < b` of items. -/
def CItem.lt : CItem → CItem → Except PyErr Bool
  | .cell a, .cell b => a.lt b
  | .row a, .row b => rowLt a b
  | _, _ => .error .typeError

/-- Insertion before the first item that is not before `x`. -/
def insertItem (x : CItem) : List CItem → Except PyErr (List CItem)
  | [] => .ok [x]
  | y :: t => match y.lt x with
    | .error e => .error e
    | .ok true => match insertItem x t with
      | .error e => .error e
      | .ok r => .ok (y :: r)
    | .ok false => .ok (x :: y :: t)

/-- `sorted(l)`: stable. Python compares other pairs of items than this; all sorting compares neighbours in the result, and every item
with some other. -/
def sortItems : List CItem → Except PyErr (List CItem)
  | [] => .ok []
  | x :: xs => match sortItems xs with
    | .error e => .error e
    | .ok ys => insertItem x ys

/-- The filter `sorted`, `pandalone/xleash/_filter.py:572-576`, without `key`, which cannot be given in the text of a call. With `reverse`
the order of equal items is kept, too. -/
def sortedFilter (nargs : Nat) (reverse : Bool) (values : CVals) : Except PyErr (List CItem) :=
  if nargs = 0 then
    match values with
    | .scalar (.text s) => go (s.map (fun c => .cell (.text [c])))
    | .scalar _ => .error .typeError
    | .items xs => go xs
  else .error .typeError
where
  go (xs : List CItem) : Except PyErr (List CItem) :=
    if reverse then
      match sortItems xs.reverse with
      | .error e => .error e
      | .ok ys => .ok ys.reverse
    else sortItems xs

end Model
