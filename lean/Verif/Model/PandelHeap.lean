import Verif.Model.Pandel
/-
Model of the building of unified models with the identity of Python objects: dictionaries and lists are
objects on a heap, which may be shared.
-/
namespace Model
open Py

/-- A Python value: a scalar, or a reference to a list or dictionary. -/
inductive Val
  | null
  | bool (b : Bool)
  | int (i : Int)
  | atom (tag : Nat)
  | str (s : Str)
  | ref (l : Nat)
  deriving DecidableEq, Repr

/-- A mutable object. -/
inductive Obj
  | list (vs : List Val)
  | dict (kvs : List (Str × Val))
  deriving DecidableEq, Repr

/-- The objects allocated so far; a reference is an index. -/
abbrev Heap := List Obj

/-- `isinstance(v, cabc.Mapping)`, and its items. -/
def asDict (h : Heap) : Val → Option (List (Str × Val))
  | .ref l => match h[l]? with
    | some (.dict kvs) => some kvs
    | _ => none
  | _ => none

/-- `isinstance(v, cabc.Sequence) and not isinstance(v, str)`, and its items. -/
def asList (h : Heap) : Val → Option (List Val)
  | .ref l => match h[l]? with
    | some (.list vs) => some vs
    | _ => none
  | _ => none

/-- The items of the object at `l` when it is a dictionary. -/
def itemsAt (h : Heap) (l : Nat) : List (Str × Val) :=
  match h[l]? with
  | some (.dict kvs) => kvs
  | _ => []

/-- `d[k] = v` in place. -/
def setKey (h : Heap) (l : Nat) (k : Str) (v : Val) : Heap := h.set l (.dict (dset (itemsAt h l) k v))

/-- `{} if x is None else {**x}`, `pandalone/pandata.py:897-898`: the items of the copy. -/
def copyItems (h : Heap) (v : Val) : Except PyErr (List (Str × Val)) :=
  if v = .null then .ok []
  else match asDict h v with
    | some kvs => .ok kvs
    | none => .error .typeError

/-- `for item in val`, `pandalone/pandata.py:919`: the items of a list, or the characters of a string. -/
def iterItems (h : Heap) (v : Val) : Except PyErr (List Val) :=
  match v with
  | .str s => .ok (s.map (fun c => .str [c]))
  | v => match asList h v with
    | some vs => .ok vs
    | none => .error .typeError

/-- The loop `for key in b`, `pandalone/pandata.py:900-908`, over the items of `b` (a copy that nothing
writes to), writing in the dictionary at `la`. `merge` is the recursive call. -/
def mergeKeysH (merge : Heap → Val → Val → Heap × Except PyErr Val) (la : Nat) (h : Heap) :
    List (Str × Val) → Heap × Option PyErr
  | [] => (h, none)
  | (key, bval) :: t =>
    match dget (itemsAt h la) key with
    | some aval =>
      match merge h aval bval with
      | (h1, .error e) => (h1, some e)
      | (h1, .ok v) => mergeKeysH merge la (setKey h1 la key v) t
    | none => mergeKeysH merge la (setKey h la key bval) t

/-- The loop over the items of a list, `pandalone/pandata.py:919-922`. -/
def mergeListH (merge : Heap → Val → Val → Heap × Except PyErr Val) (h : Heap) :
    List Val → Heap × Except PyErr (List Val)
  | [] => (h, .ok [])
  | x :: xs =>
    match merge h x .null with
    | (h1, .error e) => (h1, .error e)
    | (h1, .ok v) => match mergeListH merge h1 xs with
      | (h2, .error e) => (h2, .error e)
      | (h2, .ok vs) => (h2, .ok (v :: vs))

/-- `Pandel._clone_and_merge_submodels(a, b)`, `pandalone/pandata.py:879-932`, on the heap. The first
argument is what is left of Python's recursion limit. pandas objects are not modelled. The new list is
allocated when it is complete (nothing refers to it before). -/
def mergeH : Nat → Heap → Val → Val → Heap × Except PyErr Val
  | 0, h, _, _ => (h, .error .recursionError)
  | n + 1, h, a, b =>
    if (asDict h a).isSome ∨ (asDict h b).isSome then
      match copyItems h a with
      | .error e => (h, .error e)
      | .ok as => match copyItems h b with
        | .error e => (h ++ [.dict as], .error e)
        | .ok bs =>
          match mergeKeysH (mergeH n) h.length (h ++ [.dict as]) bs with
          | (h1, some e) => (h1, .error e)
          | (h1, none) => (h1, .ok (.ref h.length))
    else if (asList h a).isSome ∨ (asList h b).isSome then
      match iterItems h (if b ≠ .null then b else a) with
      | .error e => (h, .error e)
      | .ok vs => match mergeListH (mergeH n) h vs with
        | (h1, .error e) => (h1, .error e)
        | (h1, .ok ws) => (h1 ++ [.list ws], .ok (.ref h1.length))
    else if a = .null ∧ b = .null then (h, .error .validationError)
    else (h, .ok (if b ≠ .null then b else a))

/-- A concrete model-maker on the heap: a validation and a curation function may write to the heap, and
a curation function may replace the model; the numbers of errors stand for the errors yielded. -/
structure MakerH where
  validator : (isPrevalidation : Bool) → Heap → Val → Heap × Nat × Option PyErr
  curators : List (Heap → Val → Heap × Val × Option PyErr)

/-- `Pandel._prevalidate`, `pandalone/pandata.py:939-944`: the heap after it, and whether there was no
error. -/
def prevalidateH (mk : MakerH) (h : Heap) : List Val → Heap × Bool
  | [] => (h, true)
  | v :: vs =>
    match mk.validator true h v with
    | (h1, _, some _) => (h1, false)
    | (h1, n, none) =>
      let r := prevalidateH mk h1 vs
      (r.1, r.2 && n == 0)

/-- `Pandel._merge`, `pandalone/pandata.py:946-949`. -/
def mergeAllH (fuel : Nat) (h : Heap) (model : Val) : List Val → Heap × Val × Bool
  | [] => (h, model, true)
  | v :: vs =>
    match mergeH fuel h model v with
    | (h1, .error _) => (h1, model, false)
    | (h1, .ok m) => mergeAllH fuel h1 m vs

/-- `Pandel._curate`, `pandalone/pandata.py:963-964`. -/
def curateH (h : Heap) (model : Val) : List (Heap → Val → Heap × Val × Option PyErr) → Heap × Val
  | [] => (h, model)
  | c :: cs =>
    match c h model with
    | (h1, m, some _) => (h1, m)
    | (h1, m, none) => curateH h1 m cs

/-- `Pandel.build_iter`, `pandalone/pandata.py:988-1028`, run to its end: the heap and the model after
it. A step with an error is the last one. -/
def buildH (mk : MakerH) (fuel : Nat) (h : Heap) (subs : List Val) : Heap × Val :=
  match prevalidateH mk h subs with
  | (h1, false) => (h1, .null)
  | (h1, true) =>
    match mergeAllH fuel h1 .null subs with
    | (h2, m, false) => (h2, m)
    | (h2, m, true) =>
      match mk.validator false h2 m with
      | (h3, n, r) => if n = 0 ∧ r = none then curateH h3 m mk.curators else (h3, m)

/-- A schema, as to the defaults of properties. -/
inductive DSchema
  | mk (default : Option Val) (properties : List (Str × DSchema))

def DSchema.default : DSchema → Option Val
  | .mk d _ => d

/-- The loop of `_rule_auto_defaults_properties`, `pandalone/pandata.py:279-300`, on the dictionary at `l`,
with the arguments that `Pandel` uses (`PandelVisitor(schema)`, lines 321-323, 871: only `auto_default`)
and no flags in the schema. -/
def fillH (h : Heap) (l : Nat) : List (Str × DSchema) → Heap
  | [] => h
  | (p, s) :: t =>
    match s.default, dget (itemsAt h l) p with
    | some d, none => fillH (setKey h l p d) l t
    | _, _ => fillH h l t

mutual
/-- `_rule_auto_defaults_properties`, `pandalone/pandata.py:263-303`, on the heap. -/
def defaultsH : DSchema → Heap → Val → Heap
  | .mk _ props, h, v => match v with
    | .ref l => match h[l]? with
      | some (.dict _) => defaultsInH props (fillH h l props) l
      | _ => h
    | _ => h
/-- The rule `properties` of *jsonschema*: descends into the properties that are there. -/
def defaultsInH : List (Str × DSchema) → Heap → Nat → Heap
  | [], h, _ => h
  | (p, s) :: t, h, l => match dget (itemsAt h l) p with
    | some v => defaultsInH t (defaultsH s h v) l
    | none => defaultsInH t h l
end

/-- The model-maker that `Pandel` is out of the box (`_get_model_validator`, `pandalone/pandata.py:870`),
with these two schemas (line 942 and 955) against which there is nothing to report, and no curation. -/
def plainMaker (pre post : DSchema) : MakerH where
  validator := fun isPre h v => (defaultsH (if isPre then pre else post) h v, 0, none)
  curators := []

end Model
