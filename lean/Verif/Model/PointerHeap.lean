import Verif.Model.JsonPointer
import Verif.Model.PandelHeap
/-
Model of setting at json-pointers with the identity of Python objects: dictionaries and lists are objects on a heap, which
may be shared, and setting writes into them.
-/
namespace Model
open Py

/-- The subscript used by `set_jsonpointer`, `pandalone/pandata.py:1275-1294`. -/
def setIdxH (h : Heap) (doc : Val) (part : Str) : Except PyErr Idx :=
  match asList h doc with
  | some vs =>
    if part = ['-'] then .ok (.i vs.length)
    else match pyInt part with
      | none => .error .refResolution
      | some n => if n > vs.length then .error .refResolution else .ok (.i n)
  | none => .ok (.s part)

/-- `doc[part]`, `pandalone/pandata.py:1296`. A number is used for lists only. -/
def getItemH (h : Heap) (doc : Val) (idx : Idx) : Except GetErr Val :=
  match asDict h doc, asList h doc, idx with
  | some kvs, _, .s k => match dget kvs k with
    | some v => .ok v
    | none => .error .lookup
  | some _, _, .i _ => .error .lookup
  | none, some vs, .i n => match (seqIndex vs.length n).bind (fun j => vs[j]?) with
    | some v => .ok v
    | none => .error .lookup
  | none, _, _ => .error .type

/-- An object after `doc[part] = nbranch` or, for an `IndexError`, `doc.append(nbranch)`, `pandalone/pandata.py:1318-1323`. -/
def putObj (o : Obj) (idx : Idx) (v : Val) : Obj :=
  match o, idx with
  | .dict kvs, .s k => .dict (dset kvs k v)
  | .list vs, .i n => match seqIndex vs.length n with
    | some j => .list (vs.set j v)
    | none => .list (vs ++ [v])
  | o, _ => o   -- not reached: dictionaries are entered by text and lists by number

/-- The assignment to the object at `l`, `pandalone/pandata.py:1301` and `1318-1323`. -/
def putH (h : Heap) (l : Nat) (idx : Idx) (v : Val) : Heap :=
  match h[l]? with
  | some o => h.set l (putObj o idx v)
  | none => h

/-- The new branch, `pandalone/pandata.py:1311-1315`: new dictionaries, the inner ones first. -/
def branchH (h : Heap) (value : Val) : List Str → Heap × Val
  | [] => (h, value)
  | part2 :: parts =>
    let (h1, b) := branchH h value parts
    (h1 ++ [.dict [(part2, b)]], .ref h1.length)

/-- The loop and final assignment of `set_jsonpointer`, `pandalone/pandata.py:1274-1323`, writing into the objects. `parent` is
`pdoc` and `ppart`, `None` in the first iteration. -/
def setLoopH (value : Val) (parent : Option (Nat × Idx)) (h : Heap) (doc : Val) : List Str → Heap × Option PyErr
  | [] => match parent with
    | some (l, idx) => (putH h l idx value, none)
    | none => (h, some .unboundLocal)
  | part :: parts =>
    match setIdxH h doc part with
    | .error e => (h, some e)
    | .ok idx => match getItemH h doc idx, doc with
      | .error .lookup, .ref l =>
        let (h1, b) := branchH h value parts
        (putH h1 l idx b, none)
      | .ok ndoc, .ref l => setLoopH value (some (l, idx)) h ndoc parts
      | _, _ => match parent with
        | none => (h, some .typeError)
        | some (l, pidx) =>
          let (h2, b) := branchH (putH (h ++ [.dict []]) l pidx (.ref h.length)) value parts
          (putH h2 h.length (.s part) b, none)

/-- `set_jsonpointer`, `pandalone/pandata.py:1259-1323`, with the default `object_factory=dict`: the objects after it, and the
exception if any. -/
def setJsonPointerH (h : Heap) (doc : Val) (jsonpointer : Str) (value : Val) : Heap × Option PyErr :=
  match iterParts jsonpointer with
  | .error e => (h, some e)
  | .ok parts => setLoopH value none h doc parts

end Model
