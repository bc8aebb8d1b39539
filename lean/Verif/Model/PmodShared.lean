import Verif.Model.Pstep
/-
Model of how mappings are built and merged in `pandalone/mappings.py`, with the identity of their dictionaries: the default arguments of
`Pmod.__init__` are two dictionaries that all mappings share.
-/
namespace Model
open Py

/-- `pandalone/mappings.py:138-161` a `Pmod` object: its alias, and which dictionaries it refers to. -/
structure PmRef where
  alias : Option Str
  steps : Nat
  regxs : Nat
  deriving DecidableEq

/-- All mappings and all their dictionaries, `{key: mappings}`; the first two dictionaries are the default arguments at line 148. -/
structure PmHeap where
  objs : List PmRef
  dicts : List (List (Str × Nat))
  deriving DecidableEq

/-- When the module has been loaded. -/
def PmHeap.loaded : PmHeap := ⟨[], [[], []]⟩

/-- What is in a dictionary. -/
def PmHeap.dict (h : PmHeap) (d : Nat) : List (Str × Nat) := (h.dicts[d]?).getD []

/-- `Pmod()`, `pandalone/mappings.py:148-161`: the object refers to the default arguments. -/
def PmRef.new : PmRef := ⟨none, 0, 1⟩

/-- What the objects hold, with the entries of their dictionaries. -/
def PmHeap.view (h : PmHeap) : List PmodObj := h.objs.map (fun o => ⟨o.alias, h.dict o.steps, h.dict o.regxs⟩)

/-- `pandalone/mappings.py:173-189` `_append_into_steps`: the child is the second result. -/
def appendIntoSteps (h : PmHeap) (r : Nat) (key : Str) : PmHeap × Nat :=
  match h.objs[r]? with
  | none => (h, r)   -- no such object: does not occur
  | some o =>
    let c := h.objs.length
    if (h.dict o.steps).isEmpty then
      (⟨h.objs.set r { o with steps := h.dicts.length } ++ [.new], h.dicts ++ [[(key, c)]]⟩, c)
    else match dget (h.dict o.steps) key with
      | some c => (h, c)
      | none => (⟨h.objs ++ [.new], h.dicts.set o.steps (dset (h.dict o.steps) key c)⟩, c)

/-- `pandalone/mappings.py:191-211` `_append_into_regxs`, for a pattern that compiles: one that is there is removed and appended at the end. -/
def appendIntoRegxs (h : PmHeap) (r : Nat) (key : Str) : PmHeap × Nat :=
  match h.objs[r]? with
  | none => (h, r)   -- no such object: does not occur
  | some o =>
    let c := h.objs.length
    if (h.dict o.regxs).isEmpty then
      (⟨h.objs.set r { o with regxs := h.dicts.length } ++ [.new], h.dicts ++ [[(key, c)]]⟩, c)
    else match dget (h.dict o.regxs) key with
      | some c => (⟨h.objs, h.dicts.set o.regxs (dset (ddel (h.dict o.regxs) key) key c)⟩, c)
      | none => (⟨h.objs ++ [.new], h.dicts.set o.regxs (dset (h.dict o.regxs) key c)⟩, c)

/-- `pandalone/mappings.py:674-682` one tuple: down the steps of the path, then the alias is set. A pattern that does not compile raises
`re.error`, with what was appended before. -/
def insertTuple (E : RegexLib) (t : Str) : List Str → PmHeap → Nat → PmHeap × Option PyErr
  | [], h, r => match h.objs[r]? with
    | none => (h, none)   -- no such object: does not occur
    | some o => ({ h with objs := h.objs.set r { o with alias := some t } }, none)
  | srcstep :: rest, h, r =>
    if startsWith ['~'] srcstep then
      if E.compiles srcstep.tail then
        let p := appendIntoRegxs h r srcstep.tail
        insertTuple E t rest p.1 p.2
      else (h, some .valueError)
    else
      let p := appendIntoSteps h r srcstep
      insertTuple E t rest p.1 p.2

/-- The loop of `pmods_from_tuples`, `pandalone/mappings.py:667-684`. -/
def insertTuples (E : RegexLib) (root : Nat) : List (Option Str × Option Str) → PmHeap → PmHeap × Except PyErr Nat
  | [], h => (h, .ok root)
  | (some f, some t) :: rest, h =>
    if f = [] ∧ t = [] then insertTuples E root rest h
    else match insertTuple E t (iterPartsRelaxed f) h root with
      | (h', some e) => (h', .error e)
      | (h', none) => insertTuples E root rest h'
  | _ :: rest, h => insertTuples E root rest h

/-- `pandalone/mappings.py:590-684` `pmods_from_tuples`. -/
def fromTuplesH (E : RegexLib) (tuples : List (Option Str × Option Str)) (h : PmHeap) : PmHeap × Except PyErr Nat :=
  insertTuples E h.objs.length tuples { h with objs := h.objs ++ [.new] }

/-- `pandalone/mappings.py:227-233` the loop of `_override_steps` on the copied dictionary; `mg` is `_merge`. -/
def overrideSteps (mg : PmHeap → Nat → Nat → Option (PmHeap × Nat)) (h : PmHeap) (s : List (Str × Nat)) :
    List (Str × Nat) → Option (PmHeap × List (Str × Nat))
  | [] => some (h, s)
  | (name, opmod) :: t =>
    match dget s name with
    | some spmod =>
      match mg h spmod opmod with
      | some (h', m) => overrideSteps mg h' (dset s name m) t
      | none => none
    | none => overrideSteps mg h (dset s name opmod) t

/-- `pandalone/mappings.py:262-269` the loop of `_override_regxs` collecting `opairs`. -/
def overrideRegxs (mg : PmHeap → Nat → Nat → Option (PmHeap × Nat)) (h : PmHeap) (r : List (Str × Nat)) :
    List (Str × Nat) → Option (PmHeap × List (Str × Nat))
  | [] => some (h, [])
  | (name, opmod) :: t =>
    match dget r name with
    | some spmod =>
      match mg h spmod opmod with
      | some (h', m) =>
        match overrideRegxs mg h' r t with
        | some (h'', ps) => some (h'', (name, m) :: ps)
        | none => none
      | none => none
    | none =>
      match overrideRegxs mg h r t with
      | some (h'', ps) => some (h'', (name, opmod) :: ps)
      | none => none

/-- A new dictionary. -/
def PmHeap.newDict (h : PmHeap) (kvs : List (Str × Nat)) : PmHeap × Nat := ({ h with dicts := h.dicts ++ [kvs] }, h.dicts.length)

/-- `pandalone/mappings.py:283-335` `Pmod._merge`, with `_override_steps` (`213-236`) and `_override_regxs` (`238-281`): the result is a new
object; where only one of the two has entries it refers to the dictionary of that one. `F` is the recursion limit of Python, `none` its
`RecursionError`. The order in which new objects are allocated is immaterial. -/
def pmergeRef : Nat → PmHeap → Nat → Nat → Option (PmHeap × Nat)
  | 0, _, _, _ => none
  | F + 1, h, a, b =>
    match h.objs[a]?, h.objs[b]? with
    | some A, some B =>
      match (if (h.dict B.steps).isEmpty then some (h, A.steps) else if (h.dict A.steps).isEmpty then some (h, B.steps)
          else (overrideSteps (pmergeRef F) h (h.dict A.steps) (h.dict B.steps)).map (fun p => p.1.newDict p.2)) with
      | none => none
      | some (h1, s) =>
        match (if (h.dict B.regxs).isEmpty then some (h1, A.regxs) else if (h.dict A.regxs).isEmpty then some (h1, B.regxs)
            else (overrideRegxs (pmergeRef F) h1 (h.dict A.regxs) (h.dict B.regxs)).map (fun p =>
              p.1.newDict ((h.dict A.regxs).filter (fun kv => !(dkeys (h.dict B.regxs)).contains kv.1) ++ p.2))) with
        | none => none
        | some (h2, r) => some ({ h2 with objs := h2.objs ++ [⟨B.alias.or A.alias, s, r⟩] }, h2.objs.length)
    | _, _ => none

/-- What the user of mappings does: turns tuples into mappings, and merges mappings (which also descending into them does). -/
inductive PmOp
  | fromTuples (tuples : List (Option Str × Option Str))
  | merge (a b : Nat)

/-- One operation, whatever its outcome. -/
def pmStep (F : Nat) (E : RegexLib) (h : PmHeap) : PmOp → PmHeap
  | .fromTuples ts => (fromTuplesH E ts h).1
  | .merge a b => match pmergeRef F h a b with
    | some (h', _) => h'
    | none => h

/-- One after the other. -/
def pmRun (F : Nat) (E : RegexLib) (h : PmHeap) : List PmOp → PmHeap
  | [] => h
  | op :: ops => pmRun F E (pmStep F E h op) ops

end Model
