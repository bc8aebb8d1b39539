import Verif.Model.Pmod
/-
Model of the path-steps (`Pstep`) of `pandalone/mappings.py`, with Python identity: steps, their
dictionaries of children, and the mappings (`Pmod`) they use live on heaps and are referred to by
their index, because the code shares and mutates them.
-/
namespace Model
open Py

/-- `pandalone/mappings.py:138-161` a `Pmod` object.  Its dictionaries are held by value, since
nothing modelled here changes the dictionary of an existing pmod (only `_alias` is assigned to). -/
structure PmodObj where
  alias : Option Str
  steps : List (Str × Nat)
  regxs : List (Str × Nat)
  deriving DecidableEq

/-- `pandalone/mappings.py:227-233` `_override_steps`, the loop; `mg` is `_merge`. -/
def mergeStepsH (mg : List PmodObj → Nat → Nat → Option (List PmodObj × Nat)) (h : List PmodObj)
    (s : List (Str × Nat)) : List (Str × Nat) → Option (List PmodObj × List (Str × Nat))
  | [] => some (h, s)
  | (name, opmod) :: t =>
    match dget s name with
    | some spmod =>
      match mg h spmod opmod with
      | some (h', m) => mergeStepsH mg h' (dset s name m) t
      | none => none
    | none => mergeStepsH mg h (dset s name opmod) t

/-- `pandalone/mappings.py:262-269` the loop of `_override_regxs` collecting `opairs`. -/
def mergeRegxsH (mg : List PmodObj → Nat → Nat → Option (List PmodObj × Nat)) (h : List PmodObj)
    (r : List (Str × Nat)) : List (Str × Nat) → Option (List PmodObj × List (Str × Nat))
  | [] => some (h, [])
  | (name, opmod) :: t =>
    match dget r name with
    | some spmod =>
      match mg h spmod opmod with
      | some (h', m) =>
        match mergeRegxsH mg h' r t with
        | some (h'', ps) => some (h'', (name, m) :: ps)
        | none => none
      | none => none
    | none =>
      match mergeRegxsH mg h r t with
      | some (h'', ps) => some (h'', (name, opmod) :: ps)
      | none => none

/-- `pandalone/mappings.py:283-335` `Pmod._merge` on the heap: the result is a new object, which may
share children with both.  `F` is the recursion limit of Python; `none` stands for its
`RecursionError` (and for dangling references, which do not occur).  The order in which new objects
are allocated is immaterial. -/
def pmergeH : Nat → List PmodObj → Nat → Nat → Option (List PmodObj × Nat)
  | 0, _, _, _ => none
  | F + 1, h, a, b =>
    match h[a]?, h[b]? with
    | some A, some B =>
      match (if B.steps.isEmpty then some (h, A.steps) else if A.steps.isEmpty then some (h, B.steps)
          else mergeStepsH (pmergeH F) h A.steps B.steps) with
      | none => none
      | some (h1, s) =>
        match (if B.regxs.isEmpty then some (h1, A.regxs) else if A.regxs.isEmpty then some (h1, B.regxs)
            else (mergeRegxsH (pmergeH F) h1 A.regxs B.regxs).map (fun p =>
              (p.1, A.regxs.filter (fun kv => !(dkeys B.regxs).contains kv.1) ++ p.2))) with
        | none => none
        | some (h2, r) => some (h2 ++ [⟨B.alias.or A.alias, s, r⟩], h2.length)
    | _, _ => none

/-- `functools.reduce(Pmod._merge, pmods)`, the part after the first. -/
def reduceH (F : Nat) : List PmodObj → Nat → List Nat → Option (List PmodObj × Nat)
  | h, a, [] => some (h, a)
  | h, a, b :: t =>
    match pmergeH F h a b with
    | some (h', m) => reduceH F h' m t
    | none => none

/-- `pandalone/mappings.py:419-422` the loop over the reversed matches. -/
def lastAliasH (E : RegexLib) (h : List PmodObj) : List (Nat × E.Match) → Except PyErr (Option Str)
  | [] => .ok none
  | (r, m) :: rest =>
    match (h[r]?).bind PmodObj.alias with
    | some a => match E.expand m a with
      | .ok x => .ok (some x)
      | .error e => .error e
    | none => lastAliasH E h rest

/-- `pandalone/mappings.py:349-429` `Pmod.descend` on the heap. -/
def descendH (F : Nat) (E : RegexLib) (h : List PmodObj) (r : Nat) (cstep : Str) :
    Except PyErr (List PmodObj × Option Nat × Option Str) :=
  match h[r]? with
  | none => .error .attributeError   -- no such object: does not occur
  | some o =>
    let cpmod := dget o.steps cstep
    let pmods := o.regxs.filterMap (fun kv => (E.fullmatch kv.1 cstep).map (fun m => (kv.2, m)))
    let alias : Except PyErr (Option Str) :=
      match cpmod.bind (fun c => (h[c]?).bind PmodObj.alias) with
      | some a => .ok (some a)
      | none => lastAliasH E h pmods.reverse
    match alias with
    | .error e => .error e
    | .ok alias =>
      match pmods.map (·.1) ++ cpmod.toList with
      | [] => .ok (h, none, none)
      | p :: ps =>
        match reduceH F h p ps with
        | some (h', m) => .ok (h', some m, alias)
        | none => .error .recursionError

/-- `pandalone/mappings.py:1073-1080` a `Pstep` object: its text (`name`) and its `__dict__`.
`_csteps` refers to a dictionary object.  `_tags` (a set, or `()`) is held by value as a list without
repetitions: the code copies a non-empty set when cloning and never changes an empty one.
`_schema` and other private attributes are not modelled. -/
structure StepObj where
  name : Str
  orig : Str
  pmod : Option Nat
  csteps : Option Nat
  locked : Int
  tags : List Str
  deriving DecidableEq

/-- The objects alive: mappings, steps, and the dictionaries of children of steps. -/
structure PsState where
  pmods : List PmodObj
  steps : List StepObj
  dicts : List (List (Str × Nat))
  deriving DecidableEq

/-- The children of a step: `_csteps`, empty for `None`. -/
def PsState.kids (σ : PsState) (o : StepObj) : List (Str × Nat) :=
  match o.csteps with
  | none => []
  | some d => (σ.dicts[d]?).getD []

/-- `pandalone/mappings.py:1004-1006` the levels of locking. -/
def canRelocate : Int := 3
def canRename : Int := 1
def lockedLevel : Int := 0

/-- `set.add` on a set held as a list. -/
def addTag (ts : List Str) (t : Str) : List Str := if t ∈ ts then ts else ts ++ [t]

/-- The `maps` argument of `Pstep()`: nothing, mappings, or another step.
Lists of tuples are turned into mappings first, by `pmods_from_tuples` (lines 1061-1062). -/
inductive Maps
  | none
  | pmod (r : Nat)
  | step (r : Nat)

/-- `pandalone/mappings.py:877-886` `_clone_attrs` and `1070-1074`: a step with another name and the
attributes of `o`; its dictionary is copied if non-empty, else shared. -/
def cloneStep (σ : PsState) (o : StepObj) (name : Str) : PsState × Nat :=
  let (dicts, csteps) :=
    if (σ.kids o).isEmpty then (σ.dicts, o.csteps) else (σ.dicts ++ [σ.kids o], some σ.dicts.length)
  ({ σ with dicts := dicts, steps := σ.steps ++ [{ o with name := name, csteps := csteps }] },
    σ.steps.length)

/-- A new step without children, `pandalone/mappings.py:1073-1080`. -/
def freshStep (σ : PsState) (name orig : Str) (pmod : Option Nat) (tags : List Str) : PsState × Nat :=
  ({ σ with steps := σ.steps ++ [⟨name, orig, pmod, none, canRelocate, tags.foldl addTag []⟩] },
    σ.steps.length)

/-- `pandalone/mappings.py:1016-1082` `Pstep.__new__`.  A step passed as `maps` counts only if its
text is not empty (line 1059 `if maps:`). -/
def newStep (F : Nat) (E : RegexLib) (σ : PsState) (pname : Str) (maps : Maps) (alias : Option Str)
    (tags : List Str) : PsState × Except PyErr Nat :=
  match maps with
  | .none => let (σ', r) := freshStep σ (alias.getD pname) pname none tags; (σ', .ok r)
  | .step e =>
    match σ.steps[e]? with
    | none => (σ, .error .attributeError)   -- no such object: does not occur
    | some o =>
      if o.name = [] then
        let (σ', r) := freshStep σ (alias.getD pname) pname none tags; (σ', .ok r)
      else let (σ', r) := cloneStep σ o (alias.getD pname); (σ', .ok r)
  | .pmod p =>
    match descendH F E σ.pmods p pname with
    | .error e => (σ, .error e)
    | .ok (pmods, pmod, malias) =>
      let alias := match alias, malias with
        | some a, _ => a
        | none, some m => if m = [] then pname else unescapePart m
        | none, none => pname
      let (σ', r) := freshStep { σ with pmods := pmods } alias pname pmod tags
      (σ', .ok r)

/-- Line 1099: `existing_cstep or self._pmod`; a step with empty text is false. -/
def existingOr (σ : PsState) (existing : Option Nat) (pmod : Option Nat) : Maps :=
  let p := match pmod with
    | some p => Maps.pmod p
    | none => Maps.none
  match existing with
  | none => p
  | some e =>
    match σ.steps[e]? with
    | none => p
    | some o => if o.name = [] then p else .step e

/-- Line 1099: `csteps[ckey] = child = Pstep(ckey, existing_cstep or self._pmod, alias)`. -/
def storeChild (F : Nat) (E : RegexLib) (σ : PsState) (s d : Nat) (ckey : Str) (alias : Option Str)
    (existing : Option Nat) : PsState × Except PyErr Nat :=
  match newStep F E σ ckey (existingOr σ existing ((σ.steps[s]?).bind StepObj.pmod)) alias [] with
  | (σ', .error e) => (σ', .error e)
  | (σ', .ok child) =>
    ({ σ' with dicts := σ'.dicts.set d (dset ((σ'.dicts[d]?).getD []) ckey child) }, .ok child)

/-- Lines 1093-1098: `self._pmod._alias = alias`, or a new pmod if the step has none. -/
def updateMappings (σ : PsState) (s : Nat) (o : StepObj) (alias : Str) : PsState :=
  match o.pmod with
  | some p =>
    match σ.pmods[p]? with
    | some po => { σ with pmods := σ.pmods.set p { po with alias := some alias } }
    | none => σ
  | none =>
    { σ with
      pmods := σ.pmods ++ [⟨some alias, [], []⟩]
      steps := σ.steps.set s { o with pmod := some σ.pmods.length } }

/-- `pandalone/mappings.py:1084-1101` `__make_cstep`. -/
def makeCstep (F : Nat) (E : RegexLib) (σ : PsState) (s : Nat) (ckey : Str) (alias : Option Str)
    (existing : Option Nat) : PsState × Except PyErr Nat :=
  match σ.steps[s]? with
  | none => (σ, .error .attributeError)   -- no such object: does not occur
  | some o =>
    match o.csteps, (σ.kids o).isEmpty with
    | some d, false =>
      match existing with
      | some e => storeChild F E σ s d ckey alias (some e)
      | none =>
        let σ1 := match alias with
          | some a => updateMappings σ s o a
          | none => σ
        storeChild F E σ1 s d ckey alias (dget (σ.kids o) ckey)
    | _, _ =>
      -- lines 1086-1087: `self._csteps = csteps = {}`
      let σ1 := { σ with
        dicts := σ.dicts ++ [[]]
        steps := σ.steps.set s { o with csteps := some σ.dicts.length } }
      storeChild F E σ1 s σ.dicts.length ckey alias existing

/-- Names found by ordinary attribute lookup on a text (`str` of Python 3.11) or on the class
`Pstep`; `__getattr__` is not called for them. -/
def plainAttrs : List Str := ["capitalize", "casefold", "center", "count", "encode", "endswith",
  "expandtabs", "find", "format", "format_map", "index", "isalnum", "isalpha", "isascii",
  "isdecimal", "isdigit", "isidentifier", "islower", "isnumeric", "isprintable", "isspace",
  "istitle", "isupper", "join", "ljust", "lower", "lstrip", "maketrans", "partition",
  "removeprefix", "removesuffix", "replace", "rfind", "rindex", "rjust", "rpartition", "rsplit",
  "rstrip", "split", "splitlines", "startswith", "strip", "swapcase", "title", "translate",
  "upper", "zfill", "CAN_RELOCATE", "CAN_RENAME", "LOCKED"].map String.toList

/-- `pandalone/mappings.py:871` `_forbidden_pstep_attrs`. -/
def forbiddenAttrs : List Str := ["get_values".toList, "Series".toList]

/-- `pandalone/mappings.py:1103-1111` attribute lookup.  The result is `none` when something that is
not a step is found (a method of `str`). The private attributes that steps have (such as `_orig` or `_paths`), which are found
before, are not modelled: the other private names raise. -/
def getAttr (F : Nat) (E : RegexLib) (σ : PsState) (s : Nat) (attr : Str) :
    PsState × Except PyErr (Option Nat) :=
  if attr ∈ plainAttrs then (σ, .ok none)
  else if startsWith ['_'] attr ∨ attr ∈ forbiddenAttrs then (σ, .error .attributeError)
  else
    match σ.steps[s]? with
    | none => (σ, .error .attributeError)   -- no such object: does not occur
    | some o =>
      let make := match makeCstep F E σ s attr none none with
        | (σ', .ok c) => (σ', Except.ok (some c))
        | (σ', .error e) => (σ', .error e)
      match dget (σ.kids o) attr with
      | none => make
      | some c =>
        match σ.steps[c]? with
        | none => make
        | some co => if co.name = [] then make else (σ, .ok (some c))

/-- What is assigned to an attribute of a step. -/
inductive StepVal
  | step (r : Nat)
  | str (s : Str)
  | other

/-- `pandalone/mappings.py:1113-1121` attribute assignment, for names that are not private. -/
def setAttr (F : Nat) (E : RegexLib) (σ : PsState) (s : Nat) (attr : Str) (v : StepVal) :
    PsState × Except PyErr Unit :=
  let r := match v with
    | .step e => makeCstep F E σ s attr none (some e)
    | .str a => makeCstep F E σ s attr (some a) none
    | .other => (σ, .error .assertionError)
  match r with
  | (σ', .ok _) => (σ', .ok ())
  | (σ', .error e) => (σ', .error e)

/-- `pandalone/mappings.py:1149-1157` the setter of `_locked`. -/
def setLocked (σ : PsState) (s : Nat) (lock : Int) : PsState × Except PyErr Unit :=
  match σ.steps[s]? with
  | none => (σ, .error .attributeError)   -- no such object: does not occur
  | some o =>
    if o.name ≠ o.orig ∧ (lock < canRename ∨ (lock < canRelocate ∧ '/' ∈ o.name)) then
      (σ, .error .valueError)
    else ({ σ with steps := σ.steps.set s { o with locked := lock } }, .ok ())

/-- `pandalone/mappings.py:1168-1175` `_lock` -/
def lockStep (σ : PsState) (s : Nat) : PsState × Except PyErr Unit := setLocked σ s lockedLevel

/-- `pandalone/mappings.py:1159-1166` `_fix` -/
def fixStep (σ : PsState) (s : Nat) : PsState × Except PyErr Unit := setLocked σ s canRename

/-- `pandalone/mappings.py:1177-1188` `_tag`. -/
def tagStep (σ : PsState) (s : Nat) (tags : List Str) : PsState :=
  match σ.steps[s]? with
  | none => σ
  | some o =>
    if o.tags.isEmpty then
      (if tags.isEmpty then σ
       else { σ with steps := σ.steps.set s { o with tags := tags.foldl addTag [] } })
    else { σ with steps := σ.steps.set s { o with tags := tags.foldl addTag o.tags } }

/-- `pandalone/mappings.py:1190-1199` `_tag_remove`. -/
def untagStep (σ : PsState) (s : Nat) (tag : Str) : PsState :=
  match σ.steps[s]? with
  | none => σ
  | some o =>
    if o.tags.isEmpty then σ
    else { σ with steps := σ.steps.set s { o with tags := o.tags.filter (· ≠ tag) } }

/-- `pandalone/mappings.py:1287-1291` the loop over the children. -/
def iterKids (it : Nat → Option (List (List Nat))) : List (Str × Nat) → Option (List (List Nat))
  | [] => some []
  | (_, c) :: t =>
    match it c, iterKids it t with
    | some a, some b => some (a ++ b)
    | _, _ => none

/-- `pandalone/mappings.py:1276-1291` `_iter_hierarchy`: the branches (lists of steps), each step
before its children.  `F` is the recursion limit; `none` stands for `RecursionError`. -/
def iterHier (σ : PsState) : Nat → List Nat → Nat → Option (List (List Nat))
  | 0, _, _ => none
  | F + 1, pre, s =>
    match σ.steps[s]? with
    | none => some [pre ++ [s]]
    | some o => (iterKids (iterHier σ F (pre ++ [s])) (σ.kids o)).map (fun r => (pre ++ [s]) :: r)

/-- Python's order of texts: by code points, from the left. -/
def strLt : Str → Str → Bool
  | _, [] => false
  | [], _ :: _ => true
  | a :: s, b :: t => a.toNat < b.toNat || (a.toNat == b.toNat && strLt s t)

/-- Insertion into a sorted list without repetitions. -/
def insertStr (x : Str) : List Str → List Str
  | [] => [x]
  | y :: t => if strLt x y then x :: y :: t else if x = y then y :: t else y :: insertStr x t

/-- `sorted(set(xs))`. -/
def sortedSet (xs : List Str) : List Str := xs.foldr insertStr []

/-- The texts of the steps of a branch. -/
def PsState.names (σ : PsState) (b : List Nat) : List Str :=
  b.map (fun r => match σ.steps[r]? with | some o => o.name | none => [])

/-- `pandalone/mappings.py:1252` whether a branch is reported: its last step carries the tag, or, if
no tag is asked for, has no children. -/
def reported (σ : PsState) (tag : Option Str) (b : List Nat) : Bool :=
  match b.getLast?.bind (fun r => σ.steps[r]?) with
  | none => false
  | some o =>
    match tag with
    | some t => if t = [] then (σ.kids o).isEmpty else t ∈ o.tags
    | none => (σ.kids o).isEmpty

/-- `pandalone/mappings.py:1209-1257` `_paths`, without the debugging option `with_orig`. -/
def pstepPaths (F : Nat) (σ : PsState) (s : Nat) (tag : Option Str) : Except PyErr (List Str) :=
  match iterHier σ F [] s with
  | none => .error .recursionError
  | some bs => .ok (sortedSet ((bs.filter (reported σ tag)).map (fun b => joinPaths (σ.names b))))

end Model
