import Verif.Model.Pstep
/-
Specification of path-steps: what can be done with them, which steps lead where, and which
mappings an object on the heap stands for.
-/
namespace Spec
open Py Model

mutual
/-- The object `r` on the heap stands for the mappings `t`. -/
inductive Den (h : List PmodObj) : Nat → Pmod → Prop
  | mk (r : Nat) (o : PmodObj) (st rg : List (Str × Pmod)) :
      h[r]? = some o → DenAll h o.steps st → DenAll h o.regxs rg → Den h r (.mk o.alias st rg)
/-- The same for the entries of a dictionary, in order. -/
inductive DenAll (h : List PmodObj) : List (Str × Nat) → List (Str × Pmod) → Prop
  | nil : DenAll h [] []
  | cons (k : Str) (r : Nat) (t : Pmod) (rs : List (Str × Nat)) (ts : List (Str × Pmod)) :
      Den h r t → DenAll h rs ts → DenAll h ((k, r) :: rs) ((k, t) :: ts)
end

/-- Mappings, or none. -/
def DenOpt (h : List PmodObj) : Option Nat → Option Pmod → Prop
  | none, none => True
  | some r, some t => Den h r t
  | _, _ => False

mutual
/-- The depth of mappings: the number of levels. -/
def depth : Pmod → Nat
  | .mk _ s r => max (depthAll s) (depthAll r) + 1
/-- The greatest depth among the entries of a dictionary. -/
def depthAll : List (Str × Pmod) → Nat
  | [] => 0
  | (_, p) :: t => max (depth p) (depthAll t)
end

/-- What a program can do with steps. -/
inductive StepOp
  | new (pname : Str) (maps : Maps) (alias : Option Str) (tags : List Str)
  | get (s : Nat) (attr : Str)
  | assignText (s : Nat) (attr : Str) (text : Str)
  | assignStep (s : Nat) (attr : Str) (v : Nat)
  | assignOther (s : Nat) (attr : Str)
  | lock (s : Nat) (level : Int)
  | tag (s : Nat) (tags : List Str)
  | untag (s : Nat) (tag : Str)

/-- The state after an operation, whether it raised or not. -/
def StepOp.apply (F : Nat) (E : RegexLib) (σ : PsState) : StepOp → PsState
  | .new pname maps alias tags => (newStep F E σ pname maps alias tags).1
  | .get s attr => (getAttr F E σ s attr).1
  | .assignText s attr text => (setAttr F E σ s attr (.str text)).1
  | .assignStep s attr v => (setAttr F E σ s attr (.step v)).1
  | .assignOther s attr => (setAttr F E σ s attr .other).1
  | .lock s level => (setLocked σ s level).1
  | .tag s ts => tagStep σ s ts
  | .untag s t => untagStep σ s t

/-- The state after a history of operations. -/
def runOps (F : Nat) (E : RegexLib) (σ : PsState) (ops : List StepOp) : PsState :=
  ops.foldl (fun σ op => op.apply F E σ) σ

/-- Step `s` has the child `c` under the attribute `k`. -/
def Edge (σ : PsState) (s : Nat) (k : Str) (c : Nat) : Prop :=
  ∃ o, σ.steps[s]? = some o ∧ dget (σ.kids o) k = some c

/-- The text of a step. -/
def textOf (σ : PsState) (s : Nat) : Option Str := (σ.steps[s]?).map StepObj.name

/-- The methods of texts, and the constants of steps. -/
def textNames : List Str := ["capitalize", "casefold", "center", "count", "encode", "endswith",
  "expandtabs", "find", "format", "format_map", "index", "isalnum", "isalpha", "isascii",
  "isdecimal", "isdigit", "isidentifier", "islower", "isnumeric", "isprintable", "isspace",
  "istitle", "isupper", "join", "ljust", "lower", "lstrip", "maketrans", "partition",
  "removeprefix", "removesuffix", "replace", "rfind", "rindex", "rjust", "rpartition", "rsplit",
  "rstrip", "split", "splitlines", "startswith", "strip", "swapcase", "title", "translate",
  "upper", "zfill", "CAN_RELOCATE", "CAN_RENAME", "LOCKED"].map String.toList

/-- Attributes that are steps: not private, not those pandas looks for, not those of texts. -/
def StepName (k : Str) : Prop :=
  k ∉ textNames ∧ startsWith "_".toList k = false ∧ k ∉ ["get_values".toList, "Series".toList]

/-- Reading attributes one after the other, from a step: the steps met. -/
def getPath (F : Nat) (E : RegexLib) (σ : PsState) (s : Nat) :
    List Str → PsState × Except PyErr (List Nat)
  | [] => (σ, .ok [])
  | k :: ks =>
    match getAttr F E σ s k with
    | (σ1, .ok (some c)) =>
      match getPath F E σ1 c ks with
      | (σ2, .ok rs) => (σ2, .ok (c :: rs))
      | (σ2, .error e) => (σ2, .error e)
    | (σ1, .ok none) => (σ1, .error .attributeError)
    | (σ1, .error e) => (σ1, .error e)

end Spec
