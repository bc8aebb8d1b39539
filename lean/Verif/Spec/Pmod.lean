import Verif.Model.Pmod
/-
Specification of mappings: a mapping tree is read through key-paths; each key-path says which
alias sits there and which regexes, in which order.
-/
namespace Spec
open Py Model

/-- One step of a key-path: an exact name or a regex pattern. -/
inductive Key
  | name (s : Str)
  | regx (s : Str)
  deriving DecidableEq

/-- The node of a mapping tree at a key-path. -/
def nodeAt (pm : Pmod) : List Key → Option Pmod
  | [] => some pm
  | .name s :: ks => (dget pm.steps s).bind (fun c => nodeAt c ks)
  | .regx s :: ks => (dget pm.regxs s).bind (fun c => nodeAt c ks)

/-- The alias at a key-path. -/
def aliasAt (pm : Pmod) (ks : List Key) : Option Str := (nodeAt pm ks).bind Pmod.alias

/-- The regex patterns at a key-path, in order of precedence (later ones win). -/
def regxsAt (pm : Pmod) (ks : List Key) : List Str :=
  match nodeAt pm ks with
  | some n => n.regxs.map (·.1)
  | none => []

/-- The dictionaries of a mapping tree have distinct keys, as Python dictionaries do. -/
inductive DistinctKeys : Pmod → Prop
  | mk (a s r) : (s.map (·.1)).Nodup → (r.map (·.1)).Nodup →
      (∀ kv ∈ s, DistinctKeys kv.2) → (∀ kv ∈ r, DistinctKeys kv.2) → DistinctKeys (.mk a s r)

/-- The key-path written in the "from" part of a tuple: slash-separated steps, unescaped; those
starting with a tilde are regexes. -/
def keysOf (from_ : Str) : List Key :=
  ((splitOn '/' from_).map unescapePart).map
    (fun s => match s with
      | '~' :: pat => .regx pat
      | _ => .name s)

/-- The tuples that count: both parts given, and not both empty. -/
def validTuples (tuples : List (Option Str × Option Str)) : List (Str × Str) :=
  tuples.filterMap (fun p => match p with
    | (some f, some t) => if f = [] ∧ t = [] then none else some (f, t)
    | _ => none)

/-- The last element of a list for which `f` is defined. -/
def lastSome {α β : Type} (f : α → Option β) (xs : List α) : Option β := xs.reverse.findSome? f

/-- Distinct elements in order of their last occurrence. -/
def keepLast (xs : List Str) : List Str :=
  match xs with
  | [] => []
  | x :: xs => if x ∈ xs then keepLast xs else x :: keepLast xs

end Spec

namespace Spec
open Py Model

/-- The regex that the key-path `path` has right below the key-path `ks`, if any. -/
def nextRegx : List Key → List Key → Option Str
  | [], .regx p :: _ => some p
  | [], _ => none
  | _ :: _, [] => none
  | k :: ks, x :: xs => if k = x then nextRegx ks xs else none

/-- The mappings that apply to a child name, in order of precedence (later ones win): the regexes
that fully match it, as declared, and last the exact name. -/
def applicable (E : RegexLib) (pm : Pmod) (cstep : Str) : List Pmod :=
  (pm.regxs.filter (fun kv => (E.fullmatch kv.1 cstep).isSome)).map (·.2) ++
    (dget pm.steps cstep).toList

/-- `EffAlias E pm cstep a`: the alias of a child name is the one of the exact mapping if this
has one; else of the last declared fully-matching regex that has one, expanded with its match. -/
inductive EffAlias (E : RegexLib) (pm : Pmod) (cstep : Str) : Str → Prop
  | exact (c a) : dget pm.steps cstep = some c → c.alias = some a → EffAlias E pm cstep a
  | regex (before pat c after m t a) :
      (∀ c', dget pm.steps cstep = some c' → c'.alias = none) →
      pm.regxs = before ++ (pat, c) :: after →
      E.fullmatch pat cstep = some m → c.alias = some t → E.expand m t = .ok a →
      (∀ kv ∈ after, (E.fullmatch kv.1 cstep).isSome → kv.2.alias = none) →
      EffAlias E pm cstep a

end Spec

namespace Spec
open Py Model

/-- `AliasesAlong E pm steps as`: descending from the mappings `pm` (if any) through `steps`, the
alias in force at each step is the corresponding element of `as`. -/
inductive AliasesAlong (E : RegexLib) : Option Pmod → List Str → List (Option Str) → Prop
  | nil (pm) : AliasesAlong E pm [] []
  | off (s ss as) : AliasesAlong E none ss as → AliasesAlong E none (s :: ss) (none :: as)
  | on (pm pm' s a ss as) : pm.descend E s = .ok (pm', a) → AliasesAlong E pm' ss as →
      AliasesAlong E (some pm) (s :: ss) (a :: as)

/-- A plain step: no character that is special in pointers. -/
def Plain (s : Str) : Prop := '/' ∉ s ∧ '~' ∉ s

/-- A plain alias: no escapes, and not a folder (no trailing slash). -/
def PlainAlias (a : Str) : Prop := '~' ∉ a ∧ (a = "/".toList ∨ a.getLast? ≠ some '/')

/-- What a step contributes to the mapped path: itself, or its alias; an alias starting with a dot
is taken from the step on. -/
def contribution (step : Str) : Option Str → List Str
  | none => [step]
  | some a => if a.head? = some '.' then step :: splitOn '/' a else splitOn '/' a

/-- The path text of steps. -/
def pathText (ps : List Str) : Str := join "/".toList ps

end Spec
