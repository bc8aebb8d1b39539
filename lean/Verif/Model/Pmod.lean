import Verif.Model.Paths
/-
Model of the mappings (`Pmod`) of `pandalone/mappings.py`.
-/
namespace Model
open Py

/-- `pandalone/mappings.py:138-161` the fields of `Pmod`.
Simplifications: Python identity (sharing of children between pmods) is abstracted away, since no
function modelled here mutates a shared pmod; a compiled regex is identified by its pattern text,
which is how equal patterns compare; pmods are always true (no `__len__`/`__bool__`). -/
inductive Pmod
  | mk (alias : Option Str) (steps : List (Str × Pmod)) (regxs : List (Str × Pmod))

/-- `_alias` -/
def Pmod.alias : Pmod → Option Str
  | .mk a _ _ => a
/-- `_steps` -/
def Pmod.steps : Pmod → List (Str × Pmod)
  | .mk _ s _ => s
/-- `_regxs` -/
def Pmod.regxs : Pmod → List (Str × Pmod)
  | .mk _ _ r => r

/-- `Pmod()` -/
def Pmod.empty : Pmod := .mk none [] []

/-- The external regular-expression library (`re`), a parameter: whether a pattern compiles, the
full match of a text, and the expansion of a template with a match (which may fail). -/
structure RegexLib where
  Match : Type
  compiles : Str → Bool
  fullmatch : Str → Str → Option Match
  expand : Match → Str → Except PyErr Str

mutual
/-- `pandalone/mappings.py:283-335` `Pmod._merge`. -/
def Pmod.merge : Pmod → Pmod → Pmod
  | .mk a s r, .mk a' s' r' => .mk
      (a'.or a)   -- lines 330-331: the other's alias unless it is `None`
      -- `pandalone/mappings.py:213-236` `_override_steps`
      (if s'.isEmpty then s else if s.isEmpty then s' else Pmod.mergeSteps s s')
      -- `pandalone/mappings.py:238-281` `_override_regxs`
      (if r'.isEmpty then r else if r.isEmpty then r'
       else r.filter (fun kv => !(dkeys r').contains kv.1) ++ Pmod.mergeRegxs r r')

/-- `pandalone/mappings.py:227-233` the loop of `_override_steps`. -/
def Pmod.mergeSteps (s : List (Str × Pmod)) : List (Str × Pmod) → List (Str × Pmod)
  | [] => s
  | (name, opmod) :: t =>
    Pmod.mergeSteps (dset s name (match dget s name with
      | some spmod => spmod.merge opmod
      | none => opmod)) t

/-- `pandalone/mappings.py:262-269` the loop of `_override_regxs` collecting `opairs`. -/
def Pmod.mergeRegxs (r : List (Str × Pmod)) : List (Str × Pmod) → List (Str × Pmod)
  | [] => []
  | (name, opmod) :: t =>
    (name, match dget r name with
      | some spmod => spmod.merge opmod
      | none => opmod) :: Pmod.mergeRegxs r t
end

/-- `pandalone/mappings.py:337-347` `_match_regxs`. -/
def Pmod.matchRegxs (E : RegexLib) (pm : Pmod) (cstep : Str) : List (Pmod × E.Match) :=
  pm.regxs.filterMap (fun kv => (E.fullmatch kv.1 cstep).map (fun m => (kv.2, m)))

/-- `pandalone/mappings.py:419-422` and `443-445`: the loop over the reversed matches. -/
def Pmod.lastAlias (E : RegexLib) : List (Pmod × E.Match) → Except PyErr (Option Str)
  | [] => .ok none
  | (rpmod, m) :: rest =>
    match rpmod.alias with
    | some a => match E.expand m a with
      | .ok x => .ok (some x)
      | .error e => .error e
    | none => Pmod.lastAlias E rest

/-- `functools.reduce(Pmod._merge, pmods)`; `none` for the empty list, which the caller excludes. -/
def Pmod.reduceMerge : List Pmod → Option Pmod
  | [] => none
  | p :: ps => some (ps.foldl Pmod.merge p)

/-- `pandalone/mappings.py:349-429` `Pmod.descend`. -/
def Pmod.descend (E : RegexLib) (pm : Pmod) (cstep : Str) : Except PyErr (Option Pmod × Option Str) :=
  let cpmod := dget pm.steps cstep
  let pmods := pm.matchRegxs E cstep
  let alias : Except PyErr (Option Str) :=
    match cpmod.bind Pmod.alias with
    | some a => .ok (some a)
    | none => Pmod.lastAlias E pmods.reverse
  match alias with
  | .error e => .error e
  | .ok alias =>
    match Pmod.reduceMerge (pmods.map (·.1) ++ cpmod.toList) with
    | some p => .ok (some p, alias)
    | none => .ok (none, none)

/-- `pandalone/mappings.py:431-445` `Pmod.alias()`. -/
def Pmod.aliasOf (E : RegexLib) (pm : Pmod) (cstep : Str) : Except PyErr (Option Str) :=
  match (dget pm.steps cstep).bind Pmod.alias with
  | some a => .ok (some a)
  | none => Pmod.lastAlias E (pm.matchRegxs E cstep).reverse

/-- `s[:-1] if len(s) > 1 and s.endswith("/") else s`, `pandalone/mappings.py:544-545, 556-558`. -/
def dropFolderSlash (s : Str) : Str :=
  if s.length > 1 && endsWith ['/'] s then s.dropLast else s

/-- The parts contributed by one step, `pandalone/mappings.py:539-546`, also `551-559`. -/
def stepParts (step : Str) (alias : Option Str) : List Str :=
  match alias with
  | none => iterPartsRelaxed (dropFolderSlash step)
  | some a =>
    (if startsWith ['.'] a then [step] else []) ++ iterPartsRelaxed (dropFolderSlash a)

/-- The loop over `steps[:-1]` and the final step, `pandalone/mappings.py:531-559`.
`alias` holds the local variable of the same name, which is not reset when `pmod` is `None` (it is
always assigned before, since `pmod` is `self` in the first round). -/
def mapLoop (E : RegexLib) (pmod : Option Pmod) (alias : Option Str) (nsteps : List Str) :
    List Str → Except PyErr (List Str)
  | [] => .ok nsteps
  | [finalStep] =>
    match pmod with
    | some pm =>
      match pm.aliasOf E finalStep with
      | .error e => .error e
      | .ok a => .ok (nsteps ++ stepParts finalStep a)
    | none => .ok (nsteps ++ stepParts finalStep none)
  | step :: steps =>
    match pmod with
    | some pm =>
      match pm.descend E step with
      | .error e => .error e
      | .ok (pmod', a) => mapLoop E pmod' a (nsteps ++ stepParts step a) steps
    | none => mapLoop E none alias (nsteps ++ stepParts step alias) steps

/-- `pandalone/mappings.py:447-566` `Pmod.map_path`.  The final `path += ...` of line 564 changes
only a local variable, so it has no effect. -/
def Pmod.mapPath (E : RegexLib) (pm : Pmod) (path : Str) : Except PyErr Str :=
  let steps := iterPartsRelaxed (dropFolderSlash path)
  let nsteps := match pm.alias with
    | none => []
    | some a => iterPartsRelaxed a
  match mapLoop E (some pm) none nsteps steps with
  | .error e => .error e
  | .ok nsteps => .ok (joinPaths nsteps)

/-- `pandalone/mappings.py:568-569` `Pmod.map_paths`. -/
def Pmod.mapPaths (E : RegexLib) (pm : Pmod) : List Str → Except PyErr (List Str)
  | [] => .ok []
  | p :: ps =>
    match pm.mapPath E p with
    | .error e => .error e
    | .ok x => match pm.mapPaths E ps with
      | .error e => .error e
      | .ok xs => .ok (x :: xs)

/-- `pandalone/mappings.py:674-682` the insertion of one tuple with `_append_into_steps` (`173-189`)
and `_append_into_regxs` (`191-212`).  Restructured: returns the updated pmod instead of mutating.
The outcome of `re.compile` is checked by the caller. -/
def Pmod.insert (t : Str) : List Str → Pmod → Pmod
  | [], .mk _ s r => .mk (some t) s r
  | srcstep :: rest, .mk a s r =>
    if startsWith ['~'] srcstep then
      let key := srcstep.tail
      .mk a s (ddel r key ++ [(key, Pmod.insert t rest ((dget r key).getD Pmod.empty))])
    else
      .mk a (dset s srcstep (Pmod.insert t rest ((dget s srcstep).getD Pmod.empty))) r

/-- The loop of `pmods_from_tuples`, `pandalone/mappings.py:667-684`. -/
def pmodsLoop (E : RegexLib) (root : Pmod) : List (Option Str × Option Str) → Except PyErr Pmod
  | [] => .ok root
  | (some f, some t) :: rest =>
    if f = [] ∧ t = [] then pmodsLoop E root rest
    else
      let srcsteps := iterPartsRelaxed f
      if srcsteps.all (fun s => !startsWith ['~'] s || E.compiles s.tail) then
        pmodsLoop E (root.insert t srcsteps) rest
      else .error .valueError   -- `re.error`, kept as one more kind of invalid value
  | _ :: rest => pmodsLoop E root rest

/-- `pandalone/mappings.py:590-684` `pmods_from_tuples`. -/
def pmodsFromTuples (E : RegexLib) (tuples : List (Option Str × Option Str)) : Except PyErr Pmod :=
  pmodsLoop E Pmod.empty tuples

end Model
