import Verif.Model.Basic
/-
Model of `ModelOperations` and `Pandel.mod_global_operations` of `pandalone/pandata.py`.
-/
namespace Model
open Py

/-- `ModelOperations`, `pandalone/pandata.py:103-144`: a named tuple, of which every value may be `None`. What the values are
does not matter here. -/
structure Ops (A : Type) where
  inp : Option A
  out : Option A
  conv : Option A

/-- `Pandel._global_cntxt`, `pandalone/pandata.py:777, 795`: at first an empty list, later operations. -/
abbrev Installed (A : Type) := Option (Ops A)

/-- `operations._replace(**kw)` of a named tuple: the tuple with these values, or a `ValueError` for names it does not have. -/
def Ops.replace {A : Type} (o : Ops A) (kw : List (Str × Option A)) : Except PyErr (Ops A) :=
  if (dkeys kw).all (fun k => k = "inp".toList || k = "out".toList || k = "conv".toList) then
    .ok ⟨(dget kw "inp".toList).getD o.inp, (dget kw "out".toList).getD o.out, (dget kw "conv".toList).getD o.conv⟩
  else .error .valueError

/-- The arguments of a call of `mod_global_operations`. -/
structure OpsCall (A : Type) where
  operations : Option (Ops A)
  kw : List (Str × Option A)

/-- `Pandel.mod_global_operations`, `pandalone/pandata.py:780-797`: what is installed afterwards, and what is raised. The tuple
that `_replace` returns is dropped; a list has no `_replace`. A named tuple of three is true. -/
def modGlobal {A : Type} (cur : Installed A) (c : OpsCall A) : Installed A × Option PyErr :=
  let cur := match c.operations with
    | some o => some o
    | none => cur
  match cur with
  | none => (cur, some .attributeError)
  | some o => match o.replace c.kw with
    | .error e => (cur, some e)
    | .ok _ => (cur, none)

/-- Calls one after the other, each of which may raise. -/
def modGlobals {A : Type} (cur : Installed A) : List (OpsCall A) → Installed A
  | [] => cur
  | c :: cs => modGlobals (modGlobal cur c).1 cs

end Model
