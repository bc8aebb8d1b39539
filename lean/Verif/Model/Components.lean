import Verif.Spec.Pstep
/-
Model of `pandalone/components.py`: components made from functions, and assemblies of them.
Attribute reading is that of `Verif.Model.Pstep`.
-/
namespace Model
open Py Spec

/-- What a component function does with its component while it is being built: asking for the input
or output step (perhaps with a path of its own) and reading a chain of attributes from it, or adding
a fixed path to the inputs or outputs, as the documentation of `FuncComponent` allows
(`pandalone/components.py:109-137`).
Simplified: a component function is the list of what it does; the values it gets from the data-tree,
which while building is a `MagicMock`, do not matter. -/
inductive Act
  | inp (path : Option Str) (chain : List Str)
  | out (path : Option Str) (chain : List Str)
  | fixInp (path : Str)
  | fixOut (path : Str)

/-- A `FuncComponent`, `pandalone/components.py:180-194`.  `_pmod` refers to mappings, `_pinp` and `_pout`
to steps. -/
structure Comp where
  name : Str
  cfunc : List Act
  inp : List Str
  out : List Str
  pinp : Option Nat
  pout : Option Nat
  pmod : Option Nat

/-- `path or self._name`, `pandalone/components.py:206, 213`. -/
def pathOrName (path : Option Str) (name : Str) : Str :=
  match path with
  | some p => if p = [] then name else p
  | none => name

/-- `pandalone/components.py:202-214` `pinp()`, `pout()`: the step, made when first asked for. -/
def compStep (F : Nat) (E : RegexLib) (σ : PsState) (cur : Option Nat) (name : Str) (pmod : Option Nat) :
    PsState × Except PyErr Nat :=
  match cur with
  | some r => (σ, .ok r)
  | none => newStep F E σ name (match pmod with | some p => .pmod p | none => .none) none []

/-- One thing a component function does. -/
def runAct (F : Nat) (E : RegexLib) (σ : PsState) (c : Comp) : Act → (PsState × Comp) × Except PyErr Unit
  | .inp path chain =>
    match compStep F E σ c.pinp (pathOrName path c.name) c.pmod with
    | (σ1, .error e) => ((σ1, c), .error e)
    | (σ1, .ok r) =>
      match getPath F E σ1 r chain with
      | (σ2, .error e) => ((σ2, { c with pinp := some r }), .error e)
      | (σ2, .ok _) => ((σ2, { c with pinp := some r }), .ok ())
  | .out path chain =>
    match compStep F E σ c.pout (pathOrName path c.name) c.pmod with
    | (σ1, .error e) => ((σ1, c), .error e)
    | (σ1, .ok r) =>
      match getPath F E σ1 r chain with
      | (σ2, .error e) => ((σ2, { c with pout := some r }), .error e)
      | (σ2, .ok _) => ((σ2, { c with pout := some r }), .ok ())
  | .fixInp p => ((σ, { c with inp := c.inp ++ [p] }), .ok ())
  | .fixOut p => ((σ, { c with out := c.out ++ [p] }), .ok ())

/-- The component function, run until it is done or raises. -/
def runActs (F : Nat) (E : RegexLib) (σ : PsState) (c : Comp) : List Act → (PsState × Comp) × Except PyErr Unit
  | [] => ((σ, c), .ok ())
  | a :: rest =>
    match runAct F E σ c a with
    | ((σ1, c1), .ok _) => runActs F E σ1 c1 rest
    | ((σ1, c1), .error e) => ((σ1, c1), .error e)

/-- `pandalone/components.py:199-200` `_fetch_all_paths`; a step with an empty text is false. -/
def fetchAllPaths (F : Nat) (σ : PsState) (pstep : Option Nat) : Except PyErr (List Str) :=
  match pstep with
  | none => .ok []
  | some r =>
    match σ.steps[r]? with
    | none => .ok []
    | some o => if o.name = [] then .ok [] else pstepPaths F σ r none

/-- `pandalone/components.py:216-228` `FuncComponent._build`. -/
def Comp.build (F : Nat) (E : RegexLib) (σ : PsState) (c : Comp) (pmod : Option Nat) :
    (PsState × Comp) × Except PyErr Unit :=
  let c := { c with inp := [], out := [], pinp := none, pout := none, pmod := pmod }
  match runActs F E σ c c.cfunc with
  | ((σ1, c1), .error e) => ((σ1, c1), .error e)
  | ((σ1, c1), .ok _) =>
    match fetchAllPaths F σ1 c1.pinp with
    | .error e => ((σ1, c1), .error e)
    | .ok pi =>
      let c2 := { c1 with inp := c1.inp ++ pi }
      match fetchAllPaths F σ1 c1.pout with
      | .error e => ((σ1, c2), .error e)
      | .ok po => ((σ1, { c2 with out := c1.out ++ po }), .ok ())

/-- `pandalone/components.py:269-274` the loop of `Assembly._build`: each component is built and its inputs
and outputs added to the sets, here lists of all that was added. A component that is given twice is taken for two. -/
def buildAll (F : Nat) (E : RegexLib) (σ : PsState) (pmod : Option Nat) (inp out : List Str) :
    List Comp → (PsState × List Comp) × Except PyErr (List Str × List Str)
  | [] => ((σ, []), .ok (inp, out))
  | c :: cs =>
    match c.build F E σ pmod with
    | ((σ1, c1), .error e) => ((σ1, c1 :: cs), .error e)
    | ((σ1, c1), .ok _) =>
      match buildAll F E σ1 pmod (inp ++ c1.inp) (out ++ c1.out) cs with
      | ((σ2, cs2), r) => ((σ2, c1 :: cs2), r)

/-- `pandalone/components.py:268-276` `Assembly._build`: the components as they are afterwards, and the inputs
and outputs of the assembly. -/
def assemblyBuild (F : Nat) (E : RegexLib) (σ : PsState) (comps : List Comp) (pmod : Option Nat) :
    (PsState × List Comp) × Except PyErr (List Str × List Str) :=
  match buildAll F E σ pmod [] [] comps with
  | (s, .error e) => (s, .error e)
  | (s, .ok (inp, out)) => (s, .ok (sortedSet inp, sortedSet out))

end Model
