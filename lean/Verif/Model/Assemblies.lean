import Verif.Model.Components
/-
Model of assemblies of assemblies, `pandalone/components.py`: an `Assembly` is a `Component` too.
-/
namespace Model
open Py

/-- What an assembly is made of: components made from functions, and other assemblies (`pandalone/components.py:261-263`). Inputs and outputs
that an assembly kept from a former build are left out; building replaces them or fails. -/
inductive Part
  | comp (c : Comp)
  | assembly (parts : List Part)

mutual
/-- `_build` of a component (`pandalone/components.py:216-228`) or an assembly (`pandalone/components.py:268-276`), and its inputs and outputs
afterwards. -/
def Part.build (F : Nat) (E : RegexLib) (σ : PsState) (pmod : Option Nat) :
    Part → (PsState × Part) × Except PyErr (List Str × List Str)
  | .comp c =>
    match c.build F E σ pmod with
    | ((σ1, c1), .error e) => ((σ1, .comp c1), .error e)
    | ((σ1, c1), .ok _) => ((σ1, .comp c1), .ok (c1.inp, c1.out))
  | .assembly ps =>
    match buildParts F E σ pmod [] [] ps with
    | ((σ1, ps1), .error e) => ((σ1, .assembly ps1), .error e)
    | ((σ1, ps1), .ok (inp, out)) => ((σ1, .assembly ps1), .ok (sortedSet inp, sortedSet out))
/-- The loop of `Assembly._build`, `pandalone/components.py:269-274`, see `buildAll`. -/
def buildParts (F : Nat) (E : RegexLib) (σ : PsState) (pmod : Option Nat) (inp out : List Str) :
    List Part → (PsState × List Part) × Except PyErr (List Str × List Str)
  | [] => ((σ, []), .ok (inp, out))
  | p :: ps =>
    match p.build F E σ pmod with
    | ((σ1, p1), .error e) => ((σ1, p1 :: ps), .error e)
    | ((σ1, p1), .ok (i, o)) =>
      match buildParts F E σ1 pmod (inp ++ i) (out ++ o) ps with
      | ((σ2, ps2), r) => ((σ2, p1 :: ps2), r)
end
end Model
