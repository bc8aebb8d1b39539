import Verif.Model.Components
/-
Model of the life of components, `pandalone/components.py`: how they are named, made, built and called.
-/
namespace Model
open Py Spec

/-- `pandalone/components.py:180-187, 72-75`: the name of a component made from the function called `fname`.
`name_uniqueizer` is `None` (line 48), so that names are not altered further. -/
def compName (fname : Str) (name : Option Str) : Str :=
  match name with
  | some n => n
  | none => if startsWith "cfunc_".toList fname then fname.drop "cfunc_".toList.length else fname

/-- `name or "assembly"`, `pandalone/components.py:261-262`. -/
def assemblyName (name : Option Str) : Str :=
  match name with
  | some n => if n = [] then "assembly".toList else n
  | none => "assembly".toList

/-- A component object.  Before `_build` is first called the attributes `_pmod`, `_pinp` and `_pout` do not
exist, and `_inp` and `_out` are `None` (`pandalone/components.py:76-77, 189-194`): `built` says whether it has been,
and what `comp` has of them does not count before that. -/
structure CompObj where
  comp : Comp
  built : Bool

/-- `pandalone/components.py:180-194` `FuncComponent.__init__`, with the name that `compName` gives. -/
def CompObj.init (name : Str) (cfunc : List Act) : CompObj := ⟨⟨name, cfunc, [], [], none, none, none⟩, false⟩

/-- Some components, and the steps and mappings they work with. -/
structure CompWorld where
  σ : PsState
  objs : List CompObj

/-- What is done with components: one is built, or one is called. What a component function does when called
may differ from what it does in a build, where it gets a `MagicMock`. -/
inductive CompOp
  | build (i : Nat) (pmod : Option Nat)
  | call (i : Nat) (acts : List Act)

/-- `pandalone/components.py:216-228` `_build` and 196-197 `__call__` of a component.  A component function
that asks anything of a component that was not built gets an `AttributeError`: from `self._pinp` (line 204),
`self._pout` (line 211), or from the `append` of `None`. -/
def opOn (F : Nat) (E : RegexLib) (w : CompWorld) : CompOp → CompWorld × Except PyErr Unit
  | .build i pmod =>
    match w.objs[i]? with
    | none => (w, .ok ())
    | some o =>
      match o.comp.build F E w.σ pmod with
      | ((σ1, c1), r) => (⟨σ1, w.objs.set i ⟨c1, true⟩⟩, r)
  | .call i acts =>
    match w.objs[i]? with
    | none => (w, .ok ())
    | some o =>
      if o.built then
        match runActs F E w.σ o.comp acts with
        | ((σ1, c1), r) => (⟨σ1, w.objs.set i ⟨c1, true⟩⟩, r)
      else
        match acts with
        | [] => (w, .ok ())
        | _ :: _ => (w, .error .attributeError)

end Model
