import Verif.Model.Lasso
/-
Model of the filters of `pandalone/xleash/_filter.py` that evaluate Python expressions. The evaluation
itself, by *asteval*, is a parameter.
-/
namespace Model
open Py

/-- *asteval*: the result of an expression, a lasso or any other value, or that there were errors. It is given
the lasso at hand and the position of the element, if any. Expressions that change objects in place are not
modelled. -/
abbrev Evaluator (S : Type) := Str → Lasso S → Option Coords → Option (FRes S)

/-- `pandalone/xleash/_filter.py:431-434` and `532-535`: the lasso made of a result. -/
def evaluated {S : Type} (l : Lasso S) : FRes S → Lasso S
  | .lasso r => match r.opts with
    | none => { r with opts := l.opts }
    | some _ => r
  | .other d => { l with values := d }

/-- `pandalone/xleash/_filter.py:410-437` `_pyeval_element_func`. -/
def pyevalElement {S : Type} (eval : Evaluator S) (evalAll : Bool) : EFun S :=
  fun l bc elval => match elval with
    | .str t => match eval t l bc with
      | none => if evalAll then .error .valueError else .ok (false, .lasso l)
      | some r => .ok (true, .lasso (evaluated l r))
    | _ => .ok (false, .lasso l)

/-- `pandalone/xleash/_filter.py:440-499` `pyeval_filter`. -/
def Ranger.pyeval {S : Type} (R : Ranger S) (pandas : Bool) (eval : Evaluator S) (filters : List Doc) (evalAll : Bool)
    (incl excl : Option (List Str)) (depth : Option Int) (l : Lasso S) : Except PyErr (Lasso S) :=
  R.elementwise pandas (pyevalElement eval evalAll) filters incl excl depth l

/-- `pandalone/xleash/_filter.py:502-537` `py_filter`. -/
def pyFilter {S : Type} (eval : Evaluator S) (l : Lasso S) (expr : Str) : Except PyErr (Lasso S) :=
  match eval expr l none with
  | none => .error .valueError
  | some r => .ok (evaluated l r)

end Model
