import Verif.Model.FactoryBooks
import Verif.Model.LassoRun
/-
Model of `lasso()` of `pandalone/xleash/_lasso.py` with a factory that was used before, and with the workbooks that it has open.
-/
namespace Model
open Py

/-- Run a program on a factory with its workbooks; see `Run.exec`, where what is opened does not depend on what was closed before. -/
def Run.onDesk {α : Type} (W : Surroundings) (order : List SKey → List SKey) : Run α → Desk → Desk × Except PyErr α
  | .done r, D => (D, r)
  | .fetch wb sh b k, D => (k (D.fetch W order wb sh b).2).onDesk W order (D.fetch W order wb sh b).1
  | .add s ws ss k, D => match D.fac.add order s ws ss with
    | .error e => (k (.error e)).onDesk W order D
    | .ok f => (k (.ok ())).onDesk W order { D with fac := f }

/-- `pandalone/xleash/_lasso.py:316-392` `lasso()` with a factory given, see `lassoCall`. -/
def Desk.lasso (W : Surroundings) (order : List SKey → List SKey) (installed : Str → Option RunFilter) (A : SheetApi SheetObj)
    (jsonLoads : Str → Option Doc) (xlref : Str) (D : Desk) (baseOpts : Option (List (Str × Doc)))
    (available : Option (Str → Option RunFilter)) (returnLasso : Bool) (ctx : Lasso SheetObj) : Desk × Except PyErr (FRes SheetObj) :=
  let baseOpts := match baseOpts with
    | none => some (defaultOpts none)
    | some o => some o
  let R := makeDefaultRanger installed baseOpts available
  let q := (R.doLasso A jsonLoads xlref ctx).onDesk W order D
  (q.1, match q.2 with
    | .error e => .error e
    | .ok l => lassoReturn returnLasso l)

end Model
