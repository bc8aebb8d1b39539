import Verif.Model.SharedSpecs
/-
C153. What it means that a lasso is thrown as if it were the first one.
-/
namespace Spec
open Py Model

variable {S : Type}

/-- What `do_lasso` returns or raises when it is called with call-specifications that were not used before. -/
def thrownFirst (R : RangerA S) (A : SheetApi S) (jsonLoads : Str → Option Doc) (specs : List CallSpec) (t : Throw S) :
    Except PyErr (FRes S) :=
  R.plain.doLasso A jsonLoads t.xlref { t.ctx with callSpec := match t.spec with
    | none => none
    | some i => specs[i]? }

/-- The filter that a call-specification names leaves its arguments as they were, for all values it is given. -/
def LeavesArguments (R : RangerA S) (c : CallSpec) : Prop :=
  ∀ rec, R.filters c.func = some rec → ∀ l, (rec.func l c.args (ddel c.kwds "lax".toList)).1 = (c.args, ddel c.kwds "lax".toList)

/-- A call-specification does not say whether it is lax. -/
def SaysNoLax (c : CallSpec) : Prop := dget c.kwds "lax".toList = none

/-- A call-specification as it was written, but for its `lax`. -/
def laxDropped (c : CallSpec) : CallSpec := ⟨c.func, c.args, c.kwds.filter (fun kv => kv.1 ≠ "lax".toList)⟩

/-- The call uses the caller's `i`-th call-specification: it is given, the reference does not name a filter itself, and the
reference captures something, that is the call would succeed without any call-specification. -/
def SpecUsed (R : RangerA S) (A : SheetApi S) (jsonLoads : Str → Option Doc) (t : Throw S) (i : Nat) : Prop :=
  t.spec = some i ∧ (∀ p, parseXlref jsonLoads t.xlref = .ok p → p.frag.callSpec = none) ∧
    ∃ r, R.plain.doLasso A jsonLoads t.xlref { t.ctx with callSpec := none } = .ok r

/-- A call-specification is as it was written if it was not used by those calls, else without its `lax`. -/
def AfterCalls (R : RangerA S) (A : SheetApi S) (jsonLoads : Str → Option Doc) (before : List (Throw S)) (specs specs' : List CallSpec) :
    Prop :=
  specs'.length = specs.length ∧ ∀ (i : Nat) c, specs[i]? = some c →
    ((∃ t ∈ before, SpecUsed R A jsonLoads t i) → specs'[i]? = some (laxDropped c)) ∧
    ((¬ ∃ t ∈ before, SpecUsed R A jsonLoads t i) → specs'[i]? = some c)

end Spec
