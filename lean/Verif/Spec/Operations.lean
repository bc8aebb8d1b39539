import Verif.Model.Operations
/-
What the documentation of `Pandel.mod_global_operations` says.
-/
namespace Spec
open Py Model

/-- Nothing is customized. -/
def noOps (A : Type) : Ops A := ⟨none, none, none⟩

/-- One value after a call: the one given by keyword, or else a non-empty one of the operations given, or else the one
there was. -/
def Updated {A : Type} (old : Option A) (given : Option (Option A)) (kw : Option (Option A)) (new : Option A) : Prop :=
  (∀ x, kw = some x → new = x) ∧
  (kw = none → ∀ a, given = some (some a) → new = some a) ∧
  (kw = none → (given = none ∨ given = some none) → new = old)

/-- The operations after a call, from those before it. -/
structure Modified {A : Type} (old : Ops A) (c : OpsCall A) (new : Ops A) : Prop where
  inp : Updated old.inp (c.operations.map Ops.inp) (dget c.kw "inp".toList) new.inp
  out : Updated old.out (c.operations.map Ops.out) (dget c.kw "out".toList) new.out
  conv : Updated old.conv (c.operations.map Ops.conv) (dget c.kw "conv".toList) new.conv

/-- The operations after some calls. -/
inductive ModifiedAll {A : Type} : Ops A → List (OpsCall A) → Ops A → Prop
  | done (o) : ModifiedAll o [] o
  | call (o c o' cs o'') : Modified o c o' → ModifiedAll o' cs o'' → ModifiedAll o (c :: cs) o''

/-- Every value is there. -/
def Full {A : Type} (o : Ops A) : Prop := o.inp.isSome ∧ o.out.isSome ∧ o.conv.isSome

end Spec
