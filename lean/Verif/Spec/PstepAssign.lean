import Verif.Spec.Pstep
/-
Specification of assigning to attributes of steps: what changes, what stays, and which paths there
are afterwards.
-/
namespace Spec
open Py Model

/-- No step of the history is assigned to an attribute of itself. -/
def SelfFree (ops : List StepOp) : Prop := ∀ op ∈ ops, ∀ s k, op ≠ .assignStep s k s

/-- The steps that exist keep their text, original name, lock and tags. -/
def AttrsKept (σ σ' : PsState) : Prop :=
  ∀ (i : Nat) (o : StepObj), σ.steps[i]? = some o → ∃ o', σ'.steps[i]? = some o' ∧
    o'.name = o.name ∧ o'.orig = o.orig ∧ o'.locked = o.locked ∧ o'.tags = o.tags

/-- They also keep their children, but for the child of `s` under `k`. -/
def OthersKept (σ σ' : PsState) (s : Nat) (k : Str) : Prop :=
  AttrsKept σ σ' ∧ ∀ i k' c, i < σ.steps.length → ¬ (i = s ∧ k' = k) → (Edge σ' i k' c ↔ Edge σ i k' c)

/-- The step `c` of `σ'` is, but for its text, like the step `e` was in `σ`. -/
def Like (σ σ' : PsState) (c e : Nat) : Prop :=
  ∃ co eo, σ'.steps[c]? = some co ∧ σ.steps[e]? = some eo ∧ co.orig = eo.orig ∧ co.locked = eo.locked ∧
    co.tags = eo.tags ∧ ∀ k d, Edge σ' c k d ↔ Edge σ e k d

/-- The step `c` is as if it had just been made under the attribute `k`: it may be relocated, which is the lock-level 3 (`pandalone/mappings.py`). -/
def Bare (σ : PsState) (c : Nat) (k : Str) : Prop :=
  ∃ co, σ.steps[c]? = some co ∧ co.orig = k ∧ co.locked = 3 ∧ co.tags = [] ∧ ∀ k' d, ¬ Edge σ c k' d

/-- From the step `s`, the attributes `ks` lead through the steps `rs`, with the texts `ts`. -/
inductive Branch (σ : PsState) : Nat → List Str → List Nat → List Str → Prop
  | nil (s) : Branch σ s [] [] []
  | cons (s k c t ks rs ts) : Edge σ s k c → textOf σ c = some t → Branch σ c ks rs ts →
      Branch σ s (k :: ks) (c :: rs) (t :: ts)

/-- Where a branch ends. -/
def endOf (s : Nat) (rs : List Nat) : Nat := (s :: rs).getLast (by simp)

/-- Whether the paths ending at the step `e` are asked for: those of steps without children, or those of steps
with a tag. -/
def Wanted (σ : PsState) (tag : Option Str) (e : Nat) : Prop :=
  ((tag = none ∨ tag = some "".toList) ∧ ∀ k c, ¬ Edge σ e k c) ∨
  ∃ t o, tag = some t ∧ t ≠ "".toList ∧ σ.steps[e]? = some o ∧ t ∈ o.tags

/-- The texts of a branch from the step `i`, when the child of `s` under `k` is called `text`. -/
def retext (s : Nat) (k text : Str) : Nat → List Str → List Nat → List Str → List Str
  | i, k' :: ks, c :: rs, t :: ts => (if i = s ∧ k' = k then text else t) :: retext s k text c ks rs ts
  | _, _, _, _ => []

/-- From the step `i`, when the child of `s` under `k` is `q`, called `text`: the attributes `ks` lead through the
steps `rs`, with the texts `ts`. -/
inductive Grafted (σ : PsState) (s : Nat) (k : Str) (q : Nat) (text : Str) : Nat → List Str → List Nat → List Str → Prop
  | nil (i) : Grafted σ s k q text i [] [] []
  | here (ks rs ts) : Grafted σ s k q text q ks rs ts → Grafted σ s k q text s (k :: ks) (q :: rs) (text :: ts)
  | other (i k' c t ks rs ts) : ¬ (i = s ∧ k' = k) → Edge σ i k' c → textOf σ c = some t →
      Grafted σ s k q text c ks rs ts → Grafted σ s k q text i (k' :: ks) (c :: rs) (t :: ts)

end Spec
