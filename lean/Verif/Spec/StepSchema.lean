import Verif.Model.StepSchema
/-
What can be done with steps and their schemas.
-/
namespace Spec
open Py Model

/-- Operations on steps, and on the schemas of steps. -/
inductive SchOp
  | steps (op : StepOp)
  | check (s : Nat)
  | read (s : Nat)
  | write (s : Nat) (attr : Str) (v : Doc)

/-- The state after an operation. -/
def SchOp.apply (F : Nat) (E : RegexLib) (st : SchState) : SchOp → SchState
  | .steps op => st.onSteps F E op
  | .check _ => st
  | .read s => (st.todict s).1
  | .write s attr v => st.write s attr v

/-- The operation copies the step: one given to the constructor, the child that is renamed, or one assigned to an attribute; their texts are
not empty. -/
inductive Copies (σ : PsState) : StepOp → Nat → Prop
  | given (pname : Str) (e : Nat) (alias : Option Str) (tags : List Str) (t : Str) : textOf σ e = some t → t ≠ [] →
      Copies σ (.new pname (.step e) alias tags) e
  | renamed (s : Nat) (k text : Str) (c : Nat) (t : Str) : Edge σ s k c → textOf σ c = some t → t ≠ [] →
      Copies σ (.assignText s k text) c
  | assigned (s : Nat) (k : Str) (v : Nat) (t : Str) : textOf σ v = some t → t ≠ [] → Copies σ (.assignStep s k v) v

/-- The operation makes a step. -/
def Makes (F : Nat) (E : RegexLib) (σ : PsState) (op : StepOp) : Prop := (op.apply F E σ).steps.length ≠ σ.steps.length

/-- The states that operations lead to, from no steps at all, with the pairs of steps (copied, copy) so far, and the steps that have been
asked for their schema or are copies of such. -/
inductive SchReach (F : Nat) (E : RegexLib) : SchState → List (Nat × Nat) → List Nat → Prop
  | start (pmods : List PmodObj) : SchReach F E ⟨⟨pmods, [], []⟩, [], []⟩ [] []
  | copy {st : SchState} {cs : List (Nat × Nat)} {had : List Nat} (op : StepOp) (src : Nat) : SchReach F E st cs had →
      Copies st.ps op src → Makes F E st.ps op →
      SchReach F E (SchOp.apply F E st (.steps op)) ((src, st.ps.steps.length) :: cs)
        (if src ∈ had then st.ps.steps.length :: had else had)
  | fresh {st : SchState} {cs : List (Nat × Nat)} {had : List Nat} (op : StepOp) : SchReach F E st cs had →
      ((∃ src, Copies st.ps op src) → ¬ Makes F E st.ps op) → SchReach F E (SchOp.apply F E st (.steps op)) cs had
  | check {st : SchState} {cs : List (Nat × Nat)} {had : List Nat} (s : Nat) : SchReach F E st cs had →
      SchReach F E (SchOp.apply F E st (.check s)) cs had
  | read {st : SchState} {cs : List (Nat × Nat)} {had : List Nat} (s : Nat) : SchReach F E st cs had → s < st.ps.steps.length →
      SchReach F E (SchOp.apply F E st (.read s)) cs (s :: had)
  | write {st : SchState} {cs : List (Nat × Nat)} {had : List Nat} (s : Nat) (attr : Str) (v : Doc) : SchReach F E st cs had →
      s < st.ps.steps.length → SchReach F E (SchOp.apply F E st (.write s attr v)) cs (s :: had)

/-- Copies of each other, or of the same. -/
inductive Kin (cs : List (Nat × Nat)) : Nat → Nat → Prop
  | refl (a : Nat) : Kin cs a a
  | copy {a b : Nat} : (a, b) ∈ cs → Kin cs a b
  | symm {a b : Nat} : Kin cs a b → Kin cs b a
  | trans {a b c : Nat} : Kin cs a b → Kin cs b c → Kin cs a c

/-- The attributes of the schema of a step. -/
def written (st : SchState) (s : Nat) : List (Str × Doc) := (st.todict s).2

/-- The names of attributes that are documented, `pandalone/pandata.py:1374-1390`. -/
def schemaNames : List Str := ["type", "items", "required", "title", "description", "minimum", "exclusiveMinimum", "maximum",
  "exclusiveMaximum", "patternProperties", "pattern", "enum", "allOf", "oneOf", "anyOf"].map String.toList

end Spec
