import Verif.Spec.Pstep
/-
Model of the schemas of path-steps, `Pstep._schema` of `pandalone/mappings.py` and `JSchema` of `pandalone/pandata.py`.
-/
namespace Model
open Py

/-- Steps with their schemas: for each step the `JSchema` object in its attributes, if any, and for each of these objects the attributes
that have been set (its `vars()`). -/
structure SchState where
  ps : PsState
  ofStep : List (Option Nat)
  schemas : List (List (Str × Doc))

/-- Whose attributes a new step takes over, `pandalone/mappings.py:1058-1070`: `_clone_attrs(maps)` copies `vars()`, and with it the
reference to the schema, for a step whose text is not empty. -/
def clonedFrom (σ : PsState) : Maps → Option Nat
  | .step e => match σ.steps[e]? with
    | some o => if o.name = [] then none else some e
    | none => none
  | _ => none

/-- The child under an attribute. -/
def childOf (σ : PsState) (s : Nat) (attr : Str) : Option Nat :=
  match σ.steps[s]? with
  | some o => dget (σ.kids o) attr
  | none => none

/-- Which step is copied by an operation on steps: `Pstep(…, maps=step)`, and assigning to an attribute, `pandalone/mappings.py:1084-1099`:
a text copies the child that was there, a step is copied itself. Reading an attribute copies none. -/
def copiedBy (σ : PsState) : Spec.StepOp → Option Nat
  | .new _ maps _ _ => clonedFrom σ maps
  | .assignText s attr _ => (childOf σ s attr).bind (fun c => clonedFrom σ (.step c))
  | .assignStep _ _ v => clonedFrom σ (.step v)
  | _ => none

/-- The schema of a step, if there is one. -/
def SchState.schemaOf (st : SchState) (s : Nat) : Option Nat := (st.ofStep[s]?).getD none

/-- An operation on steps: a step that it makes has the schema of the one it is copied from. -/
def SchState.onSteps (F : Nat) (E : RegexLib) (st : SchState) (op : Spec.StepOp) : SchState :=
  let ps := op.apply F E st.ps
  { st with
    ps := ps
    ofStep := if ps.steps.length = st.ps.steps.length then st.ofStep
      else st.ofStep ++ [(copiedBy st.ps op).bind st.schemaOf] }

/-- `pandalone/mappings.py:1307-1309` `_schema_exists()`. -/
def SchState.exists (st : SchState) (s : Nat) : Bool := (st.schemaOf s).isSome

/-- `pandalone/mappings.py:1293-1305` `_schema`: made when asked for. -/
def SchState.ask (st : SchState) (s : Nat) : SchState × Nat :=
  match st.schemaOf s with
  | some j => (st, j)
  | none => ({ st with ofStep := st.ofStep.set s (some st.schemas.length), schemas := st.schemas ++ [[]] }, st.schemas.length)

/-- `step._schema.attr = v`, for any attribute: `pandalone/pandata.py:1359-1390` the class has no check of names. -/
def SchState.write (st : SchState) (s : Nat) (attr : Str) (v : Doc) : SchState :=
  let (st1, j) := st.ask s
  { st1 with schemas := st1.schemas.set j (dset ((st1.schemas[j]?).getD []) attr v) }

/-- `step._schema.todict()`, `pandalone/pandata.py:1392-1393`: the attributes set; `_NONE` cannot be written by users. -/
def SchState.todict (st : SchState) (s : Nat) : SchState × List (Str × Doc) :=
  let (st1, j) := st.ask s
  (st1, (st1.schemas[j]?).getD [])

end Model
