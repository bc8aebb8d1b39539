import Verif.Model.Basic
/-
Model of the building of unified models and of the validation rules of `pandalone/pandata.py`.
-/
namespace Model
open Py

/-! ### Merging submodels -/

mutual
/-- `Pandel._clone_and_merge_submodels(x, None)`, `pandalone/pandata.py:879-932` when there is nothing to
merge into `x`: a dictionary is copied without descending, a list item by item, a lone `None` is an
error. pandas objects are not modelled. -/
def cloneDoc : Doc → Except PyErr Doc
  | .null => .error .validationError
  | .bool b => .ok (.bool b)
  | .int i => .ok (.int i)
  | .atom t => .ok (.atom t)
  | .str s => .ok (.str s)
  | .dict kvs => .ok (.dict kvs)
  | .list xs => match cloneItems xs with
    | .error e => .error e
    | .ok ys => .ok (.list ys)
/-- The loop over the items of a list, `pandalone/pandata.py:916-922`. -/
def cloneItems : List Doc → Except PyErr (List Doc)
  | [] => .ok []
  | x :: xs => match cloneDoc x with
    | .error e => .error e
    | .ok y => match cloneItems xs with
      | .error e => .error e
      | .ok ys => .ok (y :: ys)
end

/-- `{} if a is None else {**a}`, `pandalone/pandata.py:897-898`; `{**a}` is a `TypeError` unless `a` is a
dictionary. -/
def dictOrEmpty : Doc → Except PyErr (List (Str × Doc))
  | .null => .ok []
  | .dict kvs => .ok kvs
  | _ => .error .typeError

mutual
/-- `Pandel._clone_and_merge_submodels(a, b)`, `pandalone/pandata.py:879-932`, by what `b` is. A string
given over a list is walked like a list (line 919). Identity is abstracted away here: see
`Model.PandelHeap`. -/
def mergeDoc (a : Doc) : Doc → Except PyErr Doc
  | .null => cloneDoc a
  | .dict bs => match dictOrEmpty a with
    | .error e => .error e
    | .ok as => match mergeItems as bs with
      | .error e => .error e
      | .ok cs => .ok (.dict cs)
  | .list ys => match a with
    | .dict _ => .error .typeError
    | _ => match cloneItems ys with
      | .error e => .error e
      | .ok zs => .ok (.list zs)
  | .str s => match a with
    | .dict _ => .error .typeError
    | .list _ => .ok (.list (s.map (fun c => .str [c])))
    | _ => .ok (.str s)
  | .bool x => mergeScalar a (.bool x)
  | .int x => mergeScalar a (.int x)
  | .atom x => mergeScalar a (.atom x)
/-- The loop `for key in b`, `pandalone/pandata.py:900-908`. -/
def mergeItems (as : List (Str × Doc)) : List (Str × Doc) → Except PyErr (List (Str × Doc))
  | [] => .ok as
  | (key, bval) :: t =>
    let val : Except PyErr Doc := match dget as key with
      | some aval => mergeDoc aval bval
      | none => .ok bval
    match val with
    | .error e => .error e
    | .ok v => mergeItems (dset as key v) t
/-- A scalar over `a`, `pandalone/pandata.py:910-930`: dictionaries and lists do not mix with it. -/
def mergeScalar (a b : Doc) : Except PyErr Doc :=
  match a with
  | .dict _ => .error .typeError
  | .list _ => .error .typeError
  | _ => .ok b
end

/-- The loop of `Pandel._merge`, `pandalone/pandata.py:948-949`, with the model so far if it raises. -/
def mergeAll (model : Doc) : List Doc → Doc × Option PyErr
  | [] => (model, none)
  | d :: ds => match mergeDoc model d with
    | .error e => (model, some e)
    | .ok m => mergeAll m ds

/-! ### Building -/

/-- What one validation does: the errors it yields, the exception that ends it if any, and the
document after it (validation may fill in defaults). -/
structure Validation (V : Type) where
  errs : List V
  raised : Option PyErr
  after : Doc

/-- A concrete model-maker: its validator and its curation functions. `V` are the validation errors.
A curation function may change the model, and raise. -/
structure Maker (V : Type) where
  validator : (isPrevalidation : Bool) → Doc → Validation V
  curators : List (Doc → Doc × Option PyErr)

/-- What `build_iter` yields. -/
inductive BuildErr (V : Type)
  /-- an error yielded by a step -/
  | found (step : Nat) (v : V)
  /-- a `ValidationError` raised by a step -/
  | invalid (step : Nat)
  /-- "Model step-i failed due to" -/
  | failed (step : Nat) (e : PyErr)
  /-- "Gave-up building model after step i" -/
  | gaveUp (step : Nat)

/-- The attributes `model` and `_submodel_tuples`. -/
structure BState where
  model : Doc
  subs : List Doc

/-- What a step does: the errors yielded, the exception that ended it, and the state after. -/
structure StepOut (V : Type) where
  errs : List V
  raised : Option PyErr
  st : BState

/-- `Pandel._prevalidate`, `pandalone/pandata.py:939-944`, on the submodels. -/
def prevalidateAll {V : Type} (check : Doc → Validation V) : List Doc → List V × Option PyErr × List Doc
  | [] => ([], none, [])
  | d :: ds =>
    let r := check d
    match r.raised with
    | some e => (r.errs, some e, r.after :: ds)
    | none =>
      let q := prevalidateAll check ds
      (r.errs ++ q.1, q.2.1, r.after :: q.2.2)

/-- The loop of `Pandel._curate`, `pandalone/pandata.py:963-964`. -/
def curateAll (m : Doc) : List (Doc → Doc × Option PyErr) → Doc × Option PyErr
  | [] => (m, none)
  | c :: cs => match c m with
    | (m', some e) => (m', some e)
    | (m', none) => curateAll m' cs

/-- The four steps, `pandalone/pandata.py:939-964`. -/
def buildSteps {V : Type} (mk : Maker V) : List (BState → StepOut V) :=
  [fun s => let r := prevalidateAll (mk.validator true) s.subs
     ⟨r.1, r.2.1, ⟨s.model, r.2.2⟩⟩,
   fun s => let r := mergeAll s.model s.subs
     ⟨[], r.2, ⟨r.1, s.subs⟩⟩,
   fun s => let r := mk.validator false s.model
     ⟨r.errs, r.raised, ⟨r.after, s.subs⟩⟩,
   fun s => let r := curateAll s.model mk.curators
     ⟨[], r.2, ⟨r.1, s.subs⟩⟩]

/-- `pandalone/pandata.py:1006-1022`: the exception that ended a step, as yielded. -/
def raisedErr {V : Type} (i : Nat) : Option PyErr → List (BuildErr V)
  | none => []
  | some .validationError => [.invalid i]
  | some e => [.failed i e]

/-- The loop of `Pandel.build_iter`, `pandalone/pandata.py:1005-1028`: all that is yielded, the state
after, and the numbers of the steps started. `_errored` is set exactly when a step yields an error or
raises. -/
def buildLoop {V : Type} (i : Nat) (s : BState) : List (BState → StepOut V) → List (BuildErr V) × BState × List Nat
  | [] => ([], s, [])
  | step :: steps =>
    let r := step s
    let ys := r.errs.map (.found i) ++ raisedErr i r.raised
    match ys with
    | [] =>
      let q := buildLoop (i + 1) r.st steps
      (q.1, q.2.1, i :: q.2.2)
    | _ => (ys ++ [.gaveUp i], r.st, [i])

/-- `Pandel.build_iter`, `pandalone/pandata.py:988-1028`, run to its end. -/
def buildIter {V : Type} (mk : Maker V) (subs : List Doc) : List (BuildErr V) × BState × List Nat :=
  buildLoop 1 ⟨.null, subs⟩ (buildSteps mk)

/-- `Pandel.build`, `pandalone/pandata.py:1030-1041`: the first error of `build_iter`, else the model.
The generator is not run any further after its first error, which makes no difference for the result. -/
def build {V : Type} (mk : Maker V) (subs : List Doc) : Except (BuildErr V) Doc :=
  match (buildIter mk subs).1 with
  | e :: _ => .error e
  | [] => .ok (buildIter mk subs).2.1.model

/-! ### Additional properties -/

/-- `_find_additional_properties`, `pandalone/pandata.py:188-205`: `search` is `re.search` as a truth
value. -/
def findAdditional (search : Str → Str → Bool) (properties patterns keys : List Str) : List Str :=
  let pats := join ['|'] patterns
  keys.filter (fun k => !properties.contains k && !(!pats.isEmpty && search pats k))

/-- The value of `additionalProperties`: a schema, or anything else by its truth value. -/
inductive AddProps (Sch : Type)
  | schema (s : Sch)
  | flag (b : Bool)

/-- What the rule yields: errors of descending, or the error about unexpected keys. -/
inductive AddErr (V : Type)
  | inside (key : Str) (v : V)
  | unexpected (keys : List Str)

/-- `_rule_additionalProperties`, `pandalone/pandata.py:208-235`. `descend` gives the errors of
validating a value with a schema. The set of extras is visited in the order of the keys here. -/
def ruleAdditional {V Sch : Type} (search : Str → Str → Bool) (descend : Doc → Sch → List V)
    (aP : AddProps Sch) (instance_ : Doc) (properties patterns : List Str) : List (AddErr V) :=
  match instance_ with
  | .dict kvs =>
    let extras := findAdditional search properties patterns (dkeys kvs)
    match aP with
    | .schema s => extras.flatMap (fun k => (descend ((dget kvs k).getD .null) s).map (.inside k))
    | .flag true => []
    | .flag false => if extras.isEmpty then [] else [.unexpected extras]
  | _ => []

/-! ### Automatic defaults -/

/-- The value of the keyword `type`. -/
inductive TypeKw
  | none
  | one (t : Str)
  | many (ts : List Str)

/-- `_is_null_in_type`, `pandalone/pandata.py:247-252`. -/
def isNullInType : TypeKw → Bool
  | .none => false
  | .one t => t == "null".toList
  | .many ts => ts.contains "null".toList

/-- `first_defined(v, default)`, `pandalone/pandata.py:255-260`, on tri-state flags, as a truth value. -/
def firstDefined (v dflt : Option Bool) : Bool :=
  match v with
  | some b => b
  | none => dflt.getD false

/-- The keywords of a schema that the rule looks at, with the sub-schemas of its properties. -/
inductive PSchema
  | mk (default : Option Doc) (autoDefault autoDefaultNull autoRemoveNull : Option Bool) (type : TypeKw)
      (properties : List (Str × PSchema))

def PSchema.default : PSchema → Option Doc | .mk d _ _ _ _ _ => d
def PSchema.autoDefault : PSchema → Option Bool | .mk _ a _ _ _ _ => a
def PSchema.autoDefaultNull : PSchema → Option Bool | .mk _ _ a _ _ _ => a
def PSchema.autoRemoveNull : PSchema → Option Bool | .mk _ _ _ a _ _ => a
def PSchema.type : PSchema → TypeKw | .mk _ _ _ _ t _ => t
def PSchema.properties : PSchema → List (Str × PSchema) | .mk _ _ _ _ _ p => p

/-- The arguments of `PandelVisitor`, and which opaque values are NaNs that count as null. -/
structure AutoFlags where
  autoDefault : Option Bool
  autoDefaultNulls : Option Bool
  autoRemoveNulls : Option Bool
  nan : Nat → Bool

/-- `_is_null`, `pandalone/pandata.py:173-185`. -/
def AutoFlags.isNull (f : AutoFlags) : Doc → Bool
  | .null => true
  | .atom t => f.nan t
  | _ => false

/-- The body of the loop of `_rule_auto_defaults_properties`, `pandalone/pandata.py:279-300`, for one
property. -/
def autoDefaultStep (f : AutoFlags) (kvs : List (Str × Doc)) (property : Str) (sub : PSchema) :
    List (Str × Doc) :=
  let given := dget kvs property
  let null := match given with
    | some v => f.isNull v
    | none => false
  let notNullable := !isNullInType sub.type
  let fill := (firstDefined sub.autoDefault f.autoDefault && given.isNone) ||
    (firstDefined sub.autoDefaultNull f.autoDefaultNulls && notNullable && null)
  let remove := firstDefined sub.autoRemoveNull f.autoRemoveNulls && notNullable && null
  match sub.default, fill with
  | some d, true => dset kvs property d
  | _, _ => if remove then ddel kvs property else kvs

/-- The loop, `pandalone/pandata.py:279`. -/
def autoDefaultLoop (f : AutoFlags) (kvs : List (Str × Doc)) : List (Str × PSchema) → List (Str × Doc)
  | [] => kvs
  | (p, s) :: ps => autoDefaultLoop f (autoDefaultStep f kvs p s) ps

mutual
/-- `_rule_auto_defaults_properties`, `pandalone/pandata.py:263-303`, with the original rule of
*jsonschema* that descends into the properties that are there: the instance after it. Objects that are
reached through other keywords of a schema are not modelled. -/
def autoDefaults (f : AutoFlags) : PSchema → Doc → Doc
  | .mk _ _ _ _ _ props, inst => match inst with
    | .dict kvs => .dict (autoDescend f props (autoDefaultLoop f kvs props))
    | d => d
/-- The rule `properties` of *jsonschema*, as to what happens to the instance. -/
def autoDescend (f : AutoFlags) : List (Str × PSchema) → List (Str × Doc) → List (Str × Doc)
  | [], kvs => kvs
  | (p, s) :: ps, kvs => autoDescend f ps (match dget kvs p with
    | some v => dset kvs p (autoDefaults f s v)
    | none => kvs)
end

/-- `PandelVisitor`, `pandalone/pandata.py:450-457`: the rule is installed only if one of the arguments
is set, whatever the schema says. -/
def pandelDefaults (f : AutoFlags) (s : PSchema) (inst : Doc) : Doc :=
  if f.autoDefault.getD false || f.autoDefaultNulls.getD false || f.autoRemoveNulls.getD false then
    autoDefaults f s inst
  else inst

end Model
