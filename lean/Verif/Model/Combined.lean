import Verif.Model.Visitor
/-
Model of a validation by `PandelVisitor` (`pandalone/pandata.py:317-477`) with the keywords of *jsonschema* that combine schemas, refer to
schemas and select properties by patterns. See `Model/Visitor` for the other keywords, one by one; here those that only look at the
instance are any predicate.
-/
namespace Model
open Py

mutual
/-- A schema: its keywords in order, whether its type lets nulls in, and what it says to the schema around it. -/
inductive CSchema
  | mk (kws : List CKw) (nullable : Bool) (default : Option Doc) (autoDefault autoDefaultNull autoRemoveNull : Option Bool)
/-- A keyword. -/
inductive CKw
  /-- any keyword that only looks at the instance -/
  | check (p : Doc → Bool)
  | properties (ps : List (Str × CSchema))
  /-- `patternProperties` for one pattern, or `additionalProperties`: the properties with such names are asked to be like that -/
  | keyed (sel : Str → Bool) (s : CSchema)
  | items (s : CSchema)
  | allOf (ss : List CSchema)
  | anyOf (ss : List CSchema)
  | oneOf (ss : List CSchema)
  | not (s : CSchema)
  /-- `if`, `then` and `else` -/
  | cond (c t e : CSchema)
  /-- `$ref`, which must be the only keyword -/
  | ref (name : Str)
end

def CSchema.kws : CSchema → List CKw | .mk k _ _ _ _ _ => k
def CSchema.default : CSchema → Option Doc | .mk _ _ d _ _ _ => d

/-- What the rule on defaults looks at in the schema of a property. -/
def CSchema.head : CSchema → PSchema
  | .mk _ n d a b c => .mk d a b c (if n then .one "null".toList else .none) []

/-- What is reported. -/
inductive CErr
  | failed
  | noAlternative
  | manyAlternatives
  | excluded
  | inside (k : Str) (e : CErr)
  | item (i : Nat) (e : CErr)

/-- How far a validation got: the instance, the errors so far, and the exception that ended it, if any. -/
structure Res where
  doc : Doc
  errs : List CErr
  raised : Option PyErr

/-- One thing after the other. A lazy validation (`is_valid`, `validate` of *jsonschema*) goes no further than the first error. -/
def andThen (lazy : Bool) (r : Res) (next : Doc → Res) : Res :=
  if r.raised.isSome || (lazy && !r.errs.isEmpty) then r
  else
    let q := next r.doc
    ⟨q.doc, r.errs ++ q.errs, q.raised⟩

/-- A loop. -/
def runAll {α : Type} (lazy : Bool) (body : α → Doc → Res) : List α → Doc → Res
  | [], d => ⟨d, [], none⟩
  | a :: as, d => andThen lazy (body a d) (runAll lazy body as)

/-- `validator.descend(instance[k], ..., path=k)`, if there is such a key. -/
def atKey (k : Str) (visit : Doc → Res) (d : Doc) : Res :=
  match d with
  | .dict kvs => match dget kvs k with
    | some v =>
      let r := visit v
      ⟨.dict (dset kvs k r.doc), r.errs.map (.inside k), r.raised⟩
    | none => ⟨d, [], none⟩
  | _ => ⟨d, [], none⟩

/-- `validator.descend(instance[i], ..., path=i)`. -/
def atItem (i : Nat) (visit : Doc → Res) (d : Doc) : Res :=
  match d with
  | .list xs => match xs[i]? with
    | some v =>
      let r := visit v
      ⟨.list (xs.set i r.doc), r.errs.map (.item i), r.raised⟩
    | none => ⟨d, [], none⟩
  | _ => ⟨d, [], none⟩

/-- The rule `anyOf` of *jsonschema*: each alternative is run to its end, until one has no errors. -/
def anyOfRun (visit : Bool → CSchema → Doc → Res) : List CSchema → Doc → Res
  | [], d => ⟨d, [.noAlternative], none⟩
  | s :: ss, d =>
    let r := visit false s d
    if r.raised.isSome then ⟨r.doc, [], r.raised⟩
    else if r.errs.isEmpty then ⟨r.doc, [], none⟩
    else anyOfRun visit ss r.doc

/-- The rest of the rule `oneOf`: whether the others are valid as well, each asked with `is_valid`. -/
def othersRun (visit : Bool → CSchema → Doc → Res) (found : Bool) : List CSchema → Doc → Res
  | [], d => ⟨d, if found then [.manyAlternatives] else [], none⟩
  | s :: ss, d =>
    let r := visit true s d
    if r.raised.isSome then ⟨r.doc, [], r.raised⟩
    else othersRun visit (found || r.errs.isEmpty) ss r.doc

/-- The rule `oneOf` of *jsonschema*. -/
def oneOfRun (visit : Bool → CSchema → Doc → Res) : List CSchema → Doc → Res
  | [], d => ⟨d, [.noAlternative], none⟩
  | s :: ss, d =>
    let r := visit false s d
    if r.raised.isSome then ⟨r.doc, [], r.raised⟩
    else if r.errs.isEmpty then othersRun visit false ss r.doc
    else oneOfRun visit ss r.doc

/-- The loop on defaults, see `fillProps`. -/
def fillC (f : VFlags) (ps : List (Str × CSchema)) (kvs : List (Str × Doc)) : List (Str × Doc) :=
  if f.autoDefault.getD false || f.autoDefaultNulls.getD false || f.autoRemoveNulls.getD false then
    autoDefaultLoop f.toAutoFlags kvs (ps.map (fun p => (p.1, p.2.head)))
  else kvs

/-- One keyword: those of *jsonschema*, and `_rule_auto_defaults_properties`, `pandalone/pandata.py:263-303`. -/
def kwRun (f : VFlags) (defs : Str → Option CSchema) (visit : Bool → CSchema → Doc → Res) (lazy : Bool) : CKw → Doc → Res
  | .check p, d => ⟨d, if p d then [] else [.failed], none⟩
  | .properties ps, d => match d with
    | .dict kvs => runAll lazy (fun p => atKey p.1 (visit lazy p.2)) ps (.dict (fillC f ps kvs))
    | d => ⟨d, [], none⟩
  | .keyed sel s, d => match d with
    | .dict kvs => runAll lazy (fun k => atKey k (visit lazy s)) ((dkeys kvs).filter sel) d
    | d => ⟨d, [], none⟩
  | .items s, d => match d with
    | .list xs => runAll lazy (fun i => atItem i (visit lazy s)) (List.range xs.length) d
    | d => ⟨d, [], none⟩
  | .allOf ss, d => runAll lazy (fun s => visit lazy s) ss d
  | .anyOf ss, d => anyOfRun visit ss d
  | .oneOf ss, d => oneOfRun visit ss d
  | .not s, d =>
    let r := visit true s d
    ⟨r.doc, if r.raised.isNone && r.errs.isEmpty then [.excluded] else [], r.raised⟩
  | .cond c t e, d =>
    let r := visit true c d
    if r.raised.isSome then ⟨r.doc, [], r.raised⟩
    else if r.errs.isEmpty then visit lazy t r.doc
    else visit lazy e r.doc
  | .ref name, d => match defs name with
    | some s => visit lazy s d
    | none => ⟨d, [], some .refResolution⟩

/-- A validation, lazy or run to its end (`iter_errors` of *jsonschema*). `n` is the recursion limit, `defs` what references refer to. -/
def visitC (f : VFlags) (defs : Str → Option CSchema) : Nat → Bool → CSchema → Doc → Res
  | 0, _, _, d => ⟨d, [], some .recursionError⟩
  | n + 1, lazy, s, d => runAll lazy (kwRun f defs (visitC f defs n) lazy) s.kws d

/-- The model-maker with these two schemas: `Pandel._get_model_validator`, `pandalone/pandata.py:870-877`, `_prevalidate` and `_validate`,
lines 939-957, and no curation. -/
def combinedMaker (f : VFlags) (defs : Str → Option CSchema) (n : Nat) (pre post : CSchema) : Maker CErr :=
  ⟨fun isPre d => let r := visitC f defs n false (if isPre then pre else post) d; ⟨r.errs, r.raised, r.doc⟩, []⟩

end Model
