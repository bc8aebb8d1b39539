import Verif.Model.Pandel
/-
Model of a whole validation by `PandelVisitor` (`pandalone/pandata.py:317-477`): the walk of *jsonschema*
through schema and instance, with the rules that pandalone replaces. Keywords run in the order in which the
schema has them (`iter_errors` of *jsonschema*), and change the instance on the way.

Simplifications: `$ref`, `patternProperties` and the keywords that combine schemas are left out; types are
those of the list; instances are trees (see `Model/PandelHeap` for sharing) without *pandas* objects (see
`Model/VisitPandas`).
-/
namespace Model
open Py

/-- The types that a schema can ask for. -/
inductive JType
  | object
  | array
  | string
  | boolean
  | integer
  | number
  | null
  deriving DecidableEq, Repr

mutual
/-- A schema: its keywords in order, and what it says to the schema around it. -/
inductive VSchema
  | mk (kws : List VKw) (default : Option Doc) (autoDefault autoDefaultNull autoRemoveNull : Option Bool)
/-- A keyword. -/
inductive VKw
  | type (ts : List JType)
  | properties (ps : List (Str × VSchema))
  | required (ns : List Str)
  | additional (b : Bool)
  | additionalS (s : VSchema)
  | propertyNames (s : VSchema)
  | enum (vs : List Doc)
  | items (s : VSchema)
end

def VSchema.kws : VSchema → List VKw | .mk k _ _ _ _ => k
def VSchema.default : VSchema → Option Doc | .mk _ d _ _ _ => d
def VSchema.autoDefault : VSchema → Option Bool | .mk _ _ a _ _ => a
def VSchema.autoDefaultNull : VSchema → Option Bool | .mk _ _ _ a _ => a
def VSchema.autoRemoveNull : VSchema → Option Bool | .mk _ _ _ _ a => a

/-- `schema.get("properties", {})`: the names. -/
def propNames : List VKw → List Str
  | [] => []
  | .properties ps :: _ => dkeys ps
  | _ :: t => propNames t

/-- `schema.get("type")`, as a list of types; the only one that is looked for is `null`. -/
def typeKw : List VKw → TypeKw
  | [] => .none
  | .type ts :: _ => .many (ts.map (fun t => match t with | .null => "null".toList | _ => []))
  | _ :: t => typeKw t

/-- What the rule on defaults looks at in the schema of a property. -/
def VSchema.head : VSchema → PSchema
  | .mk kws d a b c => .mk d a b c (typeKw kws) []

/-- The arguments of `PandelVisitor`, which opaque values are NaNs that count as null, and which are
numbers. -/
structure VFlags extends AutoFlags where
  num : Nat → Bool

/-- The type checks: `_is_array`, `_is_object`, `_is_bool`, `_is_integer`, `_is_null`,
`pandalone/pandata.py:152-185`, and those of *jsonschema* for texts and numbers. -/
def VFlags.isType (f : VFlags) : JType → Doc → Bool
  | .object, .dict _ => true
  | .array, .list _ => true
  | .string, .str _ => true
  | .boolean, .bool _ => true
  | .integer, .int _ => true
  | .number, .int _ => true
  | .number, .atom t => f.num t
  | .null, d => f.isNull d
  | _, _ => false

mutual
/-- Python's `==` on JSON-like values; `True == 1`, `False == 0`. Opaque values are equal to themselves
only. -/
def pyEq : Doc → Doc → Bool
  | .null, d => match d with | .null => true | _ => false
  | .bool a, d => match d with
    | .bool b => a == b
    | .int i => i == (if a then 1 else 0)
    | _ => false
  | .int i, d => match d with
    | .int j => i == j
    | .bool b => i == (if b then 1 else 0)
    | _ => false
  | .atom t, d => match d with | .atom u => t == u | _ => false
  | .str s, d => match d with | .str t => s == t | _ => false
  | .list xs, d => match d with | .list ys => pyEqList xs ys | _ => false
  | .dict as, d => match d with
    | .dict bs => as.length == bs.length && pyEqItems as bs
    | _ => false
def pyEqList : List Doc → List Doc → Bool
  | [], ys => ys.isEmpty
  | x :: xs, ys => match ys with
    | [] => false
    | y :: ys => pyEq x y && pyEqList xs ys
def pyEqItems : List (Str × Doc) → List (Str × Doc) → Bool
  | [], _ => true
  | (k, v) :: t, bs => (match dget bs k with
    | some w => pyEq v w
    | none => false) && pyEqItems t bs
end

/-- `jsonschema._utils.unbool(a) == unbool(b)` where `a` is the number 0 or 1: booleans are replaced by
marks of their own. -/
def unboolEq (a b : Doc) : Bool :=
  match b with
  | .bool _ => false
  | b => pyEq a b

/-- `rule_enum`, `pandalone/pandata.py:306-314`: whether the instance passes. Small integers are the same
object, so that `is 0` is true of the number zero (and not of `False`). -/
def ruleEnum (vs : List Doc) (d : Doc) : Bool :=
  match d with
  | .int 0 => vs.any (unboolEq d)
  | .int 1 => vs.any (unboolEq d)
  | d => vs.any (pyEq d)

/-- What is reported. -/
inductive VErr
  | wrongType
  | missing (k : Str)
  | unexpected (ks : List Str)
  | notListed
  | inside (k : Str) (e : VErr)
  | item (i : Nat) (e : VErr)
  | name (k : Str) (e : VErr)

/-- The loop on defaults of `_rule_auto_defaults_properties`, `pandalone/pandata.py:279-300`, if the rule is
installed (lines 450-457). -/
def fillProps (f : VFlags) (ps : List (Str × VSchema)) (kvs : List (Str × Doc)) : List (Str × Doc) :=
  if f.autoDefault.getD false || f.autoDefaultNulls.getD false || f.autoRemoveNulls.getD false then
    autoDefaultLoop f.toAutoFlags kvs (ps.map (fun p => (p.1, p.2.head)))
  else kvs

/-- Visit the values under some keys, one after the other (`pandalone/pandata.py:214-217`). -/
def visitKeys (visit : Doc → Doc × List VErr) : List Str → List (Str × Doc) → List (Str × Doc) × List VErr
  | [], kvs => (kvs, [])
  | k :: ks, kvs => match dget kvs k with
    | none => visitKeys visit ks kvs
    | some v =>
      let r := visit v
      let q := visitKeys visit ks (dset kvs k r.1)
      (q.1, r.2.map (.inside k) ++ q.2)

/-- The rule `items` of *jsonschema* for one schema. -/
def visitItems (visit : Doc → Doc × List VErr) (i : Nat) : List Doc → List Doc × List VErr
  | [] => ([], [])
  | x :: xs =>
    let r := visit x
    let q := visitItems visit (i + 1) xs
    (r.1 :: q.1, r.2.map (.item i) ++ q.2)

/-- The set of keys that are not properties: `_find_additional_properties`, `pandalone/pandata.py:188-205`,
without patterns, and line 212. The set is visited in the order of the keys here. -/
def extraKeys (props : List Str) (kvs : List (Str × Doc)) : List Str :=
  ((dkeys kvs).filter (fun k => !props.contains k)).eraseDups

mutual
/-- A validation: the instance after it, and the errors (`iter_errors` of *jsonschema*, run to its end). -/
def visit (f : VFlags) : VSchema → Doc → Doc × List VErr
  | .mk kws _ _ _ _, d => visitKws f (propNames kws) kws d
/-- The loop over the keywords; `props` are the properties of the schema. -/
def visitKws (f : VFlags) (props : List Str) : List VKw → Doc → Doc × List VErr
  | [], d => (d, [])
  | kw :: t, d =>
    let r := visitKw f props kw d
    let q := visitKws f props t r.1
    (q.1, r.2 ++ q.2)
/-- One keyword. -/
def visitKw (f : VFlags) (props : List Str) : VKw → Doc → Doc × List VErr
  | .type ts, d => (d, if ts.any (fun t => f.isType t d) then [] else [.wrongType])
  | .properties ps, d => match d with
    | .dict kvs =>
      let r := visitOwn f ps (fillProps f ps kvs)
      (.dict r.1, r.2)
    | d => (d, [])
  | .required ns, d => match d with
    | .dict kvs => (d, (ns.filter (fun n => !(dkeys kvs).contains n)).map .missing)
    | d => (d, [])
  | .additional b, d => match d with
    | .dict kvs => (d, if b || (extraKeys props kvs).isEmpty then [] else [.unexpected (extraKeys props kvs)])
    | d => (d, [])
  | .additionalS s, d => match d with
    | .dict kvs =>
      let r := visitKeys (fun v => visit f s v) (extraKeys props kvs) kvs
      (.dict r.1, r.2)
    | d => (d, [])
  | .propertyNames s, d => match d with
    | .dict kvs => (d, (dkeys kvs).flatMap (fun k => (visit f s (.str k)).2.map (.name k)))
    | d => (d, [])
  | .enum vs, d => (d, if ruleEnum vs d then [] else [.notListed])
  | .items s, d => match d with
    | .list xs =>
      let r := visitItems (fun v => visit f s v) 0 xs
      (.list r.1, r.2)
    | d => (d, [])
/-- The rule `properties` of *jsonschema*. -/
def visitOwn (f : VFlags) : List (Str × VSchema) → List (Str × Doc) → List (Str × Doc) × List VErr
  | [], kvs => (kvs, [])
  | (p, s) :: t, kvs => match dget kvs p with
    | none => visitOwn f t kvs
    | some v =>
      let r := visit f s v
      let q := visitOwn f t (dset kvs p r.1)
      (q.1, r.2.map (.inside p) ++ q.2)
end

/-- The model-maker with these two schemas: `Pandel._get_model_validator`, `pandalone/pandata.py:870-877`,
`_prevalidate` and `_validate`, lines 939-957, and no curation. -/
def schemaMaker (f : VFlags) (pre post : VSchema) : Maker VErr :=
  ⟨fun isPre d => let r := visit f (if isPre then pre else post) d; ⟨r.2, none, r.1⟩, []⟩

end Model
