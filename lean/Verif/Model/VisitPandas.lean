import Verif.Model.Visitor
import Verif.Model.SeriesMerge
/-
Model of a validation by `PandelVisitor` (`pandalone/pandata.py:317-477`) of documents that hold *pandas* and *numpy* objects, with
`auto_default=False`, so that the rule on defaults is not installed (lines 450-457) and nothing is changed.

Simplifications: as in `Model/Visitor`; a Series and an array hold scalars, an array has one dimension; the NaNs are those that count
as null (see `Model/PyTypes` for the others).
-/
namespace Model
open Py

/-- A scalar. -/
inductive Scal
  | null
  | bool (b : Bool)
  | int (i : Int)
  | atom (t : Nat)
  | str (s : Str)
  deriving DecidableEq

/-- The scalar as a document. -/
def Scal.doc : Scal → Doc
  | .null => .null
  | .bool b => .bool b
  | .int i => .int i
  | .atom t => .atom t
  | .str s => .str s

/-- A document that may hold *numpy* scalars and arrays, Series and DataFrames (columns and an index in common). `numeric` says
whether the values are kept as numbers: `np.isnan` raises for anything else. -/
inductive PDoc
  | scal (np : Bool) (x : Scal)
  | list (xs : List PDoc)
  | dict (kvs : List (Str × PDoc))
  | arr (numeric : Bool) (xs : List Scal)
  | series (numeric : Bool) (es : List (Label × Scal))
  | frame (index : List Label) (cols : List (Label × Bool × List Scal))

/-- `_is_object`, `pandalone/pandata.py:157-158`: `Series` and `DataFrame` are registered as mappings, lines 148-149. -/
def PDoc.isObject : PDoc → Bool
  | .dict _ => true
  | .series _ _ => true
  | .frame _ _ => true
  | _ => false

/-- `_is_array`, `pandalone/pandata.py:151-154`: `Series` is registered as a sequence, line 147. -/
def PDoc.isArray : PDoc → Bool
  | .list _ => true
  | .arr _ _ => true
  | .series _ _ => true
  | _ => false

/-- `_is_null`, `pandalone/pandata.py:173-185`: just one value, which is NaN. -/
def PDoc.isNull (nan : Nat → Bool) : PDoc → Bool
  | .scal _ .null => true
  | .scal _ (.atom t) => nan t
  | .arr true [.atom t] => nan t
  | .series true [(_, .atom t)] => nan t
  | .frame _ [(_, true, [.atom t])] => nan t
  | _ => false

/-- The type checks, `pandalone/pandata.py:462-473`, and those of *jsonschema* for texts and numbers. -/
def VFlags.isPType (f : VFlags) : JType → PDoc → Bool
  | .object, d => d.isObject
  | .array, d => d.isArray
  | .null, d => d.isNull f.nan
  | .string, .scal _ (.str _) => true
  | .boolean, .scal _ (.bool _) => true
  | .integer, .scal _ (.int _) => true
  | .number, .scal _ (.int _) => true
  | .number, .scal _ (.atom t) => f.num t
  | _, _ => false

/-- `instance.keys()`. -/
def PDoc.keys : PDoc → List Label
  | .dict kvs => (dkeys kvs).map .name
  | .series _ es => es.map (·.1)
  | .frame _ cols => cols.map (·.1)
  | _ => []

/-- A column of a DataFrame: a Series with the index of the DataFrame. -/
def columnOf (index : List Label) (numeric : Bool) (xs : List Scal) : PDoc := .series numeric (index.zip xs)

/-- `instance[key]` where `key in instance`, else `none`: a value of a Series is a *numpy* scalar. A label that is there more than once gives
all that it labels. -/
def PDoc.get (d : PDoc) (k : Label) : Option PDoc :=
  match d with
  | .dict kvs => match k with
    | .name s => dget kvs s
    | .pos _ => none
  | .series numeric es => match es.filter (fun e => e.1 == k) with
    | [] => none
    | [e] => some (.scal true e.2)
    | es => some (.series numeric es)
  | .frame index cols => match cols.filter (fun c => c.1 == k) with
    | [] => none
    | [c] => some (columnOf index c.2.1 c.2.2)
    | cs => some (.frame index cs)
  | _ => none

/-- The items, as a loop over the instance finds them: a Series gives Python scalars and an array those of *numpy*. -/
def PDoc.elems : PDoc → List PDoc
  | .list xs => xs
  | .arr _ xs => xs.map (.scal true)
  | .series _ es => es.map (fun e => .scal false e.2)
  | _ => []

mutual
/-- The document, if there are no arrays, Series or DataFrames in it. -/
def PDoc.plain : PDoc → Option Doc
  | .scal _ x => some x.doc
  | .list xs => (plainList xs).map .list
  | .dict kvs => (plainItems kvs).map .dict
  | _ => none
def plainList : List PDoc → Option (List Doc)
  | [] => some []
  | x :: xs => match x.plain, plainList xs with
    | some y, some ys => some (y :: ys)
    | _, _ => none
def plainItems : List (Str × PDoc) → Option (List (Str × Doc))
  | [] => some []
  | (k, x) :: xs => match x.plain, plainItems xs with
    | some y, some ys => some ((k, y) :: ys)
    | _, _ => none
end

/-- `rule_enum`, `pandalone/pandata.py:306-314`: whether the instance passes. A *numpy* number `is` neither 0 nor 1. `none`: the truth of
an elementwise comparison is asked, and *pandas* raises. Simplified: it does so for whatever holds such an object. -/
def PDoc.ruleEnum (vs : List Doc) (d : PDoc) : Option Bool :=
  match d with
  | .scal true x => some (vs.any (pyEq x.doc))
  | d => match d.plain with
    | some e => some (Model.ruleEnum vs e)
    | none => if vs.isEmpty then some false else none

/-- What is reported. -/
inductive PvErr
  | wrongType
  | missing (k : Str)
  | unexpected (ks : List Label)
  | notListed
  | inside (k : Label) (e : PvErr)
  | item (i : Nat) (e : PvErr)
  | name (k : Label) (e : PvErr)

/-- A label as an instance. -/
def Label.asDoc : Label → PDoc
  | .name s => .scal false (.str s)
  | .pos n => .scal false (.int n)

/-- The errors of one and then of the other, if neither raises. -/
def bothErrs {α : Type} (a b : Option (List α)) : Option (List α) :=
  match a, b with
  | some x, some y => some (x ++ y)
  | _, _ => none

/-- The errors of visiting one thing after the other. -/
def inTurn {α β : Type} (w : α → Option (List β)) : List α → Option (List β)
  | [] => some []
  | x :: xs => bothErrs (w x) (inTurn w xs)

/-- The errors of visiting all items, `i` being the position of the first one. -/
def itemsInTurn (w : PDoc → Option (List PvErr)) (i : Nat) : List PDoc → Option (List PvErr)
  | [] => some []
  | x :: xs => bothErrs ((w x).map (·.map (.item i))) (itemsInTurn w (i + 1) xs)

/-- `_find_additional_properties`, `pandalone/pandata.py:188-205`, without patterns, and line 212: the labels that are not properties. -/
def PDoc.extras (props : List Str) (d : PDoc) : List Label :=
  (d.keys.filter (fun k => match k with | .name s => !props.contains s | .pos _ => true)).eraseDups

mutual
/-- A validation: the errors (`iter_errors` of *jsonschema*, run to its end), or `none` if it raises. -/
def pvisit (f : VFlags) : VSchema → PDoc → Option (List PvErr)
  | .mk kws _ _ _ _, d => pvisitKws f (propNames kws) kws d
/-- The loop over the keywords; `props` are the properties of the schema. -/
def pvisitKws (f : VFlags) (props : List Str) : List VKw → PDoc → Option (List PvErr)
  | [], _ => some []
  | kw :: t, d => bothErrs (pvisitKw f props kw d) (pvisitKws f props t d)
/-- One keyword: those of *jsonschema*, and `_rule_additionalProperties` and `_rule_propertyNames`, `pandalone/pandata.py:208-244`. -/
def pvisitKw (f : VFlags) (props : List Str) : VKw → PDoc → Option (List PvErr)
  | .type ts, d => some (if ts.any (fun t => f.isPType t d) then [] else [.wrongType])
  | .properties ps, d => if d.isObject then pvisitOwn f ps d else some []
  | .required ns, d => some (if d.isObject then (ns.filter (fun n => (d.get (.name n)).isNone)).map .missing else [])
  | .additional b, d => some (if d.isObject && !b && !(d.extras props).isEmpty then [.unexpected (d.extras props)] else [])
  | .additionalS s, d => if d.isObject then
      inTurn (fun k => match d.get k with
        | none => some []
        | some v => (pvisit f s v).map (·.map (.inside k))) (d.extras props)
    else some []
  | .propertyNames s, d => if d.isObject then inTurn (fun k => (pvisit f s k.asDoc).map (·.map (.name k))) d.keys else some []
  | .enum vs, d => (d.ruleEnum vs).map (fun b => if b then [] else [.notListed])
  | .items s, d => if d.isArray then itemsInTurn (fun v => pvisit f s v) 0 d.elems else some []
/-- The rule `properties` of *jsonschema*. -/
def pvisitOwn (f : VFlags) : List (Str × VSchema) → PDoc → Option (List PvErr)
  | [], _ => some []
  | (p, s) :: t, d => bothErrs (match d.get (.name p) with
      | none => some []
      | some v => (pvisit f s v).map (·.map (.inside (.name p)))) (pvisitOwn f t d)
end

end Model
