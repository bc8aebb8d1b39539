import Verif.Model.Pandel
import Verif.Spec.Lasso
/-
What merging, building, additional properties and automatic defaults should do, without the functions
of the model that do it.
-/
namespace Spec
open Py Model

/-! ### Merging -/

/-- `c` is the earlier value `a` overridden by the later value `b`. -/
inductive Over : Doc → Doc → Doc → Prop
  /-- the later has nothing here -/
  | keep (a) : a ≠ .null → Over a .null a
  /-- the earlier has nothing here -/
  | first (b) : b ≠ .null → Over .null b b
  /-- two values that are no objects: the later replaces the earlier -/
  | replace (a b) : ¬ isDict a → ¬ isDict b → b ≠ .null → Over a b b
  /-- two objects: key by key -/
  | objects (as bs cs) (merged : Str → Doc) :
      (∀ k, dget bs k = none → dget cs k = dget as k) →
      (∀ k y, dget as k = none → dget bs k = some y → dget cs k = some y) →
      (∀ k x y, dget as k = some x → dget bs k = some y → dget cs k = some (merged k)) →
      (∀ k x y, dget as k = some x → dget bs k = some y → Over x y (merged k)) →
      Over (.dict as) (.dict bs) (.dict cs)

/-- Somewhere at a common place of objects the later has a text and the earlier a list. -/
inductive TextOverList : Doc → Doc → Prop
  | here (xs s) : TextOverList (.list xs) (.str s)
  | inside (as bs k x y) : dget as k = some x → dget bs k = some y → TextOverList x y →
      TextOverList (.dict as) (.dict bs)

/-- Neither `None` nor a list that has, or whose lists have, a `None`. -/
inductive NoNones : Doc → Prop
  | bool (b) : NoNones (.bool b)
  | int (i) : NoNones (.int i)
  | atom (t) : NoNones (.atom t)
  | str (s) : NoNones (.str s)
  | dict (kvs) : NoNones (.dict kvs)
  | list (xs) : (∀ x ∈ xs, NoNones x) → NoNones (.list xs)

/-- The values that can be merged. -/
inductive Mergeable : Doc → Doc → Prop
  | keep (a) : NoNones a → Mergeable a .null
  | first (bs) : Mergeable .null (.dict bs)
  | objects (as bs) : (∀ k x y, dget as k = some x → dget bs k = some y → Mergeable x y) →
      Mergeable (.dict as) (.dict bs)
  | list (a ys) : ¬ isDict a → NoNones (.list ys) → Mergeable a (.list ys)
  | text (a s) : ¬ isDict a → Mergeable a (.str s)
  | scalar (a b) : ¬ isDict a → (∀ xs, a ≠ .list xs) → b ≠ .null → ¬ isDict b → (∀ ys, b ≠ .list ys) →
      Mergeable a b

/-! ### Building -/

/-- Each submodel passes the prevalidation. -/
def AllPass {V : Type} (check : Doc → Validation V) (ds : List Doc) : Prop :=
  ∀ d ∈ ds, (check d).errs = [] ∧ (check d).raised = none

/-- Curation functions that all return, one after the other, on the way from `m` to `m'`. -/
inductive Curated : Doc → List (Doc → Doc × Option PyErr) → Doc → Prop
  | done (m) : Curated m [] m
  | step (m c cs m' m'') : c m = (m', none) → Curated m' cs m'' → Curated m (c :: cs) m''

/-- `m` is the model that each of the submodels in turn is merged into, from nothing. -/
inductive MergedAll : Doc → List Doc → Doc → Prop
  | done (m) : MergedAll m [] m
  | step (m d ds m' m'') : mergeDoc m d = .ok m' → MergedAll m' ds m'' → MergedAll m (d :: ds) m''

/-- The step that an error is about. -/
def stepOf {V : Type} : BuildErr V → Nat
  | .found i _ => i
  | .invalid i => i
  | .failed i _ => i
  | .gaveUp i => i

/-- Whether it is the final note that building stopped. -/
def isGaveUp {V : Type} : BuildErr V → Prop
  | .gaveUp _ => True
  | _ => False

/-! ### Automatic defaults -/

/-- A tri-state flag of a schema, or else of the validator, is on. -/
def On (own dflt : Option Bool) : Prop := own = some true ∨ (own = none ∧ dflt = some true)

/-- The type of the schema lets nulls in. -/
def Nullable (s : PSchema) : Prop := s.type = .one "null".toList ∨ ∃ ts, s.type = .many ts ∧ "null".toList ∈ ts

/-- A null: `None` or one of the NaNs. -/
def IsNull (f : AutoFlags) (v : Doc) : Prop := v = .null ∨ ∃ t, v = .atom t ∧ f.nan t = true

/-- What becomes of a property with this schema, from what is given for it (`none` when missing). -/
inductive Filled (f : AutoFlags) (s : PSchema) : Option Doc → Option Doc → Prop
  | missing (d) : s.default = some d → On s.autoDefault f.autoDefault → Filled f s none (some d)
  | stillMissing : ¬ (s.default.isSome ∧ On s.autoDefault f.autoDefault) → Filled f s none none
  | nullReplaced (v d) : IsNull f v → ¬ Nullable s → s.default = some d → On s.autoDefaultNull f.autoDefaultNulls →
      Filled f s (some v) (some d)
  | nullRemoved (v) : IsNull f v → ¬ Nullable s → ¬ (s.default.isSome ∧ On s.autoDefaultNull f.autoDefaultNulls) →
      On s.autoRemoveNull f.autoRemoveNulls → Filled f s (some v) none
  | nullKept (v) : IsNull f v → ¬ Nullable s → ¬ (s.default.isSome ∧ On s.autoDefaultNull f.autoDefaultNulls) →
      ¬ On s.autoRemoveNull f.autoRemoveNulls → Filled f s (some v) (some v)
  | nullAllowed (v) : IsNull f v → Nullable s → Filled f s (some v) (some v)
  | given (v) : ¬ IsNull f v → Filled f s (some v) (some v)

/-- The instance `d` with its defaults filled in is `d'`: of an object, each declared property is filled
and then the same goes on inside; everything else stays. -/
inductive Defaulted (f : AutoFlags) : PSchema → Doc → Doc → Prop
  | other (s d) : ¬ isDict d → Defaulted f s d d
  | object (s kvs kvs') (next : Str → Doc) :
      (∀ k, k ∉ s.properties.map (·.1) → dget kvs' k = dget kvs k) →
      (∀ p sub, dget s.properties p = some sub → Filled f sub (dget kvs p) none → dget kvs' p = none) →
      (∀ p sub v, dget s.properties p = some sub → Filled f sub (dget kvs p) (some v) → dget kvs' p = some (next p)) →
      (∀ p sub v, dget s.properties p = some sub → Filled f sub (dget kvs p) (some v) → Defaulted f sub v (next p)) →
      Defaulted f s (.dict kvs) (.dict kvs')

/-- No two properties of the schema, or of those inside, have the same name. -/
inductive SchemaOk : PSchema → Prop
  | mk (s) : (s.properties.map (·.1)).Nodup → (∀ p ∈ s.properties, SchemaOk p.2) → SchemaOk s

/-- A property, at any depth, whose nulls are removed and that is filled in when missing, but not when
null. -/
inductive HasUnstable (f : AutoFlags) : PSchema → Prop
  | here (s p) : p ∈ s.properties → ¬ Nullable p.2 → p.2.default.isSome → On p.2.autoDefault f.autoDefault →
      On p.2.autoRemoveNull f.autoRemoveNulls → ¬ On p.2.autoDefaultNull f.autoDefaultNulls → HasUnstable f s
  | inside (s p) : p ∈ s.properties → HasUnstable f p.2 → HasUnstable f s

/-! ### Additional properties -/

/-- How a regex library treats the texts of patterns joined with bars: as alternatives. -/
def BarsAreAlternatives (search : Str → Str → Bool) : Prop :=
  ∀ p ps s, search (join ['|'] (p :: ps)) s = true ↔ ∃ q ∈ p :: ps, search q s = true

end Spec
