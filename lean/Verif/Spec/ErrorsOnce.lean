import Verif.Spec.ErrorPaths
import Verif.Spec.Lasso
/-
Schemas as those that are read from JSON: no keyword and no name twice.
-/
namespace Spec
open Py Model

/-- Both are entries of the schema under the same name. -/
inductive SameKeyword : VKw → VKw → Prop
  | type (ts us) : SameKeyword (.type ts) (.type us)
  | properties (ps qs) : SameKeyword (.properties ps) (.properties qs)
  | required (ns ms) : SameKeyword (.required ns) (.required ms)
  | additional (b c) : SameKeyword (.additional b) (.additional c)
  | additionalL (s c) : SameKeyword (.additionalS s) (.additional c)
  | additionalR (b t) : SameKeyword (.additional b) (.additionalS t)
  | additionalS (s t) : SameKeyword (.additionalS s) (.additionalS t)
  | propertyNames (s t) : SameKeyword (.propertyNames s) (.propertyNames t)
  | enum (vs ws) : SameKeyword (.enum vs) (.enum ws)
  | items (s t) : SameKeyword (.items s) (.items t)

/-- The schema is a dictionary with a dictionary of properties, no name is required twice, and the default value is one
that Python can have. -/
structure FromJson (s : VSchema) : Prop where
  keywords : s.kws.Pairwise (fun a b => ¬ SameKeyword a b)
  properties : ∀ ps, .properties ps ∈ s.kws → (dkeys ps).Nodup
  required : ∀ ns, .required ns ∈ s.kws → ns.Nodup
  default : ∀ v, s.default = some v → KeysOk v

end Spec
