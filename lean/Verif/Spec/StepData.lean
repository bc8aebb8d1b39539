import Verif.Spec.SetMany
import Verif.Spec.PstepPaths
/-
Specification of C146: values set at paths, given as texts.
-/
namespace Spec
open Py Model

/-- Setting a value at each of the paths, one after the other, succeeds and gives the second document. -/
inductive SetEach (value : Str → Doc) : Doc → List Str → Doc → Prop
  | nil (d) : SetEach value d [] d
  | cons (d d1 d2 path rest) : setJsonPointer d path (value path) = .ok d1 → SetEach value d1 rest d2 → SetEach value d (path :: rest) d2

end Spec
