import Verif.Spec.Truth
namespace Lemmas
open Py Model Spec

theorem truthy_iff (d : Doc) : d.truthy = true ↔ Truth d := by
  unfold Truth
  cases d with
  | bool b => cases b <;> simp [Doc.truthy]
  | int i => simp [Doc.truthy]
  | str s => cases s <;> simp [Doc.truthy]
  | list s => cases s <;> simp [Doc.truthy]
  | dict s => cases s <;> simp [Doc.truthy]
  | _ => simp [Doc.truthy]

end Lemmas
