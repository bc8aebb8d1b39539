import Verif.Model.PmodShared
import Verif.Spec.Pstep
/-
Mappings among all objects that are there.
-/
namespace Spec
open Py Model

/-- The object stands for the mappings (a tree), with the dictionaries as they are. -/
def Means (h : PmHeap) (r : Nat) (t : Pmod) : Prop := Den h.view r t

/-- All objects and dictionaries that were there are as they were. -/
structure Untouched (h h' : PmHeap) : Prop where
  objs : ∀ i, i < h.objs.length → h'.objs[i]? = h.objs[i]?
  dicts : ∀ d, d < h.dicts.length → h'.dicts[d]? = h.dicts[d]?

/-- The default arguments are still empty, and objects refer to dictionaries that are there. -/
structure Sound (h : PmHeap) : Prop where
  steps : h.dicts[0]? = some []
  regxs : h.dicts[1]? = some []
  refs : ∀ o ∈ h.objs, o.steps < h.dicts.length ∧ o.regxs < h.dicts.length

end Spec
