import Verif.Model.MakerHistory
import Verif.Spec.PandelHeap
/-
What a model-maker was told.
-/
namespace Spec
open Py Model

/-- From the state on, the submodels that are added are, when they are added, these documents. -/
inductive Told (mk : MakerH) (fuel : Nat) : MakerState → List MakerOp → List Doc → Prop
  | done (s) : Told mk fuel s [] []
  | new (s o ops ds) : Told mk fuel (makerStep mk fuel s (.new o)) ops ds → Told mk fuel s (.new o :: ops) ds
  | add (s v d ops ds) : Reads (whole s.heap) v d → Told mk fuel (makerStep mk fuel s (.add v)) ops ds →
      Told mk fuel s (.add v :: ops) (d :: ds)
  | build (s ops ds) : Told mk fuel (makerStep mk fuel s .build) ops ds → Told mk fuel s (.build :: ops) ds

end Spec
