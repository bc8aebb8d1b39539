import Verif.Model.BuildIter
import Verif.Spec.MakerHistory
import Verif.Spec.Pandel
/-
What it takes that unfinished builds do no harm.
-/
namespace Spec
open Py Model

/-- Advancing a validation, and curating a model that is new, write to none of the objects that were there. -/
structure CarefulIter {I V : Type} (mk : IterMaker I V) : Prop where
  advance : ∀ h it, Kept h.length h (mk.advance h it).1 ∧ h.length ≤ (mk.advance h it).1.length
  curators : ∀ n, ∀ c ∈ mk.curators, ∀ h v, n ≤ h.length → NewTo n v →
    Kept n h (c h v).1 ∧ n ≤ (c h v).1.length ∧ NewTo n (c h v).2.1

/-- From the state on, the submodels that are added are, when they are added, these documents. -/
inductive ToldIter {I V : Type} (mk : IterMaker I V) (fuel : Nat) : IterState I V → List IterOp → List Doc → Prop
  | done (s) : ToldIter mk fuel s [] []
  | new (s o ops ds) : ToldIter mk fuel (iterStep mk fuel s (.new o)) ops ds → ToldIter mk fuel s (.new o :: ops) ds
  | add (s v d ops ds) : Reads (whole s.attrs.heap) v d → ToldIter mk fuel (iterStep mk fuel s (.add v)) ops ds →
      ToldIter mk fuel s (.add v :: ops) (d :: ds)
  | begin (s ops ds) : ToldIter mk fuel (iterStep mk fuel s .begin) ops ds → ToldIter mk fuel s (.begin :: ops) ds
  | next (s ops ds) : ToldIter mk fuel (iterStep mk fuel s .next) ops ds → ToldIter mk fuel s (.next :: ops) ds

/-- Errors of step `k` of the building, and nothing else. -/
def ErrorsOf {V : Type} (k : Nat) (es : List (BuildErr V)) : Prop := ∀ e ∈ es, stepOf e = k ∧ ¬ isGaveUp e

/-- Advanced to its end with no exception, a validation reports these errors, and leaves these objects. -/
inductive Complains {I V : Type} (mk : IterMaker I V) : Heap → I → List V → Heap → Prop
  | finished {h it h'} : mk.advance h it = (h', .finished) → Complains mk h it [] h'
  | more {h it h' v it' vs h''} : mk.advance h it = (h', .yields v it') → Complains mk h' it' vs h'' → Complains mk h it (v :: vs) h''

/-- The validations of submodels, one after the other. -/
inductive ComplainsAll {I V : Type} (mk : IterMaker I V) : Heap → List Val → List V → Heap → Prop
  | nil {h} : ComplainsAll mk h [] [] h
  | cons {h v vs es h' es' h''} : Complains mk h (mk.start true v) es h' → ComplainsAll mk h' vs es' h'' →
      ComplainsAll mk h (v :: vs) (es ++ es') h''

end Spec
