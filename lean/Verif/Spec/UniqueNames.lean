import Verif.Model.UniqueNames
/-
Schedules in which files are made in time.
-/
namespace Spec
open Py Model

/-- Nobody removes files. -/
def NobodyRemoves (es : List NameEv) : Prop := ∀ f, NameEv.remove f ∉ es

/-- Whoever has got a name makes its file before anything else happens. -/
def MadeAtOnce (fnames : Nat → Str) (s : NameSys) (es : List NameEv) : Prop :=
  ∀ before e after, es = before ++ e :: after → ∀ i n, (nameRun fnames s before).pc i = .got n → e = .call i

/-- No other files than these ever exist. -/
def OnlyFiles (fnames : Nat → Str) (s : NameSys) (es : List NameEv) (all : List Str) : Prop :=
  ∀ before after, es = before ++ after → ∀ f, f ∈ (nameRun fnames s before).files → f ∈ all

end Spec
