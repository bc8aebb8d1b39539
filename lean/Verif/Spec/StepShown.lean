import Verif.Spec.PstepTuples
import Verif.Model.StepShown
/-
Vocabulary for what path-steps show of themselves, for C157.
-/
namespace Spec
open Py Model

/-- Attributes of the step `s` are read or assigned, one after the other, with success: from this state to that one. -/
inductive Touches (F : Nat) (E : RegexLib) (s : Nat) : PsState → List Str → PsState → Prop
  | none (σ : PsState) : Touches F E s σ [] σ
  | read (σ σ1 σ2 : PsState) (k : Str) (ks : List Str) (c : Nat) : getAttr F E σ s k = (σ1, .ok (some c)) → Touches F E s σ1 ks σ2 →
      Touches F E s σ (k :: ks) σ2
  | assign (σ σ1 σ2 : PsState) (k : Str) (ks : List Str) (v : StepVal) : setAttr F E σ s k v = (σ1, .ok ()) → Touches F E s σ1 ks σ2 →
      Touches F E s σ (k :: ks) σ2

/-- Each text once, where it comes first. -/
def firsts (ks : List Str) : List Str := ks.foldl (fun acc k => if k ∈ acc then acc else acc ++ [k]) []

/-- Whether the path of a branch is asked for: its last step has the tag; or has no children, if no tag is asked for. -/
def PathAsked (σ : PsState) (tag : Option Str) (b : List Nat) : Prop :=
  ∃ r o, b.getLast? = some r ∧ σ.steps[r]? = some o ∧
    (if tag = none ∨ tag = some "".toList then ∀ k c, ¬ Edge σ r k c else ∃ t, tag = some t ∧ t ∈ o.tags)

/-- The original name and the text of a step. -/
def pairOf (σ : PsState) (s : Nat) : Option (Str × Str) := (σ.steps[s]?).map (fun o => (o.orig, o.name))

/-- A step as shown with its original name: `(original-->text)`, if they differ. -/
def shownPair (p : Str × Str) : Str := if p.1 = p.2 then p.2 else "(".toList ++ p.1 ++ "-->".toList ++ p.2 ++ ")".toList

/-- Pairs that can be told from the path: no parentheses, no slashes and no `>` in original names, and unless renamed, the names are ordinary (the first may
be empty). -/
def Telling (ps : List (Str × Str)) : Prop :=
  (∀ p ∈ ps, '/' ∉ p.1 ∧ '(' ∉ p.1 ∧ ')' ∉ p.1 ∧ '>' ∉ p.1 ∧ '(' ∉ p.2 ∧ ')' ∉ p.2) ∧
  (∀ p ∈ ps.tail, p.1 = p.2 → Ordinary p.1) ∧ (∃ p, ps.head? = some p ∧ (p.1 = p.2 → p.1 = "".toList ∨ Ordinary p.1))

/-- The path of these steps as shown with original names. -/
def shownPath (ps : List (Str × Str)) : Str := ((ps.map shownPair).foldl Loc.move (.rel 0 [])).text

end Spec
