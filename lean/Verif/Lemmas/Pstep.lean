import Verif.Spec.Pstep
import Verif.Lemmas.Dict
/-
Lemmas about steps on the heap.
-/
namespace Lemmas
open Py Model Spec

/-- A heap with more objects at the end. -/
def Ext {α : Type} (h h' : List α) : Prop := ∃ e, h' = h ++ e

theorem Ext.refl {α : Type} (h : List α) : Ext h h := ⟨[], by simp⟩
theorem Ext.trans {α : Type} {a b c : List α} (h1 : Ext a b) (h2 : Ext b c) : Ext a c := by
  obtain ⟨e, rfl⟩ := h1; obtain ⟨f, rfl⟩ := h2; exact ⟨e ++ f, by simp⟩
theorem Ext.snoc {α : Type} (h : List α) (x : α) : Ext h (h ++ [x]) := ⟨[x], rfl⟩
theorem Ext.get {α : Type} {h h' : List α} (e : Ext h h') {i : Nat} {x : α} (hx : h[i]? = some x) :
    h'[i]? = some x := by
  obtain ⟨f, rfl⟩ := e
  rw [List.getElem?_append_left (by
    rcases Nat.lt_or_ge i h.length with hl | hl
    · exact hl
    · rw [List.getElem?_eq_none hl] at hx; cases hx)]
  exact hx

section merge
variable {mg : List PmodObj → Nat → Nat → Option (List PmodObj × Nat)}

theorem mergeStepsH_ext (hm : ∀ h a b h' r, mg h a b = some (h', r) → Ext h h') (os : List (Str × Nat)) :
    ∀ h s h' s', mergeStepsH mg h s os = some (h', s') → Ext h h' := by
  induction os with
  | nil => intro h s h' s' e; simp only [mergeStepsH] at e; cases e; exact Ext.refl _
  | cons kv t ih =>
    intro h s h' s' e
    obtain ⟨k, o⟩ := kv
    simp only [mergeStepsH] at e
    split at e
    · split at e
      · next heq => exact (hm _ _ _ _ _ heq).trans (ih _ _ _ _ e)
      · cases e
    · exact ih _ _ _ _ e

theorem mergeRegxsH_ext (hm : ∀ h a b h' r, mg h a b = some (h', r) → Ext h h') (r : List (Str × Nat))
    (os : List (Str × Nat)) : ∀ h h' s', mergeRegxsH mg h r os = some (h', s') → Ext h h' := by
  induction os with
  | nil => intro h h' s' e; simp only [mergeRegxsH] at e; cases e; exact Ext.refl _
  | cons kv t ih =>
    intro h h' s' e
    obtain ⟨k, o⟩ := kv
    simp only [mergeRegxsH] at e
    split at e
    · split at e
      · next heq =>
        split at e
        · next heq2 => cases e; exact (hm _ _ _ _ _ heq).trans (ih _ _ _ heq2)
        · cases e
      · cases e
    · split at e
      · next heq2 => cases e; exact ih _ _ _ heq2
      · cases e
end merge

theorem pmergeH_ext (F : Nat) : ∀ h a b h' r, pmergeH F h a b = some (h', r) → Ext h h' := by
  induction F with
  | zero => intro h a b h' r e; cases e
  | succ F ih =>
    intro h a b h' r e
    simp only [pmergeH] at e
    split at e
    · next A B _ _ =>
      split at e
      · cases e
      · next h1 s heq =>
        have e1 : Ext h h1 := by
          split at heq
          · cases heq; exact Ext.refl _
          · split at heq
            · cases heq; exact Ext.refl _
            · exact mergeStepsH_ext ih _ _ _ _ _ heq
        split at e
        · cases e
        · next h2 r2 heq2 =>
          have e2 : Ext h1 h2 := by
            split at heq2
            · cases heq2; exact Ext.refl _
            · split at heq2
              · cases heq2; exact Ext.refl _
              · cases hm : mergeRegxsH (pmergeH F) h1 A.regxs B.regxs with
                | none => rw [hm] at heq2; cases heq2
                | some p =>
                  rw [hm] at heq2; cases heq2
                  exact mergeRegxsH_ext ih _ _ _ _ _ hm
          cases e
          exact (e1.trans e2).trans (Ext.snoc _ _)
    · cases e

theorem reduceH_ext (F : Nat) (l : List Nat) : ∀ h a h' r, reduceH F h a l = some (h', r) → Ext h h' := by
  induction l with
  | nil => intro h a h' r e; cases e; exact Ext.refl _
  | cons b t ih =>
    intro h a h' r e
    simp only [reduceH] at e
    split at e
    · next heq => exact (pmergeH_ext _ _ _ _ _ _ heq).trans (ih _ _ _ _ e)
    · cases e

theorem descendH_ext {F : Nat} {E : RegexLib} {h : List PmodObj} {r : Nat} {k : Str} {h' p a}
    (e : descendH F E h r k = .ok (h', p, a)) : Ext h h' := by
  unfold descendH at e
  split at e
  · cases e
  · simp only at e
    split at e
    · cases e
    · split at e
      · cases e; exact Ext.refl _
      · split at e
        · next heq => cases e; exact reduceH_ext _ _ _ _ _ _ heq
        · cases e

/-- Creating a step only adds objects. -/
theorem newStep_ext (F : Nat) (E : RegexLib) (σ : PsState) (pname : Str) (maps : Maps)
    (alias : Option Str) (tags : List Str) :
    Ext σ.pmods (newStep F E σ pname maps alias tags).1.pmods ∧
    Ext σ.steps (newStep F E σ pname maps alias tags).1.steps ∧
    Ext σ.dicts (newStep F E σ pname maps alias tags).1.dicts := by
  unfold newStep
  split
  · exact ⟨Ext.refl _, Ext.snoc _ _, Ext.refl _⟩
  · split
    · exact ⟨Ext.refl _, Ext.refl _, Ext.refl _⟩
    · split
      · exact ⟨Ext.refl _, Ext.snoc _ _, Ext.refl _⟩
      · simp only [cloneStep]
        split
        · exact ⟨Ext.refl _, Ext.snoc _ _, Ext.refl _⟩
        · exact ⟨Ext.refl _, Ext.snoc _ _, Ext.snoc _ _⟩
  · split
    · exact ⟨Ext.refl _, Ext.refl _, Ext.refl _⟩
    · next heq => exact ⟨descendH_ext heq, Ext.snoc _ _, Ext.refl _⟩

/-- The objects created by `Pstep()`: a fresh step, or a renamed clone. -/
theorem newStep_steps (F : Nat) (E : RegexLib) (σ : PsState) (pname : Str) (maps : Maps)
    (alias : Option Str) (tags : List Str) :
    (newStep F E σ pname maps alias tags).1.steps = σ.steps ∨
    ∃ o', (newStep F E σ pname maps alias tags).1.steps = σ.steps ++ [o'] ∧
      ((o'.locked = canRelocate ∧ o'.orig = pname ∧ o'.csteps = none ∧ o'.tags = tags.foldl addTag []) ∨
       ∃ e eo, maps = .step e ∧ σ.steps[e]? = some eo ∧ eo.name ≠ [] ∧ o'.name = alias.getD pname ∧
         o'.orig = eo.orig ∧ o'.locked = eo.locked ∧ o'.tags = eo.tags ∧ o'.pmod = eo.pmod) := by
  unfold newStep
  split
  · exact .inr ⟨_, rfl, .inl ⟨rfl, rfl, rfl, rfl⟩⟩
  · split
    · exact .inl rfl
    · split
      · exact .inr ⟨_, rfl, .inl ⟨rfl, rfl, rfl, rfl⟩⟩
      · next eo heq hne =>
        simp only [cloneStep]
        exact .inr ⟨_, rfl, .inr ⟨_, eo, rfl, heq, hne, rfl, rfl, rfl, rfl, rfl⟩⟩
  · split
    · exact .inl rfl
    · exact .inr ⟨_, rfl, .inl ⟨rfl, rfl, rfl, rfl⟩⟩

/-- What stays of a step whatever is done with it: its text, original name, lock and tags. -/
structure SameStep (o o' : StepObj) : Prop where
  name : o'.name = o.name
  orig : o'.orig = o.orig
  locked : o'.locked = o.locked
  tags : o'.tags = o.tags

theorem SameStep.refl (o : StepObj) : SameStep o o := ⟨rfl, rfl, rfl, rfl⟩

/-- The steps of `σ` are, up to mappings and children, those of `σ'`. -/
def SameSteps (σ σ' : PsState) : Prop :=
  σ'.steps.length = σ.steps.length ∧
  ∀ (i : Nat) (o : StepObj), σ.steps[i]? = some o → ∃ o', σ'.steps[i]? = some o' ∧ SameStep o o'

theorem SameSteps.refl (σ : PsState) : SameSteps σ σ := ⟨rfl, fun _ o h => ⟨o, h, SameStep.refl o⟩⟩

theorem SameSteps.set {σ σ' : PsState} {s : Nat} {o o' : StepObj} (hs : σ.steps[s]? = some o)
    (h : SameStep o o') (he : σ'.steps = σ.steps.set s o') : SameSteps σ σ' := by
  refine ⟨by rw [he]; simp, fun i oi hi => ?_⟩
  rw [he]
  by_cases hsi : s = i
  · subst hsi
    rw [hs] at hi; injection hi with hi; subst hi
    refine ⟨o', ?_, h⟩
    rw [List.getElem?_set_self]
    exact (List.getElem?_eq_some_iff.1 hs).1
  · exact ⟨oi, by rw [List.getElem?_set_ne hsi]; exact hi, SameStep.refl _⟩

theorem storeChild_steps (F : Nat) (E : RegexLib) (σ : PsState) (s d : Nat) (k : Str)
    (alias : Option Str) (ex : Option Nat) :
    (storeChild F E σ s d k alias ex).1.steps =
      (newStep F E σ k (existingOr σ ex ((σ.steps[s]?).bind StepObj.pmod)) alias []).1.steps ∧
    (storeChild F E σ s d k alias ex).1.pmods =
      (newStep F E σ k (existingOr σ ex ((σ.steps[s]?).bind StepObj.pmod)) alias []).1.pmods := by
  unfold storeChild
  split <;> (next heq => rw [heq]; exact ⟨rfl, rfl⟩)

theorem existingOr_step {σ : PsState} {ex p : Option Nat} {e : Nat} (h : existingOr σ ex p = .step e) :
    ex = some e := by
  unfold existingOr at h
  simp only at h
  cases ex with
  | none => cases p <;> cases h
  | some e' =>
    simp only at h
    split at h
    · cases p <;> cases h
    · split at h
      · cases p <;> cases h
      · injection h with h; rw [h]

theorem updateMappings_same {σ : PsState} {s : Nat} {o : StepObj} (hs : σ.steps[s]? = some o) (a : Str) :
    SameSteps σ (updateMappings σ s o a) := by
  unfold updateMappings
  split
  · split
    · exact ⟨rfl, fun _ o h => ⟨o, h, SameStep.refl o⟩⟩
    · exact SameSteps.refl σ
  · exact SameSteps.set hs (o' := { o with pmod := some σ.pmods.length }) ⟨rfl, rfl, rfl, rfl⟩ rfl

/-- What making a child does to the steps: those there stay, and at most one is added, which is
fresh, or a renamed clone of the step given or of the child that was there. -/
theorem makeCstep_steps {F : Nat} {E : RegexLib} {σ : PsState} {s : Nat} {o : StepObj} (k : Str)
    (alias : Option Str) (ex : Option Nat) (hs : σ.steps[s]? = some o) :
    ∃ σ1, SameSteps σ σ1 ∧
      ((makeCstep F E σ s k alias ex).1.steps = σ1.steps ∨
       ∃ o', (makeCstep F E σ s k alias ex).1.steps = σ1.steps ++ [o'] ∧
        ((o'.locked = canRelocate ∧ o'.orig = k ∧ o'.csteps = none ∧ o'.tags = []) ∨
         ∃ e eo, ex.or (dget (σ.kids o) k) = some e ∧ σ.steps[e]? = some eo ∧ eo.name ≠ [] ∧
          o'.name = alias.getD k ∧ o'.orig = eo.orig ∧ o'.locked = eo.locked ∧ o'.tags = eo.tags)) := by
  have key : ∀ (σ1 : PsState) (d : Nat) (ex' : Option Nat), SameSteps σ σ1 →
      (∀ e, ex' = some e → ex.or (dget (σ.kids o) k) = some e) →
      ∃ σ2, SameSteps σ σ2 ∧
      ((storeChild F E σ1 s d k alias ex').1.steps = σ2.steps ∨
       ∃ o', (storeChild F E σ1 s d k alias ex').1.steps = σ2.steps ++ [o'] ∧
        ((o'.locked = canRelocate ∧ o'.orig = k ∧ o'.csteps = none ∧ o'.tags = []) ∨
         ∃ e eo, ex.or (dget (σ.kids o) k) = some e ∧ σ.steps[e]? = some eo ∧ eo.name ≠ [] ∧
          o'.name = alias.getD k ∧ o'.orig = eo.orig ∧ o'.locked = eo.locked ∧ o'.tags = eo.tags)) := by
    intro σ1 d ex' hsame hex
    refine ⟨σ1, hsame, ?_⟩
    rw [(storeChild_steps F E σ1 s d k alias ex').1]
    rcases newStep_steps F E σ1 k (existingOr σ1 ex' ((σ1.steps[s]?).bind StepObj.pmod)) alias [] with h | ⟨o', h, h2⟩
    · exact .inl h
    · refine .inr ⟨o', h, ?_⟩
      rcases h2 with ⟨a, b, c, d⟩ | ⟨e, eo, hm, he, hn, a, b, c, d, _⟩
      · exact .inl ⟨a, b, c, d⟩
      · have hx := existingOr_step hm
        have hlt := hsame.1
        cases hse : σ.steps[e]? with
        | none =>
          exfalso
          have := (List.getElem?_eq_some_iff.1 he).1
          rw [List.getElem?_eq_none_iff] at hse
          omega
        | some so =>
          obtain ⟨so', hso', hss⟩ := hsame.2 e so hse
          rw [he] at hso'; injection hso' with hso'; subst hso'
          exact .inr ⟨e, so, hex e hx, hse, by rw [← hss.name]; exact hn, a, by rw [b, hss.orig],
            by rw [c, hss.locked], by rw [d, hss.tags]⟩
  unfold makeCstep
  simp only [hs]
  split
  · split
    · refine key _ _ _ (SameSteps.refl σ) (fun e he => ?_)
      rw [← he]; rfl
    · refine key _ _ _ ?_ (fun e he => ?_)
      · split
        · exact updateMappings_same hs _
        · exact SameSteps.refl σ
      · simpa using he
  · refine key _ _ _ ?_ (fun e he => ?_)
    · exact SameSteps.set hs (o' := { o with csteps := some σ.dicts.length }) ⟨rfl, rfl, rfl, rfl⟩ rfl
    · rw [he]; rfl

/-- What making a child does to the mappings: nothing to those that exist, unless a text is
assigned and the step has children and mappings. -/
theorem makeCstep_pmods {F : Nat} {E : RegexLib} {σ : PsState} {s : Nat} (k : Str)
    (alias : Option Str) (ex : Option Nat)
    (h : alias = none ∨ (∀ o, σ.steps[s]? = some o → σ.kids o = [] ∨ o.pmod = none)) :
    Ext σ.pmods (makeCstep F E σ s k alias ex).1.pmods := by
  unfold makeCstep
  split
  · exact Ext.refl _
  · next o hs =>
    split
    · next d hne =>
      split
      · rw [(storeChild_steps ..).2]; exact (newStep_ext ..).1
      · rw [(storeChild_steps ..).2]
        refine Ext.trans ?_ (newStep_ext ..).1
        split
        · next a =>
          rcases h with h | h
          · cases h
          · rcases h o hs with h | h
            · simp only [h] at hne; exact absurd hne (by simp)
            · simp only [updateMappings, h]; exact Ext.snoc _ _
        · exact Ext.refl _
    · rw [(storeChild_steps ..).2]; exact (newStep_ext ..).1

/-- A step with a dictionary for its children, and that dictionary. -/
def withDict (σ : PsState) (s : Nat) (o : StepObj) : PsState × Nat :=
  match o.csteps, (σ.kids o).isEmpty with
  | some d, false => (σ, d)
  | _, _ => ({ σ with
      dicts := σ.dicts ++ [[]]
      steps := σ.steps.set s { o with csteps := some σ.dicts.length } }, σ.dicts.length)

/-- What a mapping gives to a child created by reading an attribute: its text and its mappings. -/
def Chosen (F : Nat) (E : RegexLib) (h : List PmodObj) (pmod : Option Nat) (k name : Str)
    (pm : Option Nat) (h' : List PmodObj) : Prop :=
  match pmod with
  | none => name = k ∧ pm = none ∧ h' = h
  | some p => ∃ al, descendH F E h p k = .ok (h', pm, al) ∧
      name = (match al with
        | some m => if m = [] then k else unescapePart m
        | none => k)

theorem withDict_kids (σ : PsState) (s : Nat) (o : StepObj) :
    ((withDict σ s o).1.dicts[(withDict σ s o).2]?).getD [] = σ.kids o := by
  unfold withDict
  split
  · next d h1 h2 => simp only [PsState.kids, h1]
  · next hne =>
    simp only [List.getElem?_concat_length, Option.getD_some]
    cases hc : o.csteps with
    | none => simp only [PsState.kids, hc]
    | some d =>
      cases hk : (σ.kids o).isEmpty with
      | true => rw [List.isEmpty_iff] at hk; rw [hk]
      | false => exact (hne d hc hk).elim

theorem withDict_steps {σ : PsState} {s : Nat} {o : StepObj} (hs : σ.steps[s]? = some o) :
    ∃ o', (withDict σ s o).1.steps[s]? = some o' ∧ o'.csteps = some (withDict σ s o).2 ∧
      o'.pmod = o.pmod ∧ SameStep o o' ∧
      ∀ i, i ≠ s → (withDict σ s o).1.steps[i]? = σ.steps[i]? := by
  have hlt : s < σ.steps.length := (List.getElem?_eq_some_iff.1 hs).1
  unfold withDict
  split
  · next d h1 h2 => exact ⟨o, hs, h1, rfl, SameStep.refl o, fun _ _ => rfl⟩
  · refine ⟨_, List.getElem?_set_self hlt, rfl, rfl, ⟨rfl, rfl, rfl, rfl⟩, fun i hi => ?_⟩
    simp only
    rw [List.getElem?_set_ne (Ne.symm hi)]

theorem withDict_length (σ : PsState) (s : Nat) (o : StepObj) :
    (withDict σ s o).1.steps.length = σ.steps.length := by
  unfold withDict; split <;> simp

theorem withDict_pmods (σ : PsState) (s : Nat) (o : StepObj) : (withDict σ s o).1.pmods = σ.pmods := by
  unfold withDict; split <;> rfl

/-- Creating a child while reading an attribute: it may fail in the mappings, else there is one more
step, with the attribute as its original name. -/
theorem makeCstep_new {F : Nat} {E : RegexLib} {σ : PsState} {s : Nat} {o : StepObj} {k : Str}
    (hs : σ.steps[s]? = some o)
    (hno : ∀ c co, dget (σ.kids o) k = some c → σ.steps[c]? = some co → co.name = []) :
    (∃ e, (∃ p, o.pmod = some p ∧ descendH F E σ.pmods p k = .error e) ∧
      makeCstep F E σ s k none none = ((withDict σ s o).1, .error e)) ∨
    ∃ name pm h', Chosen F E σ.pmods o.pmod k name pm h' ∧
      makeCstep F E σ s k none none =
        (⟨h', (withDict σ s o).1.steps ++ [⟨name, k, pm, none, canRelocate, []⟩],
          (withDict σ s o).1.dicts.set (withDict σ s o).2 (dset (σ.kids o) k σ.steps.length)⟩,
         .ok σ.steps.length) := by
  have key : ∀ ex : Option Nat, (∀ c co, ex = some c → (withDict σ s o).1.steps[c]? = some co → co.name = []) →
      (∃ e, (∃ p, o.pmod = some p ∧ descendH F E σ.pmods p k = .error e) ∧
        storeChild F E (withDict σ s o).1 s (withDict σ s o).2 k none ex = ((withDict σ s o).1, .error e)) ∨
      ∃ name pm h', Chosen F E σ.pmods o.pmod k name pm h' ∧
        storeChild F E (withDict σ s o).1 s (withDict σ s o).2 k none ex =
          (⟨h', (withDict σ s o).1.steps ++ [⟨name, k, pm, none, canRelocate, []⟩],
            (withDict σ s o).1.dicts.set (withDict σ s o).2 (dset (σ.kids o) k σ.steps.length)⟩,
           .ok σ.steps.length) := by
    intro ex hex
    obtain ⟨o', ho', _, hpm, _, _⟩ := withDict_steps hs
    have hk := withDict_kids σ s o
    have hl := withDict_length σ s o
    have hp := withDict_pmods σ s o
    generalize withDict σ s o = w at *
    obtain ⟨σ1, d⟩ := w
    simp only at *
    have he : existingOr σ1 ex o.pmod = (match o.pmod with
        | some p => Maps.pmod p
        | none => Maps.none) := by
      unfold existingOr
      cases ex with
      | none => rfl
      | some e =>
        simp only
        split
        · rfl
        · next co hco => rw [if_pos (hex e co rfl hco)]; cases o.pmod <;> rfl
    unfold storeChild
    rw [ho', Option.bind_some, hpm, he]
    unfold Chosen
    cases hop : o.pmod with
    | none =>
      right
      refine ⟨k, none, σ.pmods, ⟨rfl, rfl, rfl⟩, ?_⟩
      simp only [newStep, freshStep, Option.getD_none, List.foldl_nil, hk, hl, hp]
    | some p =>
      simp only [newStep, hp]
      cases hd : descendH F E σ.pmods p k with
      | error e => left; exact ⟨e, ⟨p, rfl, hd⟩, rfl⟩
      | ok r =>
        obtain ⟨h', pm, al⟩ := r
        right
        cases al with
        | none =>
          refine ⟨k, pm, h', ⟨none, rfl, rfl⟩, ?_⟩
          simp only [freshStep, List.foldl_nil, hk, hl]
        | some m =>
          refine ⟨if m = [] then k else unescapePart m, pm, h', ⟨some m, rfl, rfl⟩, ?_⟩
          simp only [freshStep, List.foldl_nil, hk, hl]
  have hm : ∃ ex : Option Nat, (∀ c co, ex = some c → (withDict σ s o).1.steps[c]? = some co → co.name = []) ∧
      makeCstep F E σ s k none none = storeChild F E (withDict σ s o).1 s (withDict σ s o).2 k none ex := by
    have hw : ∀ (c : Nat) co, (withDict σ s o).1.steps[c]? = some co → ∃ co', σ.steps[c]? = some co' ∧ co.name = co'.name := by
      intro c co hc
      obtain ⟨o', ho', _, _, hss, hoth⟩ := withDict_steps hs
      by_cases e : c = s
      · subst e; rw [ho'] at hc; injection hc with hc; subst hc; exact ⟨o, hs, hss.name⟩
      · rw [hoth c e] at hc; exact ⟨co, hc, rfl⟩
    unfold makeCstep
    simp only [hs]
    cases hc : o.csteps with
    | none => exact ⟨none, by simp, by simp [withDict, hc]⟩
    | some d =>
      cases hk : (σ.kids o).isEmpty with
      | true => exact ⟨none, by simp, by simp [withDict, hc, hk]⟩
      | false =>
        refine ⟨dget (σ.kids o) k, fun c co h1 h2 => ?_, by simp [withDict, hc, hk]⟩
        obtain ⟨co', h3, h4⟩ := hw c co h2
        rw [h4]; exact hno c co' h1 h3
  obtain ⟨ex, hex, hm⟩ := hm
  rw [hm]
  exact key ex hex

/-- Reading an attribute that is a step. -/
theorem getAttr_cases {F : Nat} {E : RegexLib} {σ : PsState} {s : Nat} {o : StepObj} {k : Str}
    (hk : StepName k) (hs : σ.steps[s]? = some o) :
    (∃ c co, dget (σ.kids o) k = some c ∧ σ.steps[c]? = some co ∧ co.name ≠ [] ∧
      getAttr F E σ s k = (σ, .ok (some c))) ∨
    ((∀ c co, dget (σ.kids o) k = some c → σ.steps[c]? = some co → co.name = []) ∧
      ((∃ e, (∃ p, o.pmod = some p ∧ descendH F E σ.pmods p k = .error e) ∧
        getAttr F E σ s k = ((withDict σ s o).1, .error e)) ∨
       ∃ name pm h', Chosen F E σ.pmods o.pmod k name pm h' ∧
        getAttr F E σ s k =
          (⟨h', (withDict σ s o).1.steps ++ [⟨name, k, pm, none, canRelocate, []⟩],
            (withDict σ s o).1.dicts.set (withDict σ s o).2 (dset (σ.kids o) k σ.steps.length)⟩,
           .ok (some σ.steps.length)))) := by
  have hmake : (∀ c co, dget (σ.kids o) k = some c → σ.steps[c]? = some co → co.name = []) →
      getAttr F E σ s k = (match makeCstep F E σ s k none none with
        | (σ', .ok c) => (σ', Except.ok (some c))
        | (σ', .error e) => (σ', .error e)) := by
    intro hno
    unfold getAttr
    rw [if_neg (show k ∉ plainAttrs from hk.1), if_neg (by rw [show startsWith ['_'] k = false from hk.2.1]; simp only [Bool.false_eq_true, false_or]; exact hk.2.2)]
    simp only [hs]
    split
    · rfl
    · next c hc =>
      split
      · rfl
      · next co hco => rw [if_pos (hno c co hc hco)]; rfl
  by_cases hno : ∀ c co, dget (σ.kids o) k = some c → σ.steps[c]? = some co → co.name = []
  · right
    refine ⟨hno, ?_⟩
    rw [hmake hno]
    rcases makeCstep_new (F := F) (E := E) hs hno with ⟨e, hp, he⟩ | ⟨n, pm, h', hc, he⟩
    · exact .inl ⟨e, hp, by rw [he]⟩
    · exact .inr ⟨n, pm, h', hc, by rw [he]⟩
  · left
    simp only [Classical.not_forall] at hno
    obtain ⟨c, co, h1, h2, h3⟩ := hno
    refine ⟨c, co, h1, h2, h3, ?_⟩
    unfold getAttr
    rw [if_neg (show k ∉ plainAttrs from hk.1), if_neg (by rw [show startsWith ['_'] k = false from hk.2.1]; simp only [Bool.false_eq_true, false_or]; exact hk.2.2)]
    simp only [hs, h1, h2, if_neg h3]

theorem kids_of_get {σ : PsState} {o : StepObj} {k : Str} {c : Nat} (h : dget (σ.kids o) k = some c) :
    ∃ d l, o.csteps = some d ∧ σ.dicts[d]? = some l ∧ σ.kids o = l := by
  unfold PsState.kids at h ⊢
  cases hc : o.csteps with
  | none => rw [hc] at h; cases h
  | some d =>
    rw [hc] at h
    simp only at h
    cases hd : σ.dicts[d]? with
    | none => rw [hd] at h; cases h
    | some l => exact ⟨d, l, rfl, hd, by simp [hd]⟩

theorem withDict_ext (σ : PsState) (s : Nat) (o : StepObj) : Ext σ.dicts (withDict σ s o).1.dicts := by
  unfold withDict; split
  · exact Ext.refl _
  · exact Ext.snoc _ _

theorem withDict_edge {σ : PsState} {s : Nat} {o : StepObj} (hs : σ.steps[s]? = some o) {s' : Nat} {k : Str}
    {c : Nat} (h : Edge σ s' k c) : Edge (withDict σ s o).1 s' k c := by
  obtain ⟨oo, hoo, hk⟩ := h
  obtain ⟨o', ho', hcs, _, _, hoth⟩ := withDict_steps hs
  by_cases e : s' = s
  · subst e
    rw [hs] at hoo; injection hoo with hoo; subst hoo
    refine ⟨o', ho', ?_⟩
    unfold PsState.kids
    rw [hcs]
    simp only
    rw [withDict_kids]; exact hk
  · refine ⟨oo, by rw [hoth s' e]; exact hoo, ?_⟩
    obtain ⟨d, l, h1, h2, h3⟩ := kids_of_get hk
    unfold PsState.kids
    rw [h1]; simp only
    rw [(withDict_ext σ s o).get h2, Option.getD_some, ← h3]; exact hk

theorem withDict_text {σ : PsState} {s : Nat} {o : StepObj} (hs : σ.steps[s]? = some o) (i : Nat) :
    textOf (withDict σ s o).1 i = textOf σ i := by
  obtain ⟨o', ho', _, _, hss, hoth⟩ := withDict_steps hs
  unfold textOf
  by_cases e : i = s
  · subst e; rw [ho', hs]; simp [hss.name]
  · rw [hoth i e]

/-- Texts stay, and so do the children whose text is not empty. -/
structure StepsKept (σ σ' : PsState) : Prop where
  texts : ∀ i t, textOf σ i = some t → textOf σ' i = some t
  edges : ∀ s k c t, Edge σ s k c → textOf σ c = some t → t ≠ [] → Edge σ' s k c

theorem StepsKept.refl (σ : PsState) : StepsKept σ σ := ⟨fun _ _ h => h, fun _ _ _ _ h _ _ => h⟩
theorem StepsKept.trans {a b c : PsState} (h1 : StepsKept a b) (h2 : StepsKept b c) : StepsKept a c :=
  ⟨fun i t h => h2.texts i t (h1.texts i t h),
   fun s k x t h ht hne => h2.edges s k x t (h1.edges s k x t h ht hne) (h1.texts x t ht) hne⟩

theorem getAttr_not_step (F : Nat) (E : RegexLib) (σ : PsState) (s : Nat) (k : Str) (h : ¬ StepName k) :
    getAttr F E σ s k = (σ, .ok none) ∨ getAttr F E σ s k = (σ, .error .attributeError) := by
  unfold getAttr
  by_cases h1 : k ∈ plainAttrs
  · rw [if_pos h1]; exact .inl rfl
  · rw [if_neg h1]
    by_cases h2 : startsWith ['_'] k = true ∨ k ∈ forbiddenAttrs
    · rw [if_pos h2]; exact .inr rfl
    · exfalso
      simp only [not_or, Bool.not_eq_true] at h2
      exact h ⟨h1, h2.1, h2.2⟩

theorem getAttr_keeps (F : Nat) (E : RegexLib) (σ : PsState) (s : Nat) (k : Str) :
    StepsKept σ (getAttr F E σ s k).1 := by
  by_cases hk : StepName k
  case neg => rcases getAttr_not_step F E σ s k hk with h | h <;> (rw [h]; exact StepsKept.refl σ)
  cases hs : σ.steps[s]? with
  | none =>
    have : (getAttr F E σ s k).1 = σ := by
      unfold getAttr
      simp only [hs]
      split
      · rfl
      · split <;> rfl
    rw [this]; exact StepsKept.refl σ
  | some o =>
    have hw : StepsKept σ (withDict σ s o).1 :=
      ⟨fun i t h => by rw [withDict_text hs]; exact h, fun _ _ _ _ h _ _ => withDict_edge hs h⟩
    rcases getAttr_cases (F := F) (E := E) hk hs with ⟨c, co, _, _, _, h⟩ | ⟨hno, ⟨e, _, h⟩ | ⟨name, pm, h', _, h⟩⟩
    · rw [h]; exact StepsKept.refl σ
    · rw [h]; exact hw
    · rw [h]
      constructor
      · intro i t hi
        have := hw.texts i t hi
        unfold textOf at this ⊢
        cases hx : (withDict σ s o).1.steps[i]? with
        | none => rw [hx] at this; cases this
        | some x => rw [(Ext.snoc _ _).get hx, ← this, hx]
      · intro s' k' c t hedge ht hne
        have := withDict_edge hs hedge
        obtain ⟨oo, hoo, hg⟩ := this
        refine ⟨oo, (Ext.snoc _ _).get hoo, ?_⟩
        obtain ⟨d, l, h1, h2, h3⟩ := kids_of_get hg
        have hkk := withDict_kids σ s o
        have hlt := (List.getElem?_eq_some_iff.1 h2).1
        rw [h3] at hg
        clear h h3
        generalize σ.kids o = K at hkk hno ⊢
        unfold PsState.kids
        rw [h1]; simp only
        by_cases hd : (withDict σ s o).2 = d
        · subst hd
          rw [List.getElem?_set_self hlt, Option.getD_some]
          rw [h2, Option.getD_some] at hkk
          rw [dget_dset]
          split
          · next e =>
            exfalso
            rw [e, hkk] at hg
            unfold textOf at ht
            cases hc : σ.steps[c]? with
            | none => rw [hc] at ht; cases ht
            | some co =>
              have := hno c co hg hc
              rw [hc, Option.map_some, this] at ht
              injection ht with ht
              exact hne ht.symm
          · rw [← hkk]; exact hg
        · rw [List.getElem?_set_ne hd, h2, Option.getD_some]; exact hg

/-- Mappings on the heap keep their meaning when objects are added. -/
theorem den_ext {h h' : List PmodObj} (e : Ext h h') :
    ∀ {r : Nat} {t : Pmod}, Den h r t → Den h' r t := by
  intro r t d
  refine Den.rec (motive_1 := fun r t _ => Den h' r t) (motive_2 := fun rs ts _ => DenAll h' rs ts)
    ?_ ?_ ?_ d
  · intro r o st rg ho _ _ h1 h2; exact .mk r o st rg (e.get ho) h1 h2
  · exact .nil
  · intro k r t rs ts _ _ h1 h2; exact .cons k r t rs ts h1 h2

end Lemmas
