import Verif.Lemmas.PstepTree
import Verif.Spec.PstepAssign
/-
Assigning to attributes of steps: which step is made, and what else changes.
-/
set_option linter.unusedSimpArgs false
namespace Lemmas
open Py Model Spec

/-- Only empty dictionaries of children are shared between steps. -/
structure Sep (σ : PsState) : Prop where
  valid : ∀ (i : Nat) (o : StepObj) (d : Nat), σ.steps[i]? = some o → o.csteps = some d → d < σ.dicts.length
  apart : ∀ (i j : Nat) (oi oj : StepObj) (d : Nat), σ.steps[i]? = some oi → σ.steps[j]? = some oj →
    oi.csteps = some d → oj.csteps = some d → i = j ∨ σ.dicts[d]? = some []
  keys : ∀ (i : Nat) (o : StepObj), σ.steps[i]? = some o → (dkeys (σ.kids o)).Nodup
  kids : ∀ s k c, Edge σ s k c → c < σ.steps.length

/-- The state just before the new child is stored: the step has the dictionary `d` for itself. -/
structure Ready (σ : PsState) (s : Nat) (o : StepObj) (τ : PsState) (d : Nat) : Prop where
  len : τ.steps.length = σ.steps.length
  self : ∃ o', τ.steps[s]? = some o' ∧ o'.csteps = some d ∧ SameStep o o'
  others : ∀ i : Nat, i ≠ s → τ.steps[i]? = σ.steps[i]?
  dicts : Ext σ.dicts τ.dicts
  dict : τ.dicts[d]? = some (σ.kids o)
  alone : ∀ (i : Nat) (oi : StepObj), i ≠ s → σ.steps[i]? = some oi → oi.csteps ≠ some d

theorem kids_some {σ : PsState} {o : StepObj} {d : Nat} {l : List (Str × Nat)} (h : o.csteps = some d)
    (hd : σ.dicts[d]? = some l) : σ.kids o = l := by
  simp only [PsState.kids, h, hd, Option.getD_some]

theorem kids_none {σ : PsState} {o : StepObj} (h : o.csteps = none) : σ.kids o = [] := by
  simp only [PsState.kids, h]

section ready
variable {σ τ : PsState} {s d : Nat} {o : StepObj}

theorem ready_withDict (hS : Sep σ) (hs : σ.steps[s]? = some o) :
    Ready σ s o (withDict σ s o).1 (withDict σ s o).2 := by
  obtain ⟨o', ho', hcs, _, hss, hoth⟩ := withDict_steps hs
  have hk := withDict_kids σ s o
  refine ⟨withDict_length σ s o, ⟨o', ho', hcs, hss⟩, hoth, ?_, ?_, ?_⟩
  · unfold withDict; split
    · exact Ext.refl _
    · exact Ext.snoc _ _
  · have : (withDict σ s o).2 < (withDict σ s o).1.dicts.length := by
      unfold withDict; split
      · next d h1 h2 => exact hS.valid s o d hs h1
      · simp
    rw [List.getElem?_eq_getElem this] at hk ⊢
    rw [Option.getD_some] at hk; rw [hk]
  · intro i oi hi hoi
    unfold withDict; split
    · next d h1 h2 =>
      intro e
      rcases hS.apart i s oi o d hoi hs e h1 with h | h
      · exact hi h
      · rw [kids_some h1 h] at h2; cases h2
    · intro e
      have := hS.valid i oi _ hoi e
      omega

theorem ready_update (hR : Ready σ s o τ d) (hs : τ.steps[s]? = some o) (a : Str) :
    Ready σ s o (updateMappings τ s o a) d := by
  obtain ⟨o', ho', hcs, hss⟩ := hR.self
  rw [hs] at ho'; injection ho' with ho'; subst ho'
  have hlt : s < τ.steps.length := (List.getElem?_eq_some_iff.1 hs).1
  unfold updateMappings
  split
  · split
    · exact ⟨hR.len, ⟨o, hs, hcs, hss⟩, hR.others, hR.dicts, hR.dict, hR.alone⟩
    · exact hR
  · refine ⟨by simp [hR.len], ⟨_, List.getElem?_set_self hlt, hcs, ⟨rfl, rfl, rfl, rfl⟩⟩, fun i hi => ?_,
      hR.dicts, hR.dict, hR.alone⟩
    simp only
    rw [List.getElem?_set_ne (Ne.symm hi)]
    exact hR.others i hi

/-- The steps of the state about to be changed, against those before. -/
theorem ready_step (hS : Sep σ) (hs : σ.steps[s]? = some o) (hR : Ready σ s o τ d) {i : Nat} {oi : StepObj}
    (hi : σ.steps[i]? = some oi) : ∃ oi', τ.steps[i]? = some oi' ∧ SameStep oi oi' ∧ τ.kids oi' = σ.kids oi := by
  by_cases e : i = s
  · subst e
    rw [hs] at hi; injection hi with hi; subst hi
    obtain ⟨o', ho', hcs, hss⟩ := hR.self
    exact ⟨o', ho', hss, kids_some hcs hR.dict⟩
  · refine ⟨oi, by rw [hR.others i e]; exact hi, SameStep.refl _, ?_⟩
    cases hc : oi.csteps with
    | none => rw [kids_none hc, kids_none hc]
    | some d' =>
      have hv := hS.valid i oi d' hi hc
      rw [kids_some hc (List.getElem?_eq_getElem hv), kids_some hc (hR.dicts.get (List.getElem?_eq_getElem hv))]

theorem ready_back (hR : Ready σ s o τ d) (i : Nat) (oi' : StepObj) (hi : τ.steps[i]? = some oi') :
    ∃ oi, σ.steps[i]? = some oi := by
  have := (List.getElem?_eq_some_iff.1 hi).1
  rw [hR.len] at this
  exact ⟨_, List.getElem?_eq_getElem this⟩

theorem ready_edge (hS : Sep σ) (hs : σ.steps[s]? = some o) (hR : Ready σ s o τ d) (i : Nat) (k : Str) (c : Nat) :
    Edge τ i k c ↔ Edge σ i k c := by
  constructor
  · rintro ⟨oi', h1, h2⟩
    obtain ⟨oi, hi⟩ := ready_back hR i oi' h1
    obtain ⟨oi2, h3, _, h4⟩ := ready_step hS hs hR hi
    rw [h1] at h3; injection h3 with h3; subst h3
    exact ⟨oi, hi, by rw [← h4]; exact h2⟩
  · rintro ⟨oi, h1, h2⟩
    obtain ⟨oi2, h3, _, h4⟩ := ready_step hS hs hR h1
    exact ⟨oi2, h3, by rw [h4]; exact h2⟩

theorem ready_sep (hS : Sep σ) (hs : σ.steps[s]? = some o) (hR : Ready σ s o τ d) : Sep τ := by
  have hlt : d < τ.dicts.length := (List.getElem?_eq_some_iff.1 hR.dict).1
  obtain ⟨o', ho', hcs, hss⟩ := hR.self
  refine ⟨?_, ?_, ?_, ?_⟩
  · intro i oi d' hi hd
    by_cases e : i = s
    · subst e; rw [ho'] at hi; injection hi with hi; subst hi
      rw [hcs] at hd; injection hd with hd; subst hd; exact hlt
    · rw [hR.others i e] at hi
      obtain ⟨x, hx⟩ := hR.dicts
      rw [hx, List.length_append]
      exact Nat.lt_add_right _ (hS.valid i oi d' hi hd)
  · intro i j oi oj d' hi hj hdi hdj
    by_cases e : i = s
    · by_cases e2 : j = s
      · left; rw [e, e2]
      · exfalso
        subst e; rw [ho'] at hi; injection hi with hi; subst hi
        rw [hcs] at hdi; injection hdi with hdi; subst hdi
        rw [hR.others j e2] at hj
        exact hR.alone j oj e2 hj hdj
    · by_cases e2 : j = s
      · exfalso
        subst e2; rw [ho'] at hj; injection hj with hj; subst hj
        rw [hcs] at hdj; injection hdj with hdj; subst hdj
        rw [hR.others i e] at hi
        exact hR.alone i oi e hi hdi
      · rw [hR.others i e] at hi
        rw [hR.others j e2] at hj
        rcases hS.apart i j oi oj d' hi hj hdi hdj with h | h
        · exact .inl h
        · exact .inr (hR.dicts.get h)
  · intro i oi' hi
    obtain ⟨oi, h⟩ := ready_back hR i oi' hi
    obtain ⟨oi2, h3, _, h4⟩ := ready_step hS hs hR h
    rw [hi] at h3; injection h3 with h3; subst h3
    rw [h4]; exact hS.keys i oi h
  · intro a k c h
    rw [hR.len]
    exact hS.kids a k c ((ready_edge hS hs hR a k c).1 h)

/-- How the new child holds its children `K`: in no dictionary, an empty one that exists, or a new one. -/
def Holds (τ : PsState) (d : Nat) (co : StepObj) (X : List (List (Str × Nat))) (K : List (Str × Nat)) : Prop :=
  (co.csteps = none ∧ X = [] ∧ K = []) ∨
  (∃ d', co.csteps = some d' ∧ d' ≠ d ∧ τ.dicts[d']? = some [] ∧ X = [] ∧ K = []) ∨
  (co.csteps = some τ.dicts.length ∧ X = [K])

/-- The state after the new child has been stored. -/
def stored (τ : PsState) (d : Nat) (k : Str) (kids : List (Str × Nat)) (co : StepObj)
    (X : List (List (Str × Nat))) (h' : List PmodObj) : PsState :=
  ⟨h', τ.steps ++ [co], (τ.dicts ++ X).set d (dset kids k τ.steps.length)⟩

variable {k : Str} {co : StepObj} {X : List (List (Str × Nat))} {K : List (Str × Nat)} {h' : List PmodObj}

theorem stored_old (hS : Sep σ) (hs : σ.steps[s]? = some o) (hR : Ready σ s o τ d) {i : Nat} {oi : StepObj}
    (hi : σ.steps[i]? = some oi) : ∃ oi', (stored τ d k (σ.kids o) co X h').steps[i]? = some oi' ∧
      τ.steps[i]? = some oi' ∧ SameStep oi oi' ∧
      (stored τ d k (σ.kids o) co X h').kids oi' = if i = s then dset (σ.kids o) k σ.steps.length else σ.kids oi := by
  obtain ⟨oi', h1, h2, h3⟩ := ready_step hS hs hR hi
  have hlt : i < τ.steps.length := (List.getElem?_eq_some_iff.1 h1).1
  have hd : d < τ.dicts.length := (List.getElem?_eq_some_iff.1 hR.dict).1
  refine ⟨oi', by simp only [stored]; rw [List.getElem?_append_left hlt]; exact h1, h1, h2, ?_⟩
  by_cases e : i = s
  · subst e
    rw [if_pos rfl]
    obtain ⟨o', ho', hcs, _⟩ := hR.self
    rw [h1] at ho'; injection ho' with ho'; subst ho'
    refine kids_some hcs ?_
    simp only [stored]
    rw [List.getElem?_set_self (by rw [List.length_append]; omega), hR.len]
  · rw [if_neg e]
    cases hc : oi'.csteps with
    | none => rw [kids_none hc, ← h3, kids_none hc]
    | some d' =>
      have h4 := h1
      rw [hR.others i e] at h4
      have hne : d' ≠ d := fun e2 => hR.alone i oi' e h4 (by rw [hc, e2])
      have hv := (ready_sep hS hs hR).valid i oi' d' h1 hc
      rw [← h3, kids_some hc (List.getElem?_eq_getElem hv)]
      refine kids_some hc ?_
      simp only [stored]
      rw [List.getElem?_set_ne (Ne.symm hne), List.getElem?_append_left hv]
      exact List.getElem?_eq_getElem hv

theorem stored_new (hR : Ready σ s o τ d) (hH : Holds τ d co X K) :
    (stored τ d k (σ.kids o) co X h').steps[τ.steps.length]? = some co ∧
    (stored τ d k (σ.kids o) co X h').kids co = K := by
  have hd : d < τ.dicts.length := (List.getElem?_eq_some_iff.1 hR.dict).1
  refine ⟨by simp [stored], ?_⟩
  rcases hH with ⟨h1, _, rfl⟩ | ⟨d', h1, h2, h3, rfl, rfl⟩ | ⟨h1, rfl⟩
  · exact kids_none h1
  · refine kids_some h1 ?_
    simp only [stored]
    rw [List.getElem?_set_ne (Ne.symm h2), List.append_nil]
    exact h3
  · refine kids_some h1 ?_
    simp only [stored]
    rw [List.getElem?_set_ne (by omega), List.getElem?_concat_length]

theorem stored_index {i : Nat} {oi : StepObj} (hi : (stored τ d k (σ.kids o) co X h').steps[i]? = some oi) :
    (i < τ.steps.length ∧ τ.steps[i]? = some oi) ∨ (i = τ.steps.length ∧ oi = co) := by
  simp only [stored] at hi
  rcases Nat.lt_trichotomy i τ.steps.length with h | h | h
  · left; rw [List.getElem?_append_left h] at hi; exact ⟨h, hi⟩
  · right; subst h; rw [List.getElem?_concat_length] at hi; injection hi with hi; exact ⟨rfl, hi.symm⟩
  · rw [List.getElem?_eq_none (by simp; omega)] at hi; cases hi

theorem stored_edge (hS : Sep σ) (hs : σ.steps[s]? = some o) (hR : Ready σ s o τ d) (hH : Holds τ d co X K)
    (i : Nat) (k' : Str) (c : Nat) :
    Edge (stored τ d k (σ.kids o) co X h') i k' c ↔
      (i = s ∧ k' = k ∧ c = σ.steps.length) ∨ (¬ (i = s ∧ k' = k) ∧ Edge σ i k' c) ∨
      (i = σ.steps.length ∧ dget K k' = some c) := by
  have hsl : s < σ.steps.length := (List.getElem?_eq_some_iff.1 hs).1
  have hnew := stored_new (k := k) (h' := h') hR hH
  rw [hR.len] at hnew
  constructor
  · rintro ⟨oi, h1, h2⟩
    rcases stored_index h1 with ⟨hl, h3⟩ | ⟨hl, rfl⟩
    · obtain ⟨oj, hj⟩ := ready_back hR i oi h3
      obtain ⟨oi', g1, _, _, g2⟩ := stored_old (k := k) (co := co) (X := X) (h' := h') hS hs hR hj
      rw [h1] at g1; injection g1 with g1; subst g1
      rw [g2] at h2
      by_cases e : i = s
      · subst e
        rw [hs] at hj; injection hj with hj; subst hj
        rw [if_pos rfl, dget_dset] at h2
        split at h2
        · next ek => injection h2 with h2; exact .inl ⟨rfl, ek, h2.symm⟩
        · next ek => exact .inr (.inl ⟨fun h => ek h.2, ⟨o, hs, h2⟩⟩)
      · rw [if_neg e] at h2
        exact .inr (.inl ⟨fun h => e h.1, ⟨oj, hj, h2⟩⟩)
    · right; right
      rw [hnew.2] at h2
      exact ⟨by rw [hl, hR.len], h2⟩
  · rintro (⟨rfl, rfl, rfl⟩ | ⟨hne, oj, hj, h2⟩ | ⟨rfl, h2⟩)
    · obtain ⟨oi', g1, _, _, g2⟩ := stored_old (k := k') (co := co) (X := X) (h' := h') hS hs hR hs
      exact ⟨oi', g1, by rw [g2, if_pos rfl, dget_dset_self]⟩
    · obtain ⟨oi', g1, _, _, g2⟩ := stored_old (k := k) (co := co) (X := X) (h' := h') hS hs hR hj
      refine ⟨oi', g1, ?_⟩
      rw [g2]
      split
      · next e =>
        subst e
        rw [hs] at hj; injection hj with hj; subst hj
        rw [dget_dset_ne _ _ (fun ek => hne ⟨rfl, ek⟩)]
        exact h2
      · exact h2
    · exact ⟨co, hnew.1, by rw [hnew.2]; exact h2⟩

theorem stored_sep (hS : Sep σ) (hs : σ.steps[s]? = some o) (hR : Ready σ s o τ d) (hH : Holds τ d co X K)
    (hK : (dkeys K).Nodup) (hKr : ∀ k' c, dget K k' = some c → c < σ.steps.length) :
    Sep (stored τ d k (σ.kids o) co X h') := by
  have hτ := ready_sep hS hs hR
  have hd : d < τ.dicts.length := (List.getElem?_eq_some_iff.1 hR.dict).1
  have hsl : s < σ.steps.length := (List.getElem?_eq_some_iff.1 hs).1
  have hnew := stored_new (k := k) (h' := h') hR hH
  have hlen : (stored τ d k (σ.kids o) co X h').dicts.length = τ.dicts.length + X.length := by
    simp [stored]
  obtain ⟨o', ho', hcs, _⟩ := hR.self
  have hco : ∀ d', co.csteps = some d' → d' < τ.dicts.length + X.length ∧
      ∀ (i : Nat) (oi : StepObj), τ.steps[i]? = some oi → oi.csteps = some d' →
        (stored τ d k (σ.kids o) co X h').dicts[d']? = some [] := by
    intro d' hd'
    rcases hH with ⟨h1, _, rfl⟩ | ⟨d'', h1, h2, h3, rfl, rfl⟩ | ⟨h1, rfl⟩
    · rw [h1] at hd'; cases hd'
    · rw [h1] at hd'; injection hd' with hd'; subst hd'
      have := (List.getElem?_eq_some_iff.1 h3).1
      refine ⟨by omega, fun i oi _ _ => ?_⟩
      simp only [stored]
      rw [List.getElem?_set_ne (Ne.symm h2), List.append_nil]
      exact h3
    · rw [h1] at hd'; injection hd' with hd'; subst hd'
      refine ⟨by simp, fun i oi hi hc => ?_⟩
      have := hτ.valid i oi _ hi hc
      omega
  refine ⟨?_, ?_, ?_, ?_⟩
  · intro i oi d' hi hc
    rw [hlen]
    rcases stored_index hi with ⟨_, h3⟩ | ⟨_, rfl⟩
    · have := hτ.valid i oi d' h3 hc; omega
    · exact (hco d' hc).1
  · intro i j oi oj d' hi hj hci hcj
    rcases stored_index hi with ⟨hil, h3⟩ | ⟨hil, rfl⟩
    · rcases stored_index hj with ⟨hjl, h4⟩ | ⟨hjl, rfl⟩
      · rcases hτ.apart i j oi oj d' h3 h4 hci hcj with h | h
        · exact .inl h
        · by_cases e : d' = d
          · left
            subst e
            have q : ∀ (i : Nat) (oi : StepObj), τ.steps[i]? = some oi → oi.csteps = some d' → i = s := by
              intro i oi hi hc
              refine Classical.byContradiction (fun hne => ?_)
              rw [hR.others i hne] at hi
              exact hR.alone i oi hne hi hc
            rw [q i oi h3 hci, q j oj h4 hcj]
          · right
            have := (List.getElem?_eq_some_iff.1 h).1
            simp only [stored]
            rw [List.getElem?_set_ne (Ne.symm e), List.getElem?_append_left this]
            exact h
      · exact .inr ((hco d' hcj).2 i oi h3 hci)
    · rcases stored_index hj with ⟨hjl, h4⟩ | ⟨hjl, rfl⟩
      · exact .inr ((hco d' hci).2 j oj h4 hcj)
      · left; rw [hil, hjl]
  · intro i oi hi
    rcases stored_index hi with ⟨hil, h3⟩ | ⟨hil, rfl⟩
    · obtain ⟨oj, hj⟩ := ready_back hR i oi h3
      obtain ⟨oi', g1, _, _, g2⟩ := stored_old (k := k) (co := co) (X := X) (h' := h') hS hs hR hj
      rw [hi] at g1; injection g1 with g1; subst g1
      rw [g2]
      split
      · exact nodup_dkeys_dset _ _ (hS.keys s o hs)
      · exact hS.keys i oj hj
    · rw [hnew.2]; exact hK
  · intro a k' c h
    have hl : (stored τ d k (σ.kids o) co X h').steps.length = σ.steps.length + 1 := by
      simp [stored, hR.len]
    rw [hl]
    rcases (stored_edge hS hs hR hH a k' c).1 h with ⟨_, _, rfl⟩ | ⟨_, h⟩ | ⟨_, h⟩
    · omega
    · have := hS.kids a k' c h; omega
    · have := hKr k' c h; omega

end ready

/-- Where the attributes of a new child come from: from a step `e` that is not empty, or nowhere. -/
def From (σ : PsState) (k : Str) (alias : Option Str) (ex : Option Nat) (co : StepObj) (K : List (Str × Nat)) : Prop :=
  (∃ e eo, ex = some e ∧ σ.steps[e]? = some eo ∧ eo.name ≠ [] ∧ co.name = alias.getD k ∧ co.orig = eo.orig ∧
    co.locked = eo.locked ∧ co.tags = eo.tags ∧ K = σ.kids eo) ∨
  ((∀ e eo, ex = some e → σ.steps[e]? = some eo → eo.name = []) ∧ co.orig = k ∧ co.locked = canRelocate ∧
    co.tags = [] ∧ (∀ a, alias = some a → co.name = a) ∧ K = [])

theorem storeChild_spec {F : Nat} {E : RegexLib} {σ τ : PsState} {s d : Nat} {o : StepObj} {k : Str}
    {alias : Option Str} {ex : Option Nat} (hS : Sep σ) (hs : σ.steps[s]? = some o) (hR : Ready σ s o τ d)
    (hself : ex = some s → σ.kids o ≠ []) :
    (∃ e, storeChild F E τ s d k alias ex = (τ, .error e) ∧
      ∀ e' eo, ex = some e' → σ.steps[e']? = some eo → eo.name = []) ∨
    ∃ h' co X K, storeChild F E τ s d k alias ex =
        (stored τ d k (σ.kids o) co X h', .ok σ.steps.length) ∧ Holds τ d co X K ∧ From σ k alias ex co K := by
  have hd : d < τ.dicts.length := (List.getElem?_eq_some_iff.1 hR.dict).1
  obtain ⟨o', ho', hcs, _⟩ := hR.self
  unfold storeChild
  have hmaps : (∃ e eo eo', ex = some e ∧ τ.steps[e]? = some eo' ∧ σ.steps[e]? = some eo ∧ eo.name ≠ [] ∧ SameStep eo eo' ∧
      τ.kids eo' = σ.kids eo ∧
      existingOr τ ex ((τ.steps[s]?).bind StepObj.pmod) = .step e) ∨
      ((∀ e eo, ex = some e → σ.steps[e]? = some eo → eo.name = []) ∧
        ∀ e, existingOr τ ex ((τ.steps[s]?).bind StepObj.pmod) ≠ .step e) := by
    cases ex with
    | none =>
      right
      refine ⟨fun e _ h => (by cases h), fun e h => ?_⟩
      cases existingOr_step h
    | some e =>
      cases hse : σ.steps[e]? with
      | none =>
        right
        refine ⟨fun e' eo' h1 h2 => ?_, fun e' h => ?_⟩
        · injection h1 with h1; subst h1; rw [hse] at h2; cases h2
        · have : τ.steps[e]? = none := by
            rw [List.getElem?_eq_none_iff] at hse ⊢; rw [hR.len]; exact hse
          unfold existingOr at h
          simp only [this] at h
          split at h <;> cases h
      | some eo =>
        obtain ⟨eo', h1, h2, h3⟩ := ready_step hS hs hR hse
        by_cases hn : eo.name = []
        · right
          refine ⟨fun e' eo2 g1 g2 => ?_, fun e' h => ?_⟩
          · injection g1 with g1; subst g1; rw [hse] at g2; injection g2 with g2; subst g2; exact hn
          · unfold existingOr at h
            simp only [h1, h2.name, hn, if_true] at h
            split at h <;> cases h
        · left
          refine ⟨e, eo, eo', rfl, h1, hse, hn, h2, h3, ?_⟩
          unfold existingOr
          simp only [h1, h2.name, hn, if_false]
  rcases hmaps with ⟨e, eo, eo', rfl, h1, h2, h3, h4, h5, h6⟩ | ⟨h1, h2⟩
  · right
    rw [h6]
    have hn : eo'.name ≠ [] := by rw [h4.name]; exact h3
    simp only [newStep, h1, hn, if_false, cloneStep]
    by_cases he : (τ.kids eo').isEmpty = true
    · simp only [he, if_true]
      refine ⟨τ.pmods, { eo' with name := alias.getD k }, [], [], ?_, ?_, ?_⟩
      · simp only [stored, List.append_nil, hR.dict, Option.getD_some, hR.len]
      · cases hc : eo'.csteps with
        | none => exact .inl ⟨rfl, rfl, rfl⟩
        | some d' =>
          refine .inr (.inl ⟨d', rfl, ?_, ?_, rfl, rfl⟩)
          · intro ed
            subst ed
            by_cases es : e = s
            · subst es
              rw [hs] at h2; injection h2 with h2; subst h2
              refine hself rfl ?_
              rw [← h5]; exact List.isEmpty_iff.1 he
            · have := h1
              rw [hR.others e es] at this
              exact hR.alone e eo' es this hc
          · have hv := (ready_sep hS hs hR).valid e eo' d' h1 hc
            have := kids_some hc (List.getElem?_eq_getElem hv)
            rw [List.getElem?_eq_getElem hv, ← this, List.isEmpty_iff.1 he]
      · exact .inl ⟨e, eo, rfl, h2, h3, rfl, h4.orig, h4.locked, h4.tags, by rw [← h5, List.isEmpty_iff.1 he]⟩
    · have he' : (τ.kids eo').isEmpty = false := by simpa using he
      simp only [he']
      refine ⟨τ.pmods, { eo' with name := alias.getD k, csteps := some τ.dicts.length }, [τ.kids eo'], τ.kids eo', ?_, ?_, ?_⟩
      · simp only [stored, Bool.false_eq_true, if_false]
        rw [List.getElem?_append_left hd, hR.dict, Option.getD_some, hR.len]
      · exact .inr (.inr ⟨rfl, rfl⟩)
      · exact .inl ⟨e, eo, rfl, h2, h3, rfl, h4.orig, h4.locked, h4.tags, h5⟩
  · revert h2
    generalize existingOr τ ex ((τ.steps[s]?).bind StepObj.pmod) = m
    intro h2
    cases m with
    | step e => exact absurd rfl (h2 e)
    | none =>
      right
      refine ⟨τ.pmods, ⟨alias.getD k, k, none, none, canRelocate, []⟩, [], [], ?_, .inl ⟨rfl, rfl, rfl⟩, ?_⟩
      · simp only [newStep, freshStep, List.foldl_nil, stored, List.append_nil, hR.dict, Option.getD_some, hR.len]
      · exact .inr ⟨h1, rfl, rfl, rfl, fun a ha => by subst ha; rfl, rfl⟩
    | pmod p =>
      simp only [newStep]
      cases hdesc : descendH F E τ.pmods p k with
      | error e => exact .inl ⟨e, rfl, h1⟩
      | ok r =>
        obtain ⟨h', pm, al⟩ := r
        right
        simp only [freshStep, List.foldl_nil]
        refine ⟨h', _, [], [], by simp only [stored, List.append_nil, hR.dict, Option.getD_some, hR.len]; rfl, .inl ⟨rfl, rfl, rfl⟩, ?_⟩
        exact .inr ⟨h1, rfl, rfl, rfl, fun a ha => by subst ha; rfl, rfl⟩

/-- What making a child does. -/
theorem makeCstep_spec {F : Nat} {E : RegexLib} {σ : PsState} {s : Nat} {o : StepObj} {k : Str}
    {alias : Option Str} {ex : Option Nat} (hS : Sep σ) (hs : σ.steps[s]? = some o)
    (hself : ex = some s → σ.kids o ≠ []) :
    ∃ τ d, Ready σ s o τ d ∧
    ((∃ e, makeCstep F E σ s k alias ex = (τ, .error e) ∧
      ∀ e' eo, ex.or (dget (σ.kids o) k) = some e' → σ.steps[e']? = some eo → eo.name = []) ∨
    ∃ h' co X K, makeCstep F E σ s k alias ex =
        (stored τ d k (σ.kids o) co X h', .ok σ.steps.length) ∧ Holds τ d co X K ∧
        From σ k alias (ex.or (dget (σ.kids o) k)) co K) := by
  have hW := ready_withDict hS hs
  unfold makeCstep
  simp only [hs]
  unfold withDict at hW
  split
  · next d h1 h2 =>
    simp only [h1, h2] at hW
    cases ex with
    | some e => exact ⟨_, _, hW, storeChild_spec hS hs hW hself⟩
    | none =>
      have hne : σ.kids o ≠ [] := by intro e; rw [e] at h2; cases h2
      rw [Option.none_or]
      cases alias with
      | none => exact ⟨_, _, hW, storeChild_spec hS hs hW (fun _ => hne)⟩
      | some a =>
        have hU := ready_update hW hs a
        exact ⟨_, _, hU, storeChild_spec hS hs hU (fun _ => hne)⟩
  · next hno =>
    have hkn : σ.kids o = [] := by
      cases hc : o.csteps with
      | none => exact kids_none hc
      | some d =>
        cases hk : (σ.kids o).isEmpty with
        | true => exact List.isEmpty_iff.1 hk
        | false => exact (hno d hc hk).elim
    have hex : ex.or (dget (σ.kids o) k) = ex := by rw [hkn]; cases ex <;> rfl
    rw [hex]
    have hW' : Ready σ s o { σ with dicts := σ.dicts ++ [[]], steps := σ.steps.set s { o with csteps := some σ.dicts.length } } σ.dicts.length := by
      revert hW
      split
      · next d h1 h2 => exact (hno d h1 h2).elim
      · exact id
    exact ⟨_, _, hW', storeChild_spec hS hs hW' hself⟩

/-! ### Histories -/

theorem sep_init (h : List PmodObj) : Sep ⟨h, [], []⟩ := by
  refine ⟨?_, ?_, ?_, ?_⟩
  · intro i o d hi; simp at hi
  · intro i j oi oj d hi; simp at hi
  · intro i o hi; simp at hi
  · rintro s k c ⟨o, hi, _⟩; simp at hi

theorem from_kids {σ : PsState} {k : Str} {alias : Option Str} {ex : Option Nat} {co : StepObj} {K : List (Str × Nat)}
    (hS : Sep σ) (h : From σ k alias ex co K) :
    (dkeys K).Nodup ∧ ∀ k' c, dget K k' = some c → c < σ.steps.length := by
  rcases h with ⟨e, eo, _, h, _, _, _, _, _, rfl⟩ | ⟨_, _, _, _, _, rfl⟩
  · exact ⟨hS.keys e eo h, fun k' c hc => hS.kids e k' c ⟨eo, h, hc⟩⟩
  · exact ⟨by simp [dkeys], fun k' c hc => by simp [dget] at hc⟩

theorem make_sep (F : Nat) (E : RegexLib) {σ : PsState} (s : Nat) (k : Str) (alias : Option Str) {ex : Option Nat}
    (hS : Sep σ) (hself : ex ≠ some s) : Sep (makeCstep F E σ s k alias ex).1 := by
  cases hs : σ.steps[s]? with
  | none => simp only [makeCstep, hs]; exact hS
  | some o =>
    obtain ⟨τ, d, hR, ⟨e, he, _⟩ | ⟨h', co, X, K, he, hH, hF⟩⟩ :=
      makeCstep_spec (F := F) (E := E) (k := k) (alias := alias) hS hs (fun h => absurd h hself)
    · rw [he]; exact ready_sep hS hs hR
    · rw [he]
      obtain ⟨h1, h2⟩ := from_kids hS hF
      exact stored_sep hS hs hR hH h1 h2

theorem get_sep (F : Nat) (E : RegexLib) {σ : PsState} (s : Nat) (k : Str) (hS : Sep σ) :
    Sep (getAttr F E σ s k).1 := by
  have hm := make_sep F E s k none hS (ex := none) (by simp)
  unfold getAttr
  split
  · exact hS
  · split
    · exact hS
    · split
      · exact hS
      · have hmake : Sep (match makeCstep F E σ s k none none with
          | (σ', .ok c) => (σ', Except.ok (some c))
          | (σ', .error e) => (σ', .error e) : PsState × Except PyErr (Option Nat)).1 := by
          generalize makeCstep F E σ s k none none = q at hm ⊢
          obtain ⟨q1, q2⟩ := q
          cases q2 <;> exact hm
        simp only
        split
        · exact hmake
        · split
          · exact hmake
          · split
            · exact hmake
            · exact hS

theorem setAttr_fst (F : Nat) (E : RegexLib) (σ : PsState) (s' : Nat) (k : Str) :
    (∀ a, (setAttr F E σ s' k (.str a)).1 = (makeCstep F E σ s' k (some a) none).1) ∧
    (∀ v, (setAttr F E σ s' k (.step v)).1 = (makeCstep F E σ s' k none (some v)).1) ∧
    (setAttr F E σ s' k .other).1 = σ := by
  refine ⟨fun a => ?_, fun v => ?_, rfl⟩
  · unfold setAttr; simp only
    generalize makeCstep F E σ s' k (some a) none = q
    obtain ⟨q1, q2⟩ := q
    cases q2 <;> rfl
  · unfold setAttr; simp only
    generalize makeCstep F E σ s' k none (some v) = q
    obtain ⟨q1, q2⟩ := q
    cases q2 <;> rfl

theorem sep_set {σ : PsState} {s : Nat} {o o' : StepObj} (hS : Sep σ) (hs : σ.steps[s]? = some o)
    (hc : o'.csteps = o.csteps) : Sep { σ with steps := σ.steps.set s o' } := by
  have hlt : s < σ.steps.length := (List.getElem?_eq_some_iff.1 hs).1
  have back : ∀ (i : Nat) (oi : StepObj), (σ.steps.set s o')[i]? = some oi →
      ∃ oj, σ.steps[i]? = some oj ∧ oi.csteps = oj.csteps := by
    intro i oi hi
    by_cases e : s = i
    · subst e
      rw [List.getElem?_set_self hlt] at hi; injection hi with hi; subst hi
      exact ⟨o, hs, hc⟩
    · rw [List.getElem?_set_ne e] at hi
      exact ⟨oi, hi, rfl⟩
  have hk : ∀ oi oj : StepObj, oi.csteps = oj.csteps →
      PsState.kids { σ with steps := σ.steps.set s o' } oi = σ.kids oj := by
    intro oi oj h; simp only [PsState.kids, h]
  refine ⟨?_, ?_, ?_, ?_⟩
  · intro i oi d hi hd
    obtain ⟨oj, h1, h2⟩ := back i oi hi
    exact hS.valid i oj d h1 (by rw [← h2]; exact hd)
  · intro i j oi oj d hi hj hdi hdj
    obtain ⟨oi2, h1, h2⟩ := back i oi hi
    obtain ⟨oj2, h3, h4⟩ := back j oj hj
    exact hS.apart i j oi2 oj2 d h1 h3 (by rw [← h2]; exact hdi) (by rw [← h4]; exact hdj)
  · intro i oi hi
    obtain ⟨oj, h1, h2⟩ := back i oi hi
    rw [hk oi oj h2]; exact hS.keys i oj h1
  · rintro a k c ⟨oi, hi, hg⟩
    obtain ⟨oj, h1, h2⟩ := back a oi hi
    rw [hk oi oj h2] at hg
    simpa using hS.kids a k c ⟨oj, h1, hg⟩

theorem sep_append {σ : PsState} {co : StepObj} {X : List (List (Str × Nat))} {K : List (Str × Nat)} {h' : List PmodObj}
    (hS : Sep σ) (hH : Holds σ σ.dicts.length co X K) (hK : (dkeys K).Nodup)
    (hKr : ∀ k' c, dget K k' = some c → c < σ.steps.length) : Sep ⟨h', σ.steps ++ [co], σ.dicts ++ X⟩ := by
  have idx : ∀ (i : Nat) (oi : StepObj), (σ.steps ++ [co])[i]? = some oi →
      σ.steps[i]? = some oi ∨ (i = σ.steps.length ∧ oi = co) := by
    intro i oi hi
    rcases Nat.lt_trichotomy i σ.steps.length with h | h | h
    · left; rw [List.getElem?_append_left h] at hi; exact hi
    · right; subst h; rw [List.getElem?_concat_length] at hi; injection hi with hi; exact ⟨rfl, hi.symm⟩
    · rw [List.getElem?_eq_none (by simp; omega)] at hi; cases hi
  have hold : ∀ (i : Nat) (oi : StepObj), σ.steps[i]? = some oi →
      PsState.kids ⟨h', σ.steps ++ [co], σ.dicts ++ X⟩ oi = σ.kids oi := by
    intro i oi hi
    cases hc : oi.csteps with
    | none => rw [kids_none hc, kids_none hc]
    | some d =>
      have hv := hS.valid i oi d hi hc
      rw [kids_some hc (List.getElem?_eq_getElem hv)]
      refine kids_some hc ?_
      simp only
      rw [List.getElem?_append_left hv]
      exact List.getElem?_eq_getElem hv
  have hnew : PsState.kids ⟨h', σ.steps ++ [co], σ.dicts ++ X⟩ co = K := by
    rcases hH with ⟨h1, _, rfl⟩ | ⟨d', h1, h2, h3, rfl, rfl⟩ | ⟨h1, rfl⟩
    · exact kids_none h1
    · exact kids_some h1 (by simp only [List.append_nil]; exact h3)
    · exact kids_some h1 (by simp only; rw [List.getElem?_concat_length])
  have hco : ∀ d', co.csteps = some d' → d' < (σ.dicts ++ X).length ∧
      ∀ (i : Nat) (oi : StepObj), σ.steps[i]? = some oi → oi.csteps = some d' → (σ.dicts ++ X)[d']? = some [] := by
    intro d' hd'
    rcases hH with ⟨h1, _, rfl⟩ | ⟨d'', h1, h2, h3, rfl, rfl⟩ | ⟨h1, rfl⟩
    · rw [h1] at hd'; cases hd'
    · rw [h1] at hd'; injection hd' with hd'; subst hd'
      have := (List.getElem?_eq_some_iff.1 h3).1
      exact ⟨by simp; omega, fun i oi _ _ => by simpa using h3⟩
    · rw [h1] at hd'; injection hd' with hd'; subst hd'
      refine ⟨by simp, fun i oi hi hc => ?_⟩
      have := hS.valid i oi _ hi hc
      omega
  refine ⟨?_, ?_, ?_, ?_⟩
  · intro i oi d hi hd
    rcases idx i oi hi with h | ⟨_, rfl⟩
    · have := hS.valid i oi d h hd
      simp only [List.length_append]; omega
    · exact (hco d hd).1
  · intro i j oi oj d hi hj hdi hdj
    rcases idx i oi hi with h | ⟨hil, rfl⟩
    · rcases idx j oj hj with h2 | ⟨hjl, rfl⟩
      · rcases hS.apart i j oi oj d h h2 hdi hdj with h3 | h3
        · exact .inl h3
        · exact .inr ((show Ext σ.dicts (σ.dicts ++ X) from ⟨X, rfl⟩).get h3)
      · exact .inr ((hco d hdj).2 i oi h hdi)
    · rcases idx j oj hj with h2 | ⟨hjl, rfl⟩
      · exact .inr ((hco d hdi).2 j oj h2 hdj)
      · left; rw [hil, hjl]
  · intro i oi hi
    rcases idx i oi hi with h | ⟨_, rfl⟩
    · rw [hold i oi h]; exact hS.keys i oi h
    · rw [hnew]; exact hK
  · rintro a k c ⟨oi, hi, hg⟩
    simp only [List.length_append, List.length_cons, List.length_nil]
    rcases idx a oi hi with h | ⟨_, rfl⟩
    · rw [hold a oi h] at hg
      have := hS.kids a k c ⟨oi, h, hg⟩
      omega
    · rw [hnew] at hg
      have := hKr k c hg
      omega

theorem new_sep (F : Nat) (E : RegexLib) {σ : PsState} (pname : Str) (maps : Maps) (alias : Option Str)
    (tags : List Str) (hS : Sep σ) : Sep (newStep F E σ pname maps alias tags).1 := by
  have fresh : ∀ (co : StepObj) (h' : List PmodObj), co.csteps = none → Sep ⟨h', σ.steps ++ [co], σ.dicts⟩ := by
    intro co h' hc
    have := sep_append (h' := h') hS (co := co) (X := []) (K := []) (.inl ⟨hc, rfl, rfl⟩) (by simp [dkeys])
      (fun k' c h => by simp [dget] at h)
    simpa using this
  unfold newStep
  split
  · exact fresh _ _ rfl
  · next e =>
    split
    · exact hS
    · next o ho =>
      split
      · exact fresh _ _ rfl
      · simp only [cloneStep]
        by_cases he : (σ.kids o).isEmpty = true
        · simp only [he, if_true]
          have : Holds σ σ.dicts.length { o with name := alias.getD pname } [] [] := by
            cases hc : o.csteps with
            | none => exact .inl ⟨rfl, rfl, rfl⟩
            | some d =>
              have hv := hS.valid e o d ho hc
              refine .inr (.inl ⟨d, rfl, by omega, ?_, rfl, rfl⟩)
              have := kids_some hc (List.getElem?_eq_getElem hv)
              rw [List.getElem?_eq_getElem hv, ← this, List.isEmpty_iff.1 he]
          have := sep_append (h' := σ.pmods) hS this (by simp [dkeys]) (fun k' c h => by simp [dget] at h)
          simpa using this
        · have he' : (σ.kids o).isEmpty = false := by simpa using he
          simp only [he', Bool.false_eq_true, if_false]
          exact sep_append hS (.inr (.inr ⟨rfl, rfl⟩)) (hS.keys e o ho) (fun k' c hc => hS.kids e k' c ⟨o, ho, hc⟩)
  · split
    · exact hS
    · exact fresh _ _ rfl

theorem op_sep (F : Nat) (E : RegexLib) {σ : PsState} (op : StepOp) (hop : ∀ s k, op ≠ .assignStep s k s)
    (hS : Sep σ) : Sep (op.apply F E σ) := by
  cases op with
  | new pname maps alias tags => exact new_sep F E pname maps alias tags hS
  | get s attr => exact get_sep F E s attr hS
  | assignText s attr text =>
    simp only [StepOp.apply, (setAttr_fst F E σ s attr).1]
    exact make_sep F E s attr _ hS (by simp)
  | assignStep s attr v =>
    simp only [StepOp.apply, (setAttr_fst F E σ s attr).2.1]
    refine make_sep F E s attr _ hS (fun e => ?_)
    injection e with e; subst e; exact hop v attr rfl
  | assignOther s attr => exact hS
  | lock s level =>
    simp only [StepOp.apply, setLocked]
    split
    · exact hS
    · next o ho =>
      split
      · exact hS
      · exact sep_set hS ho rfl
  | tag s ts =>
    simp only [StepOp.apply, tagStep]
    split
    · exact hS
    · next o ho =>
      split
      · split
        · exact hS
        · exact sep_set hS ho rfl
      · exact sep_set hS ho rfl
  | untag s t =>
    simp only [StepOp.apply, untagStep]
    split
    · exact hS
    · next o ho =>
      split
      · exact hS
      · exact sep_set hS ho rfl

theorem run_sep (F : Nat) (E : RegexLib) (ops : List StepOp) : ∀ {σ : PsState}, SelfFree ops → Sep σ →
    Sep (runOps F E σ ops) := by
  induction ops with
  | nil => intro σ _ h; exact h
  | cons op ops ih =>
    intro σ hf h
    exact ih (fun op' ho => hf op' (by simp [ho])) (op_sep F E op (hf op (by simp)) h)

/-! ### What an assignment does -/

theorem same_kept {o o' : StepObj} (h : SameStep o o') :
    o'.name = o.name ∧ o'.orig = o.orig ∧ o'.locked = o.locked ∧ o'.tags = o.tags := ⟨h.name, h.orig, h.locked, h.tags⟩

/-- Making a child, in the terms of the specification. -/
theorem make_made {F : Nat} {E : RegexLib} {σ σ' : PsState} {s : Nat} {o : StepObj} {k : Str}
    {alias : Option Str} {ex : Option Nat} {c : Nat} (hS : Sep σ) (hs : σ.steps[s]? = some o)
    (hself : ex ≠ some s) (hm : makeCstep F E σ s k alias ex = (σ', .ok c)) :
    Sep σ' ∧ c = σ.steps.length ∧ σ'.steps.length = σ.steps.length + 1 ∧ OthersKept σ σ' s k ∧ Edge σ' s k c ∧
    (∀ e t, ex.or (dget (σ.kids o) k) = some e → textOf σ e = some t → t ≠ [] →
      Like σ σ' c e ∧ textOf σ' c = some (alias.getD k)) ∧
    ((∀ e, ex.or (dget (σ.kids o) k) = some e → textOf σ e = some []) →
      Bare σ' c k ∧ ∀ a, alias = some a → textOf σ' c = some a) := by
  have hsl : s < σ.steps.length := (List.getElem?_eq_some_iff.1 hs).1
  have hsep : Sep σ' := by
    have := make_sep F E s k alias hS hself
    rw [hm] at this; exact this
  obtain ⟨τ, d, hR, ⟨e, he, _⟩ | ⟨h', co, X, K, he, hH, hF⟩⟩ :=
    makeCstep_spec (F := F) (E := E) (k := k) (alias := alias) hS hs (fun h => absurd h hself)
  · rw [he] at hm; cases hm
  · rw [he] at hm
    injection hm with h1 h2
    injection h2 with h2
    have hnew := stored_new (k := k) (h' := h') hR hH
    rw [hR.len, h1, h2] at hnew
    have hedge := stored_edge (k := k) (h' := h') hS hs hR hH
    rw [h1] at hedge
    have hold : AttrsKept σ σ' := by
      intro i oi hi
      obtain ⟨oi', g1, _, g2, _⟩ := stored_old (k := k) (co := co) (X := X) (h' := h') hS hs hR hi
      rw [h1] at g1
      exact ⟨oi', g1, same_kept g2⟩
    have hc : ∀ k' d', Edge σ' c k' d' ↔ dget K k' = some d' := by
      intro k' d'
      rw [hedge]
      constructor
      · rintro (⟨e, _⟩ | ⟨_, oi, hi, _⟩ | ⟨_, h⟩)
        · omega
        · rw [← h2, List.getElem?_eq_none (Nat.le_refl _)] at hi; cases hi
        · exact h
      · intro h; exact .inr (.inr ⟨h2.symm, h⟩)
    refine ⟨hsep, h2.symm, ?_, ⟨hold, ?_⟩, ?_, ?_, ?_⟩
    · rw [← h1]; simp [stored, hR.len]
    · intro i k' c' hi hne
      rw [hedge]
      constructor
      · rintro (⟨e1, e2, _⟩ | ⟨_, h⟩ | ⟨e, _⟩)
        · exact absurd ⟨e1, e2⟩ hne
        · exact h
        · omega
      · intro h; exact .inr (.inl ⟨hne, h⟩)
    · rw [hedge]; exact .inl ⟨rfl, rfl, h2.symm⟩
    · intro e t hx ht hne
      rcases hF with ⟨e', eo, g1, g2, g3, g4, g5, g6, g7, rfl⟩ | ⟨g1, _⟩
      · rw [hx] at g1; injection g1 with g1; subst g1
        refine ⟨⟨co, eo, hnew.1, g2, g5, g6, g7, fun k' d' => ?_⟩, ?_⟩
        · rw [hc]
          constructor
          · intro h; exact ⟨eo, g2, h⟩
          · rintro ⟨eo', h3, h4⟩
            rw [g2] at h3; injection h3 with h3; subst h3; exact h4
        · simp only [textOf, hnew.1, Option.map_some, g4]
      · exfalso
        simp only [textOf] at ht
        cases hse : σ.steps[e]? with
        | none => rw [hse] at ht; cases ht
        | some eo =>
          rw [hse] at ht; injection ht with ht
          exact hne (by rw [← ht]; exact g1 e eo hx hse)
    · intro hall
      rcases hF with ⟨e', eo, g1, g2, g3, _⟩ | ⟨_, g2, g3, g4, g5, rfl⟩
      · exfalso
        have := hall e' g1
        simp only [textOf, g2, Option.map_some, Option.some.injEq] at this
        exact g3 this
      · refine ⟨⟨co, hnew.1, g2, g3, g4, fun k' d' h => ?_⟩, fun a ha => ?_⟩
        · rw [hc] at h; simp [dget] at h
        · simp only [textOf, hnew.1, Option.map_some, g5 a ha]

/-- A failed assignment. -/
theorem make_failed {F : Nat} {E : RegexLib} {σ σ' : PsState} {s : Nat} {k : Str}
    {alias : Option Str} {ex : Option Nat} {e : PyErr} (hS : Sep σ)
    (hself : ex ≠ some s) (hm : makeCstep F E σ s k alias ex = (σ', .error e)) :
    σ'.steps.length = σ.steps.length ∧ AttrsKept σ σ' ∧ ∀ i k' c, Edge σ' i k' c ↔ Edge σ i k' c := by
  cases hs : σ.steps[s]? with
  | none =>
    simp only [makeCstep, hs] at hm
    injection hm with h1; subst h1
    exact ⟨rfl, fun i o h => ⟨o, h, rfl, rfl, rfl, rfl⟩, fun _ _ _ => Iff.rfl⟩
  | some o =>
    obtain ⟨τ, d, hR, ⟨e, he, _⟩ | ⟨h', co, X, K, he, hH, hF⟩⟩ :=
      makeCstep_spec (F := F) (E := E) (k := k) (alias := alias) hS hs (fun h => absurd h hself)
    · rw [he] at hm; injection hm with h1; subst h1
      refine ⟨hR.len, fun i oi hi => ?_, ready_edge hS hs hR⟩
      obtain ⟨oi', g1, g2, _⟩ := ready_step hS hs hR hi
      exact ⟨oi', g1, same_kept g2⟩
    · rw [he] at hm; injection hm with _ h2; cases h2

/-- Assigning to a child that is not empty, or a step that is not empty, does not fail. -/
theorem make_ok (F : Nat) (E : RegexLib) {σ : PsState} {s : Nat} {o : StepObj} (k : Str)
    (alias : Option Str) {ex : Option Nat} (hS : Sep σ) (hs : σ.steps[s]? = some o)
    (hself : ex ≠ some s) {e : Nat} {t : Str} (hx : ex.or (dget (σ.kids o) k) = some e)
    (ht : textOf σ e = some t) (hne : t ≠ []) : ∃ σ' c, makeCstep F E σ s k alias ex = (σ', .ok c) := by
  obtain ⟨τ, d, hR, ⟨e', he, hbad⟩ | ⟨h', co, X, K, he, hH, hF⟩⟩ :=
    makeCstep_spec (F := F) (E := E) (k := k) (alias := alias) hS hs (fun h => absurd h hself)
  · exfalso
    simp only [textOf] at ht
    cases hse : σ.steps[e]? with
    | none => rw [hse] at ht; cases ht
    | some eo =>
      rw [hse] at ht; injection ht with ht
      exact hne (by rw [← ht]; exact hbad e eo hx hse)
  · exact ⟨_, _, he⟩

end Lemmas
