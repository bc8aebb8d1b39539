import Verif.Spec.StepSchema
import Verif.Lemmas.Pstep
/-
Lemmas on steps and their schemas.
-/
namespace Lemmas
open Py Model Spec

/-- At most one step more. -/
def OneMore (σ σ' : PsState) : Prop := σ'.steps.length = σ.steps.length ∨ σ'.steps.length = σ.steps.length + 1

theorem newStep_oneMore (F : Nat) (E : RegexLib) (σ : PsState) (pname : Str) (maps : Maps) (alias : Option Str) (tags : List Str) :
    OneMore σ (newStep F E σ pname maps alias tags).1 := by
  unfold newStep OneMore
  cases maps with
  | none => simp [freshStep]
  | step e =>
    simp only
    split
    · simp
    · split
      · simp [freshStep]
      · simp [cloneStep]
  | pmod p =>
    simp only
    split
    · simp
    · simp [freshStep]

theorem storeChild_oneMore (F : Nat) (E : RegexLib) (σ : PsState) (s d : Nat) (k : Str) (alias : Option Str) (ex : Option Nat) :
    OneMore σ (storeChild F E σ s d k alias ex).1 := by
  have := newStep_oneMore F E σ k (existingOr σ ex ((σ.steps[s]?).bind StepObj.pmod)) alias []
  unfold storeChild
  split
  · next e => rw [e] at this; exact this
  · next e => rw [e] at this; exact this

theorem makeCstep_oneMore (F : Nat) (E : RegexLib) (σ : PsState) (s : Nat) (k : Str) (alias : Option Str) (ex : Option Nat) :
    OneMore σ (makeCstep F E σ s k alias ex).1 := by
  unfold makeCstep
  split
  · exact .inl rfl
  · next o _ =>
    split
    · split
      · exact storeChild_oneMore ..
      · cases alias with
        | none => exact storeChild_oneMore ..
        | some a =>
          have h1 : (updateMappings σ s o a).steps.length = σ.steps.length := by
            unfold updateMappings
            split
            · split <;> rfl
            · simp
          have := storeChild_oneMore F E (updateMappings σ s o a) s ‹_› k (some a) (dget (σ.kids o) k)
          unfold OneMore at this ⊢
          rw [h1] at this
          exact this
    · have := storeChild_oneMore F E { σ with
        dicts := σ.dicts ++ [[]]
        steps := σ.steps.set s { o with csteps := some σ.dicts.length } } s σ.dicts.length k alias ex
      unfold OneMore at this ⊢
      simp only [List.length_set] at this
      exact this

theorem apply_oneMore (F : Nat) (E : RegexLib) (σ : PsState) (op : StepOp) : OneMore σ (op.apply F E σ) := by
  cases op with
  | new pname maps alias tags => exact newStep_oneMore ..
  | get s attr =>
    simp only [StepOp.apply, getAttr]
    have := makeCstep_oneMore F E σ s attr none none
    split
    · exact .inl rfl
    · split
      · exact .inl rfl
      · split
        · exact .inl rfl
        · generalize makeCstep F E σ s attr none none = r at this ⊢
          obtain ⟨σ', r⟩ := r
          split
          · cases r <;> exact this
          · split
            · cases r <;> exact this
            · split
              · cases r <;> exact this
              · exact .inl rfl
  | assignText s attr text =>
    simp only [StepOp.apply, setAttr]
    have := makeCstep_oneMore F E σ s attr (some text) none
    generalize makeCstep F E σ s attr (some text) none = r at this ⊢
    obtain ⟨σ', r⟩ := r
    cases r <;> exact this
  | assignStep s attr v =>
    simp only [StepOp.apply, setAttr]
    have := makeCstep_oneMore F E σ s attr none (some v)
    generalize makeCstep F E σ s attr none (some v) = r at this ⊢
    obtain ⟨σ', r⟩ := r
    cases r <;> exact this
  | assignOther s attr => exact .inl rfl
  | lock s level =>
    simp only [StepOp.apply, setLocked]
    split
    · exact .inl rfl
    · split
      · exact .inl rfl
      · left; simp
  | tag s ts =>
    simp only [StepOp.apply, tagStep]
    split
    · exact .inl rfl
    · split
      · split
        · exact .inl rfl
        · left; simp
      · left; simp
  | untag s t =>
    simp only [StepOp.apply, untagStep]
    split
    · exact .inl rfl
    · split
      · exact .inl rfl
      · left; simp

theorem clonedFrom_iff (σ : PsState) (e src : Nat) :
    clonedFrom σ (.step e) = some src ↔ src = e ∧ ∃ t, textOf σ e = some t ∧ t ≠ [] := by
  cases h : σ.steps[e]? with
  | none => simp [clonedFrom, textOf, h]
  | some o =>
    by_cases hn : o.name = []
    · simp [clonedFrom, textOf, h, hn]
    · simp [clonedFrom, textOf, h, hn]; exact ⟨fun x => x.symm, fun x => x.symm⟩

theorem copiedBy_iff (σ : PsState) (op : StepOp) (src : Nat) : copiedBy σ op = some src ↔ Copies σ op src := by
  constructor
  · intro h
    cases op with
    | new pname maps alias tags =>
      cases maps with
      | none => simp [copiedBy, clonedFrom] at h
      | pmod p => simp [copiedBy, clonedFrom] at h
      | step e =>
        obtain ⟨rfl, t, h1, h2⟩ := (clonedFrom_iff σ e src).1 h
        exact .given pname _ alias tags t h1 h2
    | assignText s attr text =>
      simp only [copiedBy, childOf] at h
      split at h
      · next o ho =>
        cases hc : dget (σ.kids o) attr with
        | none => simp [hc] at h
        | some c =>
          rw [hc] at h
          obtain ⟨rfl, t, h1, h2⟩ := (clonedFrom_iff σ c src).1 h
          exact .renamed s attr text _ t ⟨o, ho, hc⟩ h1 h2
      · simp at h
    | assignStep s attr v =>
      obtain ⟨rfl, t, h1, h2⟩ := (clonedFrom_iff σ v src).1 h
      exact .assigned s attr _ t h1 h2
    | _ => simp [copiedBy] at h
  · intro h
    cases h with
    | given pname e alias tags t h1 h2 => exact (clonedFrom_iff σ _ _).2 ⟨rfl, t, h1, h2⟩
    | renamed s k text c t he h1 h2 =>
      obtain ⟨o, ho, hc⟩ := he
      simp only [copiedBy, childOf, ho, hc]
      exact (clonedFrom_iff σ _ _).2 ⟨rfl, t, h1, h2⟩
    | assigned s k v t h1 h2 => exact (clonedFrom_iff σ _ _).2 ⟨rfl, t, h1, h2⟩

theorem Kin.more {cs cs' : List (Nat × Nat)} (h : ∀ p ∈ cs, p ∈ cs') {a b : Nat} (k : Kin cs a b) : Kin cs' a b := by
  induction k with
  | refl a => exact .refl a
  | copy h1 => exact .copy (h _ h1)
  | symm _ ih => exact .symm ih
  | trans _ _ ih1 ih2 => exact .trans ih1 ih2

/-- What holds of all states reached. -/
structure SchInv (st : SchState) (cs : List (Nat × Nat)) (had : List Nat) : Prop where
  len : st.ofStep.length = st.ps.steps.length
  refs : ∀ s j, st.schemaOf s = some j → j < st.schemas.length
  kin : ∀ a b j, st.schemaOf a = some j → st.schemaOf b = some j → Kin cs a b
  had : ∀ s, (st.schemaOf s).isSome = true ↔ s ∈ had

theorem schemaOf_lt {st : SchState} {s j : Nat} (h : st.schemaOf s = some j) : s < st.ofStep.length := by
  unfold SchState.schemaOf at h
  cases e : st.ofStep[s]? with
  | none => rw [e] at h; cases h
  | some x => exact (List.getElem?_eq_some_iff.1 e).1

/-- Asking for the schema. -/
theorem ask_facts {st : SchState} {cs : List (Nat × Nat)} {had : List Nat} (w : SchInv st cs had) {s : Nat} (hs : s < st.ps.steps.length) :
    (st.ask s).1.ps = st.ps ∧ (st.ask s).1.schemaOf s = some (st.ask s).2 ∧ (∀ s', s' ≠ s → (st.ask s).1.schemaOf s' = st.schemaOf s') ∧
    SchInv (st.ask s).1 cs (s :: had) ∧ (∀ j, j < st.schemas.length → (st.ask s).1.schemas[j]? = st.schemas[j]?) ∧
    (∀ j, st.schemaOf s = some j → (st.ask s).1 = st) ∧
    (st.schemaOf s = none → (st.ask s).2 = st.schemas.length ∧ (st.ask s).1.schemas = st.schemas ++ [[]]) := by
  unfold SchState.ask
  cases h : st.schemaOf s with
  | some j =>
    refine ⟨rfl, h, fun _ _ => rfl, ⟨w.len, w.refs, w.kin, ?_⟩, fun _ _ => rfl, fun _ _ => rfl, by simp⟩
    intro s'
    rw [w.had s']
    have := (w.had s).1 (by rw [h]; rfl)
    constructor
    · intro x; exact List.mem_cons_of_mem _ x
    · intro x
      rcases List.mem_cons.1 x with rfl | x
      · exact this
      · exact x
  | none =>
    have hl : s < st.ofStep.length := by rw [w.len]; exact hs
    have self : SchState.schemaOf { st with ofStep := st.ofStep.set s (some st.schemas.length), schemas := st.schemas ++ [[]] } s =
        some st.schemas.length := by
      simp [SchState.schemaOf, List.getElem?_set_self hl]
    have other : ∀ s', s' ≠ s → SchState.schemaOf
        { st with ofStep := st.ofStep.set s (some st.schemas.length), schemas := st.schemas ++ [[]] } s' = st.schemaOf s' := by
      intro s' hne
      simp [SchState.schemaOf, List.getElem?_set_ne (Ne.symm hne)]
    refine ⟨rfl, self, other, ⟨?_, ?_, ?_, ?_⟩, ?_, by simp, fun _ => ⟨rfl, rfl⟩⟩
    · simp [w.len]
    · intro s' j hj
      simp only [List.length_append, List.length_singleton]
      by_cases e : s' = s
      · subst e; rw [self] at hj; cases hj; omega
      · rw [other s' e] at hj; have := w.refs s' j hj; omega
    · intro a b j ha hb
      by_cases ea : a = s
      · subst ea
        rw [self] at ha; cases ha
        by_cases eb : b = a
        · subst eb; exact .refl _
        · rw [other b eb] at hb; have := w.refs b _ hb; omega
      · rw [other a ea] at ha
        by_cases eb : b = s
        · subst eb
          rw [self] at hb; cases hb
          have := w.refs a _ ha; omega
        · rw [other b eb] at hb; exact w.kin a b j ha hb
    · intro s'
      by_cases e : s' = s
      · subst e; rw [self]; simp
      · rw [other s' e, w.had s']; simp [e]
    · intro j hj; simp [List.getElem?_append_left hj]

theorem onSteps_schemaOf {F : Nat} {E : RegexLib} {st : SchState} {cs : List (Nat × Nat)} {had : List Nat} (w : SchInv st cs had)
    (op : StepOp) :
    (∀ s, s ≠ st.ps.steps.length → (st.onSteps F E op).schemaOf s = st.schemaOf s) ∧
    ((st.onSteps F E op).schemaOf st.ps.steps.length =
      if (op.apply F E st.ps).steps.length = st.ps.steps.length then none else (copiedBy st.ps op).bind st.schemaOf) := by
  unfold SchState.onSteps
  constructor
  · intro s hs
    simp only [SchState.schemaOf]
    split
    · rfl
    · rcases Nat.lt_or_ge s st.ofStep.length with h | h
      · rw [List.getElem?_append_left h]
      · have := w.len
        rw [List.getElem?_eq_none (by simp; omega), List.getElem?_eq_none h]
  · simp only [SchState.schemaOf]
    split
    · rw [List.getElem?_eq_none (by rw [w.len]; exact Nat.le_refl _)]; rfl
    · rw [← w.len]; simp

theorem sch_inv {F : Nat} {E : RegexLib} {st : SchState} {cs : List (Nat × Nat)} {had : List Nat} (h : SchReach F E st cs had) :
    SchInv st cs had := by
  induction h with
  | start pmods => exact ⟨rfl, by simp [SchState.schemaOf], by simp [SchState.schemaOf], by simp [SchState.schemaOf]⟩
  | @copy st cs had op src _ hc hm ih =>
    have hcb := (copiedBy_iff st.ps op src).2 hc
    obtain ⟨f1, f2⟩ := onSteps_schemaOf (F := F) (E := E) ih op
    rw [if_neg hm, hcb] at f2
    simp only [Option.bind_some] at f2
    have hlen : (op.apply F E st.ps).steps.length = st.ps.steps.length + 1 := (apply_oneMore F E st.ps op).resolve_left hm
    have hne : ∀ s j, st.schemaOf s = some j → s ≠ st.ps.steps.length := by
      intro s j hj e
      have := schemaOf_lt hj
      rw [ih.len, e] at this; omega
    show SchInv (st.onSteps F E op) _ _
    refine ⟨?_, ?_, ?_, ?_⟩
    · show (if _ then _ else _ : List (Option Nat)).length = (op.apply F E st.ps).steps.length
      rw [if_neg hm, hlen]; simp [ih.len]
    · intro s j hj
      show j < st.schemas.length
      by_cases e : s = st.ps.steps.length
      · subst e; rw [f2] at hj; exact ih.refs src j hj
      · rw [f1 s e] at hj; exact ih.refs s j hj
    · have old : ∀ a b, Kin cs a b → Kin ((src, st.ps.steps.length) :: cs) a b := fun a b k => Kin.more (fun p hp => List.mem_cons_of_mem _ hp) k
      have base : Kin ((src, st.ps.steps.length) :: cs) src st.ps.steps.length := .copy (by simp)
      intro a b j ha hb
      by_cases ea : a = st.ps.steps.length
      · subst ea
        rw [f2] at ha
        by_cases eb : b = st.ps.steps.length
        · subst eb; exact .refl _
        · rw [f1 b eb] at hb
          exact (base.symm).trans (old _ _ (ih.kin src b j ha hb))
      · rw [f1 a ea] at ha
        by_cases eb : b = st.ps.steps.length
        · subst eb
          rw [f2] at hb
          exact (old _ _ (ih.kin a src j ha hb)).trans base
        · rw [f1 b eb] at hb
          exact old _ _ (ih.kin a b j ha hb)
    · intro s
      by_cases e : s = st.ps.steps.length
      · subst e
        rw [f2, ih.had src]
        split
        · next hin => simp [hin]
        · next hin =>
          constructor
          · intro x; exact absurd x hin
          · intro x
            have := (ih.had _).2 x
            cases hx : st.schemaOf st.ps.steps.length with
            | none => rw [hx] at this; cases this
            | some j => exact absurd rfl (hne _ j hx)
      · rw [f1 s e, ih.had s]
        split
        · simp [e]
        · rfl
  | @fresh st cs had op _ hf ih =>
    obtain ⟨f1, f2⟩ := onSteps_schemaOf (F := F) (E := E) ih op
    have f2' : (st.onSteps F E op).schemaOf st.ps.steps.length = none := by
      rw [f2]
      split
      · rfl
      · next hm =>
        cases hcb : copiedBy st.ps op with
        | none => rfl
        | some src => exact absurd hm (hf ⟨src, (copiedBy_iff st.ps op src).1 hcb⟩)
    have hsame : ∀ s, (st.onSteps F E op).schemaOf s = st.schemaOf s := by
      intro s
      by_cases e : s = st.ps.steps.length
      · subst e
        rw [f2']
        cases hx : st.schemaOf st.ps.steps.length with
        | none => rfl
        | some j =>
          have := schemaOf_lt hx
          rw [ih.len] at this; omega
      · exact f1 s e
    show SchInv (st.onSteps F E op) _ _
    refine ⟨?_, ?_, ?_, ?_⟩
    · show (if _ then _ else _ : List (Option Nat)).length = (op.apply F E st.ps).steps.length
      split
      · next e => rw [e]; exact ih.len
      · next e => rw [(apply_oneMore F E st.ps op).resolve_left e]; simp [ih.len]
    · intro s j hj; rw [hsame] at hj; exact ih.refs s j hj
    · intro a b j ha hb; rw [hsame] at ha hb; exact ih.kin a b j ha hb
    · intro s; rw [hsame]; exact ih.had s
  | check s _ ih => exact ih
  | read s _ hs ih => exact (ask_facts ih hs).2.2.2.1
  | write s attr v _ hs ih =>
    have := (ask_facts ih hs).2.2.2.1
    exact ⟨this.len, fun s j hj => by
      show j < (List.set _ _ _).length
      rw [List.length_set]; exact this.refs s j hj, this.kin, this.had⟩

theorem write_facts {st : SchState} {cs : List (Nat × Nat)} {had : List Nat} (w : SchInv st cs had) {s : Nat} (hs : s < st.ps.steps.length)
    (attr : Str) (v : Doc) :
    written (st.write s attr v) s = dset (written st s) attr v ∧
    ∀ s', (st.schemaOf s' = none ∨ st.schemaOf s' ≠ st.schemaOf s) → s' ≠ s → written (st.write s attr v) s' = written st s' := by
  obtain ⟨a1, a2, a3, a4, a5, a6, a7⟩ := ask_facts w hs
  have hlt : (st.ask s).2 < (st.ask s).1.schemas.length := a4.refs s _ a2
  have hso : ∀ x, (st.write s attr v).schemaOf x = (st.ask s).1.schemaOf x := fun _ => rfl
  have hsch : (st.write s attr v).schemas =
      (st.ask s).1.schemas.set (st.ask s).2 (dset (((st.ask s).1.schemas[(st.ask s).2]?).getD []) attr v) := rfl
  constructor
  · unfold written SchState.todict
    have : (st.write s attr v).ask s = (st.write s attr v, (st.ask s).2) := by
      conv => lhs; unfold SchState.ask
      rw [hso, a2]
    rw [this]
    show ((st.write s attr v).schemas[(st.ask s).2]?).getD [] = _
    rw [hsch, List.getElem?_set_self hlt]
    rfl
  · intro s' hd hne
    unfold written SchState.todict
    conv => lhs; unfold SchState.ask
    conv => rhs; unfold SchState.ask
    rw [hso, a3 s' hne]
    cases hj : st.schemaOf s' with
    | none => simp
    | some j =>
      show ((st.write s attr v).schemas[j]?).getD [] = (st.schemas[j]?).getD []
      have hjl := w.refs s' j hj
      rw [hsch, List.getElem?_set_ne ?_, a5 j hjl]
      intro e
      cases hx : st.schemaOf s with
      | none => have := (a7 hx).1; omega
      | some i =>
        have hi := a6 i hx
        rw [hi] at a2
        rw [hj, a2, e] at hd
        rcases hd with h | h
        · cases h
        · exact h rfl

end Lemmas
