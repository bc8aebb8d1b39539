import Verif.Spec.StepShown
import Verif.Lemmas.PstepTuples
import Verif.Props.PstepPaths
/-
C157: what path-steps show of themselves.
-/
set_option linter.unusedSimpArgs false
namespace Props
open Py Model Spec Lemmas

/-- Children are stored under distinct names, and are steps. -/
private structure SoundKids (σ : PsState) : Prop where
  keys : ∀ d ∈ σ.dicts, (dkeys d).Nodup
  refs : ∀ d ∈ σ.dicts, ∀ kc ∈ d, kc.2 < σ.steps.length

private theorem kids_cases (σ : PsState) (o : StepObj) : σ.kids o = [] ∨ ∃ d, o.csteps = some d ∧ σ.dicts[d]? = some (σ.kids o) := by
  unfold PsState.kids
  cases o.csteps with
  | none => exact .inl rfl
  | some d =>
    simp only
    cases h : σ.dicts[d]? with
    | none => exact .inl rfl
    | some x => exact .inr ⟨d, rfl, by simp [h]⟩

private theorem SoundKids.kids {σ : PsState} (h : SoundKids σ) (o : StepObj) : (dkeys (σ.kids o)).Nodup ∧ ∀ kc ∈ σ.kids o, kc.2 < σ.steps.length := by
  rcases kids_cases σ o with e | ⟨d, _, e⟩
  · rw [e]; exact ⟨by simp [dkeys], by simp⟩
  · have := List.mem_of_getElem? e
    exact ⟨h.keys _ this, h.refs _ this⟩

private theorem newStep_sound (F : Nat) (E : RegexLib) (σ : PsState) (pname : Str) (maps : Maps) (alias : Option Str) (tags : List Str)
    (h : SoundKids σ) : SoundKids (newStep F E σ pname maps alias tags).1 ∧
      ∀ r, (newStep F E σ pname maps alias tags).2 = .ok r → r < (newStep F E σ pname maps alias tags).1.steps.length := by
  have fresh : ∀ pm name pmod, SoundKids (freshStep { σ with pmods := pm } name pname pmod tags).1 ∧
      (freshStep { σ with pmods := pm } name pname pmod tags).2 < (freshStep { σ with pmods := pm } name pname pmod tags).1.steps.length := by
    intro pm name pmod
    refine ⟨⟨h.keys, fun d hd kc hk => ?_⟩, by simp [freshStep]⟩
    have := h.refs d hd kc hk
    simp only [freshStep, List.length_append, List.length_singleton]
    omega
  unfold newStep
  split
  · exact ⟨(fresh σ.pmods _ _).1, fun r hr => by cases hr; exact (fresh σ.pmods _ none).2⟩
  · split
    · exact ⟨h, (fun r hr => nomatch hr)⟩
    · next o _ =>
      split
      · exact ⟨(fresh σ.pmods _ _).1, fun r hr => by cases hr; exact (fresh σ.pmods _ none).2⟩
      · simp only [cloneStep]
        split
        · refine ⟨⟨h.keys, fun d hd kc hk => ?_⟩, fun r hr => by cases hr; simp⟩
          have := h.refs d hd kc hk
          simp only [List.length_append, List.length_singleton]
          omega
        · refine ⟨⟨fun d hd => ?_, fun d hd kc hk => ?_⟩, fun r hr => by cases hr; simp⟩
          · rcases List.mem_append.1 hd with hd | hd
            · exact h.keys d hd
            · rw [List.mem_singleton] at hd; subst hd; exact (h.kids o).1
          · simp only [List.length_append, List.length_singleton]
            rcases List.mem_append.1 hd with hd | hd
            · have := h.refs d hd kc hk; omega
            · rw [List.mem_singleton] at hd; subst hd
              have := (h.kids o).2 kc hk; omega
  · split
    · exact ⟨h, (fun r hr => nomatch hr)⟩
    · exact ⟨(fresh _ _ _).1, fun r hr => by cases hr; exact (fresh _ _ _).2⟩

private theorem storeChild_sound (F : Nat) (E : RegexLib) (σ : PsState) (s d : Nat) (k : Str) (alias : Option Str) (ex : Option Nat)
    (h : SoundKids σ) : SoundKids (storeChild F E σ s d k alias ex).1 := by
  unfold storeChild
  have hn := newStep_sound F E σ k (existingOr σ ex ((σ.steps[s]?).bind StepObj.pmod)) alias [] h
  split
  · next e => rw [e] at hn; exact hn.1
  · next σ' child e =>
    rw [e] at hn
    obtain ⟨hs, hr⟩ := hn
    have hr := hr child rfl
    have hd : (dkeys ((σ'.dicts[d]?).getD [])).Nodup ∧ ∀ kc ∈ (σ'.dicts[d]?).getD [], kc.2 < σ'.steps.length := by
      cases hg : σ'.dicts[d]? with
      | none => exact ⟨by simp [dkeys], by simp⟩
      | some x => exact ⟨hs.keys _ (List.mem_of_getElem? hg), hs.refs _ (List.mem_of_getElem? hg)⟩
    refine ⟨fun x hx => ?_, fun x hx kc hk => ?_⟩
    · rcases List.mem_or_eq_of_mem_set hx with hx | rfl
      · exact hs.keys x hx
      · exact nodup_dkeys_dset _ _ hd.1
    · rcases List.mem_or_eq_of_mem_set hx with hx | rfl
      · exact hs.refs x hx kc hk
      · rcases mem_dset_cases hk with hk | rfl
        · exact hd.2 kc hk
        · exact hr

private theorem makeCstep_sound (F : Nat) (E : RegexLib) (σ : PsState) (s : Nat) (k : Str) (alias : Option Str) (ex : Option Nat)
    (h : SoundKids σ) : SoundKids (makeCstep F E σ s k alias ex).1 := by
  unfold makeCstep
  split
  · exact h
  · next o _ =>
    split
    · split
      · exact storeChild_sound _ _ _ _ _ _ _ _ h
      · refine storeChild_sound _ _ _ _ _ _ _ _ ?_
        split
        · unfold updateMappings
          split
          · split
            · exact ⟨h.keys, h.refs⟩
            · exact h
          · exact ⟨h.keys, fun d hd kc hk => by simpa using h.refs d hd kc hk⟩
        · exact h
    · refine storeChild_sound _ _ _ _ _ _ _ _ ⟨fun d hd => ?_, fun d hd kc hk => ?_⟩
      · rcases List.mem_append.1 hd with hd | hd
        · exact h.keys d hd
        · rw [List.mem_singleton] at hd; subst hd; simp [dkeys]
      · rcases List.mem_append.1 hd with hd | hd
        · simpa using h.refs d hd kc hk
        · rw [List.mem_singleton] at hd; subst hd; cases hk

private theorem getAttr_sound (F : Nat) (E : RegexLib) (σ : PsState) (s : Nat) (k : Str) (h : SoundKids σ) : SoundKids (getAttr F E σ s k).1 := by
  have hm := makeCstep_sound F E σ s k none none h
  unfold getAttr
  have hmake : SoundKids (match makeCstep F E σ s k none none with
        | (σ', .ok c) => (σ', Except.ok (some c))
        | (σ', .error e) => (σ', (.error e : Except PyErr (Option Nat)))).1 := by
    generalize makeCstep F E σ s k none none = q at hm
    obtain ⟨q1, q2⟩ := q
    cases q2 <;> exact hm
  split
  · exact h
  · split
    · exact h
    · split
      · exact h
      · simp only
        split
        · exact hmake
        · split
          · exact hmake
          · split
            · exact hmake
            · exact h

private theorem setAttr_sound (F : Nat) (E : RegexLib) (σ : PsState) (s : Nat) (k : Str) (v : StepVal) (h : SoundKids σ) :
    SoundKids (setAttr F E σ s k v).1 := by
  have key : ∀ q : PsState × Except PyErr Nat, SoundKids q.1 → SoundKids (match q with
      | (σ', .ok _) => (σ', (.ok () : Except PyErr Unit))
      | (σ', .error e) => (σ', (.error e : Except PyErr Unit))).1 := by
    rintro ⟨q1, q2⟩ hq
    cases q2 <;> exact hq
  cases v with
  | step e => exact key _ (makeCstep_sound F E σ s k none (some e) h)
  | str a => exact key _ (makeCstep_sound F E σ s k (some a) none h)
  | other => exact h

private theorem apply_sound (F : Nat) (E : RegexLib) (σ : PsState) (op : StepOp) (h : SoundKids σ) : SoundKids (op.apply F E σ) := by
  cases op with
  | new pname maps alias tags => exact (newStep_sound F E σ pname maps alias tags h).1
  | get s k => exact getAttr_sound F E σ s k h
  | assignText s k t => exact setAttr_sound F E σ s k _ h
  | assignStep s k v => exact setAttr_sound F E σ s k _ h
  | assignOther s k => exact setAttr_sound F E σ s k _ h
  | lock s level =>
    simp only [StepOp.apply, setLocked]
    split
    · exact h
    · split
      · exact h
      · exact ⟨h.keys, fun d hd kc hk => by simpa using h.refs d hd kc hk⟩
  | tag s ts =>
    simp only [StepOp.apply, tagStep]
    split
    · exact h
    · split
      · split
        · exact h
        · exact ⟨h.keys, fun d hd kc hk => by simpa using h.refs d hd kc hk⟩
      · exact ⟨h.keys, fun d hd kc hk => by simpa using h.refs d hd kc hk⟩
  | untag s t =>
    simp only [StepOp.apply, untagStep]
    split
    · exact h
    · split
      · exact h
      · exact ⟨h.keys, fun d hd kc hk => by simpa using h.refs d hd kc hk⟩

private theorem runOps_sound (F : Nat) (E : RegexLib) (ops : List StepOp) : ∀ (σ : PsState), SoundKids σ → SoundKids (runOps F E σ ops) := by
  induction ops with
  | nil => intro σ h; exact h
  | cons op ops ih => intro σ h; exact ih _ (apply_sound F E σ op h)

private theorem start_sound (F : Nat) (E : RegexLib) (h : List PmodObj) (ops : List StepOp) : SoundKids (runOps F E ⟨h, [], []⟩ ops) :=
  runOps_sound F E ops _ ⟨by simp, by simp⟩

/-! ### The children -/

private theorem dget_mem {l : List (Str × Nat)} {k : Str} : (∃ c, dget l k = some c) ↔ k ∈ l.map (·.1) := by
  constructor
  · rintro ⟨c, hc⟩
    exact List.mem_map.2 ⟨(k, c), mem_of_dget hc, rfl⟩
  · intro hk
    cases hg : dget l k with
    | some c => exact ⟨c, rfl⟩
    | none => exact absurd hk ((dget_eq_none_iff l k).1 hg)

/-- C157. Whatever was done with steps, the names that a step lists are those of its children, each once, and the steps it lists are the children of these
names, in the same order. -/
theorem C157_children (F : Nat) (E : RegexLib) (h : List PmodObj) (ops : List StepOp) (s : Nat) :
    let σ := runOps F E ⟨h, [], []⟩ ops
    (stepKeys σ s).Nodup ∧ (stepKeys σ s).length = (stepValues σ s).length ∧
    (∀ k c, Edge σ s k c ↔ ∃ i : Nat, (stepKeys σ s)[i]? = some k ∧ (stepValues σ s)[i]? = some c) ∧
    ∀ c ∈ stepValues σ s, c < σ.steps.length := by
  simp only
  have hs := start_sound F E h ops
  generalize runOps F E ⟨h, [], []⟩ ops = σ at hs
  unfold stepKeys stepValues
  cases ho : σ.steps[s]? with
  | none =>
    refine ⟨by simp, rfl, fun k c => ⟨?_, ?_⟩, by simp⟩
    · rintro ⟨o, h1, _⟩; rw [ho] at h1; cases h1
    · rintro ⟨i, h1, _⟩; simp at h1
  | some o =>
    obtain ⟨hk, hr⟩ := hs.kids o
    refine ⟨hk, by simp, fun k c => ⟨?_, ?_⟩, ?_⟩
    · rintro ⟨o', h1, h2⟩
      rw [ho] at h1; cases h1
      obtain ⟨i, hi⟩ := List.mem_iff_getElem?.1 (mem_of_dget h2)
      exact ⟨i, by simp [hi], by simp [hi]⟩
    · rintro ⟨i, h1, h2⟩
      simp only [List.getElem?_map, Option.map_eq_some_iff] at h1 h2
      obtain ⟨x, hx, rfl⟩ := h1
      obtain ⟨y, hy, rfl⟩ := h2
      rw [hx] at hy; cases hy
      exact ⟨o, ho, dget_of_mem hk (List.mem_of_getElem? hx)⟩
    · intro c hc
      obtain ⟨kc, hkc, rfl⟩ := List.mem_map.1 hc
      exact hr kc hkc

private def addKey (ks : List Str) (k : Str) : List Str := if k ∈ ks then ks else ks ++ [k]

private theorem storeChild_keys (F : Nat) (E : RegexLib) (σ : PsState) (s d : Nat) (k : Str) (alias : Option Str) (ex : Option Nat)
    (o : StepObj) (hs : σ.steps[s]? = some o) (hd : o.csteps = some d) (hlt : d < σ.dicts.length) :
    (∀ e, (storeChild F E σ s d k alias ex).2 = .error e → stepKeys (storeChild F E σ s d k alias ex).1 s = stepKeys σ s) ∧
    (∀ c, (storeChild F E σ s d k alias ex).2 = .ok c → stepKeys (storeChild F E σ s d k alias ex).1 s = addKey (stepKeys σ s) k) := by
  have hx := newStep_ext F E σ k (existingOr σ ex ((σ.steps[s]?).bind StepObj.pmod)) alias []
  unfold storeChild
  obtain ⟨x, hdx⟩ : ∃ x, σ.dicts[d]? = some x := ⟨_, List.getElem?_eq_getElem hlt⟩
  have h0 : stepKeys σ s = dkeys x := by simp [stepKeys, hs, PsState.kids, hd, hdx, dkeys]
  split
  · next σ' e he =>
    rw [he] at hx
    refine ⟨fun e' _ => ?_, (fun c hc => nomatch hc)⟩
    simp only [stepKeys, hx.2.1.get hs, PsState.kids, hd, hx.2.2.get hdx, hs, hdx]
  · next σ' c he =>
    rw [he] at hx
    refine ⟨(fun e' h => nomatch h), fun c' _ => ?_⟩
    have hd' := hx.2.2.get hdx
    have hl' : d < σ'.dicts.length := (List.getElem?_eq_some_iff.1 hd').1
    rw [h0]
    simp only at hd'
    simp only [stepKeys, hx.2.1.get hs, PsState.kids, hd, hd', List.getElem?_set_self hl', Option.getD_some]
    have hset := dkeys_dset x k c
    unfold dkeys at hset ⊢
    rw [hset, addKey]
    by_cases hk : k ∈ x.map (·.1) <;> simp only [hk, if_true, if_false]

private theorem makeCstep_keys (F : Nat) (E : RegexLib) (σ : PsState) (s : Nat) (k : Str) (alias : Option Str) (ex : Option Nat) :
    (∀ e, (makeCstep F E σ s k alias ex).2 = .error e → stepKeys (makeCstep F E σ s k alias ex).1 s = stepKeys σ s) ∧
    (∀ c, (makeCstep F E σ s k alias ex).2 = .ok c → stepKeys (makeCstep F E σ s k alias ex).1 s = addKey (stepKeys σ s) k) := by
  unfold makeCstep
  cases hs : σ.steps[s]? with
  | none => exact ⟨fun _ _ => rfl, (fun c hc => nomatch hc)⟩
  | some o =>
    simp only
    split
    · next d hd hne =>
      have hlt : d < σ.dicts.length := by
        rcases kids_cases σ o with e | ⟨d', h1, h2⟩
        · rw [e] at hne; cases hne
        · rw [hd] at h1; cases h1; exact (List.getElem?_eq_some_iff.1 h2).1
      split
      · exact storeChild_keys F E σ s d k alias _ o hs hd hlt
      · have hup : ∀ σ1 : PsState, (∃ o1, σ1.steps[s]? = some o1 ∧ o1.csteps = some d) → σ1.dicts = σ.dicts → ∀ x,
            (∀ e, (storeChild F E σ1 s d k alias x).2 = .error e → stepKeys (storeChild F E σ1 s d k alias x).1 s = stepKeys σ s) ∧
            (∀ c, (storeChild F E σ1 s d k alias x).2 = .ok c → stepKeys (storeChild F E σ1 s d k alias x).1 s = addKey (stepKeys σ s) k) := by
          rintro σ1 ⟨o1, h1, h2⟩ h3 x
          have := storeChild_keys F E σ1 s d k alias x o1 h1 h2 (by rw [h3]; exact hlt)
          have he : stepKeys σ1 s = stepKeys σ s := by simp only [stepKeys, h1, hs, PsState.kids, h2, hd, h3]
          rw [he] at this
          exact this
        refine hup _ ?_ ?_ _
        · split
          · unfold updateMappings
            split
            · split
              · exact ⟨o, hs, hd⟩
              · exact ⟨o, hs, hd⟩
            · exact ⟨_, List.getElem?_set_self (List.getElem?_eq_some_iff.1 hs).1, hd⟩
          · exact ⟨o, hs, hd⟩
        · split
          · unfold updateMappings
            split
            · split <;> rfl
            · rfl
          · rfl
    · next hno =>
      have hempty : σ.kids o = [] := by
        cases hc : o.csteps with
        | none => simp [PsState.kids, hc]
        | some d =>
          cases hk : (σ.kids o).isEmpty with
          | true => exact List.isEmpty_iff.1 hk
          | false => exact absurd hk (fun h => hno d hc h)
      have h0 : stepKeys σ s = [] := by simp [stepKeys, hs, hempty]
      have hs' := (List.getElem?_eq_some_iff.1 hs).1
      have := storeChild_keys F E { σ with
        dicts := σ.dicts ++ [[]]
        steps := σ.steps.set s { o with csteps := some σ.dicts.length } } s σ.dicts.length k alias ex
        { o with csteps := some σ.dicts.length } (List.getElem?_set_self hs') rfl (by simp)
      have he : stepKeys { σ with
          dicts := σ.dicts ++ [[]]
          steps := σ.steps.set s { o with csteps := some σ.dicts.length } } s = stepKeys σ s := by
        rw [h0]
        simp [stepKeys, List.getElem?_set_self hs', PsState.kids]
      rw [he] at this
      exact this

private theorem getAttr_keys (F : Nat) (E : RegexLib) (σ σ1 : PsState) (s : Nat) (k : Str) :
    (∀ e, getAttr F E σ s k = (σ1, .error e) → stepKeys σ1 s = stepKeys σ s) ∧
    (∀ c, getAttr F E σ s k = (σ1, .ok (some c)) → stepKeys σ1 s = addKey (stepKeys σ s) k) := by
  have hm := makeCstep_keys F E σ s k none none
  unfold getAttr
  have hmake : ∀ r, (match makeCstep F E σ s k none none with
        | (σ', .ok c) => (σ', Except.ok (some c))
        | (σ', .error e) => (σ', (.error e : Except PyErr (Option Nat)))) = (σ1, r) →
        (∀ e, r = .error e → stepKeys σ1 s = stepKeys σ s) ∧ (∀ c, r = .ok (some c) → stepKeys σ1 s = addKey (stepKeys σ s) k) := by
    generalize makeCstep F E σ s k none none = q at hm
    obtain ⟨q1, q2⟩ := q
    cases q2 with
    | error e => intro r h; cases h; exact ⟨fun e' _ => hm.1 e rfl, (fun c hc => nomatch hc)⟩
    | ok c => intro r h; cases h; exact ⟨(fun e' he => nomatch he), fun c' _ => hm.2 c rfl⟩
  split
  · exact ⟨(fun e h => by cases h), (fun c h => by cases h)⟩
  · split
    · exact ⟨(fun e h => by cases h; rfl), (fun c h => by cases h)⟩
    · split
      · exact ⟨(fun e h => by cases h; rfl), (fun c h => by cases h)⟩
      · next o ho =>
        simp only
        split
        · exact ⟨fun e h => (hmake _ h).1 e rfl, fun c h => (hmake _ h).2 c rfl⟩
        · next c hc =>
          split
          · exact ⟨fun e h => (hmake _ h).1 e rfl, fun c h => (hmake _ h).2 c rfl⟩
          · split
            · exact ⟨fun e h => (hmake _ h).1 e rfl, fun c h => (hmake _ h).2 c rfl⟩
            · refine ⟨(fun e h => by cases h), fun c' h => ?_⟩
              cases h
              have : k ∈ stepKeys σ s := by
                simp only [stepKeys, ho]
                exact List.mem_map.2 ⟨_, mem_of_dget hc, rfl⟩
              rw [addKey, if_pos this]

private theorem setAttr_keys (F : Nat) (E : RegexLib) (σ σ1 : PsState) (s : Nat) (k : Str) (v : StepVal) :
    (∀ e, setAttr F E σ s k v = (σ1, .error e) → stepKeys σ1 s = stepKeys σ s) ∧
    (setAttr F E σ s k v = (σ1, .ok ()) → stepKeys σ1 s = addKey (stepKeys σ s) k) := by
  have key : ∀ q : PsState × Except PyErr Nat, ((∀ e, q.2 = .error e → stepKeys q.1 s = stepKeys σ s) ∧
      (∀ c, q.2 = .ok c → stepKeys q.1 s = addKey (stepKeys σ s) k)) → ∀ r : Except PyErr Unit, (match q with
      | (σ', .ok _) => (σ', (.ok () : Except PyErr Unit))
      | (σ', .error e) => (σ', (.error e : Except PyErr Unit))) = (σ1, r) →
      (∀ e, r = .error e → stepKeys σ1 s = stepKeys σ s) ∧ (r = .ok () → stepKeys σ1 s = addKey (stepKeys σ s) k) := by
    rintro ⟨q1, q2⟩ hq r h
    cases q2 with
    | error e => cases h; exact ⟨fun e' _ => hq.1 e rfl, (fun hc => nomatch hc)⟩
    | ok c => cases h; exact ⟨fun e' he => (nomatch he), fun _ => hq.2 c rfl⟩
  cases v with
  | step e =>
    have := key _ (makeCstep_keys F E σ s k none (some e))
    exact ⟨fun e' h => (this _ h).1 e' rfl, fun h => (this _ h).2 rfl⟩
  | str a =>
    have := key _ (makeCstep_keys F E σ s k (some a) none)
    exact ⟨fun e' h => (this _ h).1 e' rfl, fun h => (this _ h).2 rfl⟩
  | other => exact ⟨(fun e h => by cases h; rfl), (fun h => by cases h)⟩

/-- C157. The names of the children are in the order in which the attributes were first read or assigned, from any state; what fails adds none. -/
theorem C157_order (F : Nat) (E : RegexLib) (s : Nat) (σ σ' : PsState) (ks : List Str) (hn : (stepKeys σ s).Nodup)
    (h : Touches F E s σ ks σ') :
    stepKeys σ' s = firsts (stepKeys σ s ++ ks) ∧
    (∀ k σ1 e, getAttr F E σ' s k = (σ1, .error e) → stepKeys σ1 s = stepKeys σ' s) ∧
    (∀ k v σ1 e, setAttr F E σ' s k v = (σ1, .error e) → stepKeys σ1 s = stepKeys σ' s) := by
  refine ⟨?_, fun k σ1 e he => (getAttr_keys F E σ' σ1 s k).1 e he, fun k v σ1 e he => (setAttr_keys F E σ' σ1 s k v).1 e he⟩
  have hself : ∀ (l acc : List Str), (acc ++ l).Nodup → l.foldl (fun acc k => if k ∈ acc then acc else acc ++ [k]) acc = acc ++ l := by
    intro l
    induction l with
    | nil => intro acc _; simp
    | cons k l ih =>
      intro acc hacc
      have hk : k ∉ acc := by
        intro hk
        exact (List.nodup_append.1 hacc).2.2 k hk k (by simp) rfl
      rw [List.foldl_cons, if_neg hk, ih _ (by simpa using hacc)]
      simp
  unfold firsts
  rw [List.foldl_append, hself _ [] (by simpa using hn), List.nil_append]
  clear hn
  induction h with
  | none σ => rfl
  | read σ σ1 σ2 k ks c h1 _ ih => rw [ih, (getAttr_keys F E σ σ1 s k).2 c h1]; rfl
  | assign σ σ1 σ2 k ks v h1 _ ih => rw [ih, (setAttr_keys F E σ σ1 s k v).2 h1]; rfl

private theorem insertText_perm (x : Str) (l : List Str) : (insertText x l).Perm (x :: l) := by
  induction l with
  | nil => exact .refl _
  | cons y t ih =>
    rw [insertText]
    split
    · exact (ih.cons y).trans (.swap x y t)
    · exact .refl _

private theorem sortTexts_perm (l : List Str) : (sortTexts l).Perm l := by
  induction l with
  | nil => exact .refl _
  | cons x l ih => exact (insertText_perm x _).trans (ih.cons x)

private theorem insertText_sorted {x : Str} {l : List Str} (h : l.Pairwise (fun a b => a = b ∨ TextBefore a b)) :
    (insertText x l).Pairwise (fun a b => a = b ∨ TextBefore a b) := by
  induction l with
  | nil => simp [insertText]
  | cons y t ih =>
    rw [List.pairwise_cons] at h
    rw [insertText]
    split
    · next hlt =>
      rw [List.pairwise_cons]
      refine ⟨fun z hz => ?_, ih h.2⟩
      rcases List.mem_cons.1 ((insertText_perm x t).mem_iff.1 hz) with rfl | hz
      · exact .inr (strLt_iff.1 hlt)
      · exact h.1 z hz
    · next hlt =>
      have hxy : x = y ∨ TextBefore x y := not_strLt (by simpa using hlt)
      rw [List.pairwise_cons]
      refine ⟨fun z hz => ?_, List.pairwise_cons.2 h⟩
      rcases List.mem_cons.1 hz with rfl | hz
      · exact hxy
      · exact before_trans hxy (h.1 z hz)

/-- C157. `dir` lists what it lists of any text and the names of the children, those that are both twice; in order, if there are children. -/
theorem C157_dir (own : List Str) (σ : PsState) (s : Nat) :
    (stepDir own σ s).Perm (own ++ stepKeys σ s) ∧
    (stepKeys σ s ≠ [] → (stepDir own σ s).Pairwise (fun a b => a = b ∨ TextBefore a b)) := by
  unfold stepDir
  split
  · next h =>
    rw [List.isEmpty_iff] at h
    rw [h]
    exact ⟨by simp, fun hn => absurd rfl hn⟩
  · refine ⟨sortTexts_perm _, fun _ => ?_⟩
    generalize own ++ stepKeys σ s = l
    induction l with
    | nil => exact List.Pairwise.nil
    | cons x l ih => exact insertText_sorted ih

/-! ### The paths -/

private theorem reported_iff {σ : PsState} (hs : SoundKids σ) (tag : Option Str) (b : List Nat) : reported σ tag b = true ↔ PathAsked σ tag b := by
  unfold reported PathAsked
  cases hl : b.getLast? with
  | none => simp
  | some r =>
    simp only [Option.bind_some]
    cases ho : σ.steps[r]? with
    | none =>
      simp only [Bool.false_eq_true, false_iff]
      rintro ⟨r', o, h1, h2, _⟩
      cases h1
      rw [ho] at h2; cases h2
    | some o =>
      have hleaf : (σ.kids o).isEmpty = true ↔ ∀ k c, ¬ Edge σ r k c := by
        rw [List.isEmpty_iff]
        constructor
        · rintro he k c ⟨o', h1, h2⟩
          rw [ho] at h1; cases h1
          rw [he] at h2; cases h2
        · intro hno
          cases hk : σ.kids o with
          | nil => rfl
          | cons kc t =>
            exact absurd ⟨o, ho, dget_of_mem (hs.kids o).1 (by rw [hk]; simp)⟩ (hno kc.1 kc.2)
      cases tag with
      | none =>
        simp only [true_or, if_true]
        rw [hleaf]
        exact ⟨fun h => ⟨r, o, rfl, ho, h⟩, fun ⟨r', o', h1, _, h⟩ => by cases h1; exact h⟩
      | some t =>
        by_cases ht : t = []
        · subst ht
          simp only [if_true]
          rw [hleaf]
          exact ⟨fun h => ⟨r, o, rfl, ho, by rw [if_pos (.inr rfl)]; exact h⟩, fun ⟨r', o', h1, _, h⟩ => by
            cases h1; rw [if_pos (.inr rfl)] at h; exact h⟩
        · have hno : ¬ (some t = none ∨ some t = some "".toList) := by
            rintro (h | h)
            · cases h
            · injection h with h; exact ht h
          simp only [ht, if_false, decide_eq_true_eq, hno]
          constructor
          · intro h; exact ⟨r, o, rfl, ho, t, rfl, h⟩
          · rintro ⟨r', o', h1, h2, t', h3, h4⟩
            cases h1; cases h3
            rw [ho] at h2; cases h2
            exact h4

private theorem branch_refs {σ : PsState} (hs : SoundKids σ) {s : Nat} {b : List Nat} (hb : StepBranch σ s b) :
    s < σ.steps.length → ∀ r ∈ b, r < σ.steps.length := by
  induction hb with
  | here s => intro h r hr; rw [List.mem_singleton] at hr; subst hr; exact h
  | down s k c b he _ ih =>
    intro h r hr
    rcases List.mem_cons.1 hr with rfl | hr
    · exact h
    · obtain ⟨o, ho, hg⟩ := he
      exact ih ((hs.kids o).2 _ (mem_of_dget hg)) r hr

private theorem shown_pairs {σ : PsState} (b : List Nat) (hb : ∀ r ∈ b, r < σ.steps.length) :
    ∃ ps : List (Str × Str), b.map (pairOf σ) = ps.map some ∧ σ.shown b = ps.map shownPair ∧ σ.names b = ps.map (·.2) := by
  induction b with
  | nil => exact ⟨[], rfl, rfl, rfl⟩
  | cons r b ih =>
    obtain ⟨ps, h1, h2, h3⟩ := ih (fun r hr => hb r (by simp [hr]))
    have ho := List.getElem?_eq_getElem (hb r (by simp))
    refine ⟨((σ.steps[r]'(hb r (by simp))).orig, (σ.steps[r]'(hb r (by simp))).name) :: ps, ?_, ?_, ?_⟩
    · simp only [List.map_cons, h1, pairOf, ho, Option.map_some]
    · have h2' := h2
      unfold PsState.shown at h2' ⊢
      simp only [List.map_cons, h2', ho, shownPair, ne_eq]
      congr 1
      by_cases e : (σ.steps[r]'(hb r (by simp))).name = (σ.steps[r]'(hb r (by simp))).orig
      · rw [if_neg (by simp [e]), if_pos e.symm]
      · rw [if_pos e, if_neg (fun h => e h.symm)]
    · have h3' := h3
      unfold PsState.names at h3' ⊢
      simp only [List.map_cons, h3', ho]

private theorem map_some_inj {α : Type} : ∀ (a b : List α), a.map some = b.map some → a = b := by
  intro a
  induction a with
  | nil => intro b h; cases b with | nil => rfl | cons _ _ => cases h
  | cons x a ih =>
    intro b h
    cases b with
    | nil => cases h
    | cons y b =>
      simp only [List.map_cons, List.cons.injEq, Option.some.injEq] at h
      rw [h.1, ih b h.2]

/-- C157. Whatever was done with steps, the paths reported are those of the branches whose last step has the tag, or no children: in order and each once,
made of the texts of the steps, or, with original names, of these as well where they differ. -/
theorem C157_paths (F : Nat) (E : RegexLib) (h : List PmodObj) (ops : List StepOp) (s : Nat) (tag : Option Str) :
    let σ := runOps F E ⟨h, [], []⟩ ops
    s < σ.steps.length →
    (∀ l, pstepPaths F σ s tag = .ok l → StrictlySorted l ∧ ∀ x, x ∈ l ↔ ∃ (b : List Nat) (ps : List (Str × Str)), StepBranch σ s b ∧ PathAsked σ tag b ∧ b.map (pairOf σ) = ps.map some ∧
      x = ((ps.map (·.2)).foldl Loc.move (.rel 0 [])).text) ∧
    (∀ l, pstepPathsOrig F σ s tag = .ok l → StrictlySorted l ∧ ∀ x, x ∈ l ↔ ∃ (b : List Nat) (ps : List (Str × Str)), StepBranch σ s b ∧ PathAsked σ tag b ∧
      b.map (pairOf σ) = ps.map some ∧ x = shownPath ps) ∧
    (∀ e, pstepPaths F σ s tag = .error e ↔ pstepPathsOrig F σ s tag = .error e) := by
  simp only
  have hs := start_sound F E h ops
  generalize runOps F E ⟨h, [], []⟩ ops = σ at hs
  intro hlt
  have hk : DistinctKids σ := fun i o _ => (hs.kids o).1
  unfold pstepPaths pstepPathsOrig
  cases hi : iterHier σ F [] s with
  | none => exact ⟨(fun l hl => nomatch hl), (fun l hl => nomatch hl), fun e => ⟨(fun h => by cases h; rfl), (fun h => by cases h; rfl)⟩⟩
  | some bs =>
    have hb := iterHier_branches hk F [] s bs hi
    simp only [List.nil_append] at hb
    have hmem : ∀ b, b ∈ bs ↔ StepBranch σ s b := fun b => (hb b).trans ⟨fun ⟨b', h1, h2⟩ => h2 ▸ h1, fun h => ⟨b, h, rfl⟩⟩
    refine ⟨fun l hl => ?_, fun l hl => ?_, fun e => ⟨(fun h => nomatch h), (fun h => nomatch h)⟩⟩
    · cases hl
      obtain ⟨h1, h2⟩ := sortedSet_spec ((bs.filter (reported σ tag)).map (fun b => joinPaths (σ.names b)))
      refine ⟨h1, fun x => ?_⟩
      rw [h2, List.mem_map]
      constructor
      · rintro ⟨b, hm, rfl⟩
        rw [List.mem_filter, hmem, reported_iff hs] at hm
        obtain ⟨ps, p1, _, p3⟩ := shown_pairs b (branch_refs hs hm.1 hlt)
        exact ⟨b, ps, hm.1, hm.2, p1, by rw [p3, joinPaths_eq_text]⟩
      · rintro ⟨b, ps, hbr, ha, p, rfl⟩
        obtain ⟨ps', p1, _, p3⟩ := shown_pairs b (branch_refs hs hbr hlt)
        have := map_some_inj _ _ (p.symm.trans p1)
        subst this
        exact ⟨b, by rw [List.mem_filter, hmem, reported_iff hs]; exact ⟨hbr, ha⟩, by rw [p3, joinPaths_eq_text]⟩
    · cases hl
      obtain ⟨h1, h2⟩ := sortedSet_spec ((bs.filter (reported σ tag)).map (fun b => joinPaths (σ.shown b)))
      refine ⟨h1, fun x => ?_⟩
      rw [h2, List.mem_map]
      constructor
      · rintro ⟨b, hm, rfl⟩
        rw [List.mem_filter, hmem, reported_iff hs] at hm
        obtain ⟨ps, p1, p2, _⟩ := shown_pairs b (branch_refs hs hm.1 hlt)
        exact ⟨b, ps, hm.1, hm.2, p1, by rw [p2, joinPaths_eq_text]; rfl⟩
      · rintro ⟨b, ps, hbr, ha, p, rfl⟩
        obtain ⟨ps', p1, p2, _⟩ := shown_pairs b (branch_refs hs hbr hlt)
        have := map_some_inj _ _ (p.symm.trans p1)
        subst this
        exact ⟨b, by rw [List.mem_filter, hmem, reported_iff hs]; exact ⟨hbr, ha⟩, by rw [p2, joinPaths_eq_text]; rfl⟩

private theorem cut {c : Char} : ∀ {x y r r' : Str}, c ∉ x → c ∉ y → (r = [] ∨ r.head? = some c) → (r' = [] ∨ r'.head? = some c) →
    x ++ r = y ++ r' → x = y ∧ r = r' := by
  intro x
  induction x with
  | nil =>
    intro y r r' _ hy hr hr' h
    cases y with
    | nil => exact ⟨rfl, h⟩
    | cons b y =>
      rw [List.nil_append] at h
      subst h
      rcases hr with h | h
      · cases h
      · simp only [List.cons_append, List.head?_cons, Option.some.injEq] at h
        exact absurd (by rw [h]; simp) hy
  | cons a x ih =>
    intro y r r' hx hy hr hr' h
    cases y with
    | nil =>
      rw [List.nil_append] at h
      subst h
      rcases hr' with h | h
      · cases h
      · simp only [List.cons_append, List.head?_cons, Option.some.injEq] at h
        exact absurd (by rw [h]; simp) hx
    | cons b y =>
      simp only [List.cons_append, List.cons.injEq] at h
      obtain ⟨h1, h2⟩ := ih (fun e => hx (by simp [e])) (fun e => hy (by simp [e])) hr hr' h.2
      exact ⟨by rw [h.1, h1], h2⟩

private def CleanPair (p : Str × Str) : Prop := '/' ∉ p.1 ∧ '(' ∉ p.1 ∧ ')' ∉ p.1 ∧ '>' ∉ p.1 ∧ '(' ∉ p.2 ∧ ')' ∉ p.2

private theorem shown_tells {p q : Str × Str} (hp : CleanPair p) (hq : CleanPair q) {r r' : Str} (hr : r = [] ∨ r.head? = some '/')
    (hr' : r' = [] ∨ r'.head? = some '/') (h : shownPair p ++ r = shownPair q ++ r') : p = q ∧ r = r' := by
  have hraw : ∀ {p q : Str × Str}, CleanPair p → p.1 = p.2 → ¬ q.1 = q.2 → ∀ {r r' : Str}, (r = [] ∨ r.head? = some '/') →
      p.2 ++ r = ("(".toList ++ q.1 ++ "-->".toList ++ q.2 ++ ")".toList) ++ r' → False := by
    intro p q hp _ _ r r' hr h
    have h0 : (p.2 ++ r).head? = some '(' := by rw [h]; rfl
    cases hp2 : p.2 with
    | nil =>
      rw [hp2, List.nil_append] at h0
      rcases hr with rfl | hr
      · cases h0
      · rw [hr] at h0; cases h0
    | cons a t =>
      rw [hp2] at h0
      simp only [List.cons_append, List.head?_cons, Option.some.injEq] at h0
      exact hp.2.2.2.2.1 (by rw [hp2, h0]; simp)
  obtain ⟨o, n⟩ := p
  obtain ⟨o', n'⟩ := q
  unfold shownPair at h
  by_cases e : o = n <;> by_cases e' : o' = n'
  · simp only [e, e', if_true] at h
    subst e; subst e'
    obtain ⟨h1, h2⟩ := cut (x := o) (y := o') hp.1 hq.1 hr hr' h
    exact ⟨by rw [h1], h2⟩
  · simp only [e, e', if_true, if_false] at h
    exact (hraw (p := (o, n)) (q := (o', n')) hp e e' hr h).elim
  · simp only [e, e', if_true, if_false] at h
    exact (hraw (p := (o', n')) (q := (o, n)) hq e' e hr' h.symm).elim
  · simp only [e, e', if_false] at h
    have h1 : (o ++ "--".toList) ++ '>' :: (n ++ ')' :: r) = (o' ++ "--".toList) ++ '>' :: (n' ++ ')' :: r') := by
      have : ("(".toList ++ o ++ "-->".toList ++ n ++ ")".toList) ++ r = '(' :: ((o ++ "--".toList) ++ '>' :: (n ++ ')' :: r)) := by simp
      rw [this] at h
      have : ("(".toList ++ o' ++ "-->".toList ++ n' ++ ")".toList) ++ r' = '(' :: ((o' ++ "--".toList) ++ '>' :: (n' ++ ')' :: r')) := by simp
      rw [this] at h
      injection h
    obtain ⟨h2, h3⟩ := cut (c := '>') (by simpa using hp.2.2.2.1) (by simpa using hq.2.2.2.1) (.inr rfl) (.inr rfl) h1
    injection h3 with _ h3
    obtain ⟨h4, h5⟩ := cut (c := ')') (x := n) (y := n') hp.2.2.2.2.2 hq.2.2.2.2.2 (.inr rfl) (.inr rfl) h3
    injection h5 with _ h5
    have h6 := List.append_cancel_right h2
    exact ⟨by rw [h4, h6], h5⟩

private theorem shown_ordinary {p : Str × Str} (h : p.1 = p.2 → Ordinary p.1) : Ordinary (shownPair p) := by
  unfold shownPair
  split
  · next e => rw [← e]; exact h e
  · refine ⟨fun e => ?_, fun e => ?_, fun e => ?_⟩
    · have := congrArg List.head? e; simp at this
    · have := congrArg List.head? e; simp at this
    · have := congrArg List.head? e; simp at this

private theorem shownPath_text {ps : List (Str × Str)} (h : Telling ps) : shownPath ps = pathText (ps.map shownPair) ∧ ps ≠ [] := by
  obtain ⟨_, h2, p, h3, h4⟩ := h
  cases ps with
  | nil => cases h3
  | cons q ps =>
    simp only [List.head?_cons, Option.some.injEq] at h3
    subst h3
    refine ⟨?_, by simp⟩
    unfold shownPath
    rw [List.map_cons]
    apply join_ordinary
    · by_cases e : q.1 = q.2
      · rcases h4 e with h | h
        · left; unfold shownPair; rw [if_pos e, ← e]; exact h
        · right; exact shown_ordinary (fun _ => h)
      · exact .inr (shown_ordinary (fun h => absurd h e))
    · intro x hx
      obtain ⟨p, hp, rfl⟩ := List.mem_map.1 hx
      exact shown_ordinary (h2 p hp)

/-- C157. A path with original names tells the original name and the text of every step on it. -/
theorem C157_orig_tells (ps qs : List (Str × Str)) (hp : Telling ps) (hq : Telling qs) (h : shownPath ps = shownPath qs) : ps = qs := by
  obtain ⟨e1, n1⟩ := shownPath_text hp
  obtain ⟨e2, n2⟩ := shownPath_text hq
  rw [e1, e2] at h
  replace hp := hp.1
  replace hq := hq.1
  clear e1 e2
  have tail : ∀ l : List Str, l ≠ [] → ∃ x t r, l = x :: t ∧ pathText l = x ++ r ∧ ((t = [] ∧ r = []) ∨ (t ≠ [] ∧ r = '/' :: pathText t)) := by
    intro l hl
    cases l with
    | nil => exact absurd rfl hl
    | cons x t =>
      cases t with
      | nil => exact ⟨x, [], [], rfl, by simp [pathText, join], .inl ⟨rfl, rfl⟩⟩
      | cons y t => exact ⟨x, y :: t, '/' :: pathText (y :: t), rfl, by simp [pathText, join], .inr ⟨by simp, rfl⟩⟩
  induction ps generalizing qs with
  | nil => exact absurd rfl n1
  | cons p ps ih =>
    cases qs with
    | nil => exact absurd rfl n2
    | cons q qs =>
      obtain ⟨x, t, r, hx, hpt, hr⟩ := tail ((p :: ps).map shownPair) (by simp)
      obtain ⟨x', t', r', hx', hpt', hr'⟩ := tail ((q :: qs).map shownPair) (by simp)
      rw [hpt, hpt'] at h
      simp only [List.map_cons, List.cons.injEq] at hx hx'
      obtain ⟨rfl, rfl⟩ := hx
      obtain ⟨rfl, rfl⟩ := hx'
      obtain ⟨h1, h2⟩ := shown_tells (hp p (by simp)) (hq q (by simp)) (by rcases hr with ⟨_, rfl⟩ | ⟨_, rfl⟩ <;> simp)
        (by rcases hr' with ⟨_, rfl⟩ | ⟨_, rfl⟩ <;> simp) h
      subst h1
      congr 1
      rcases hr with ⟨a, rfl⟩ | ⟨a, rfl⟩ <;> rcases hr' with ⟨b, rfl⟩ | ⟨b, rfl⟩
      · rw [List.map_eq_nil_iff] at a b; rw [a, b]
      · cases h2
      · cases h2
      · injection h2 with _ h2
        exact ih qs h2 (by simpa using a) (by simpa using b) (fun p hp' => hp p (by simp [hp'])) (fun q hq' => hq q (by simp [hq']))

/-- The path of the documentation. -/
def rootedPairs : List (Str × Str) := [([], "ROOT".toList), ("a".toList, "A/AA".toList), ("b".toList, "b".toList)]

example : shownPath rootedPairs = "(-->ROOT)/(a-->A/AA)/b".toList := by decide

example : Telling rootedPairs := by
  refine ⟨by decide, ?_, _, rfl, (fun h => absurd h (by decide))⟩
  intro p hp
  simp only [rootedPairs, List.tail_cons, List.mem_cons, List.not_mem_nil, or_false] at hp
  rcases hp with rfl | rfl
  · exact fun h => absurd h (by decide)
  · intro _; exact ⟨by decide, by decide, by decide⟩

/-- A step whose attributes `b`, `a` and `b` are read, the last being assigned a text and tagged. -/
def shownOps : List StepOp := [.new [] .none none [], .get 0 "b".toList, .get 0 "a".toList, .assignText 0 "b".toList "x/y".toList, .tag 3 ["t".toList]]

example : stepKeys (runOps 9 Tests.toy ⟨[], [], []⟩ shownOps) 0 = ["b".toList, "a".toList] ∧
    stepValues (runOps 9 Tests.toy ⟨[], [], []⟩ shownOps) 0 = [3, 2] ∧
    stepDir ["__class__".toList, "zfill".toList] (runOps 9 Tests.toy ⟨[], [], []⟩ shownOps) 0 =
      ["__class__".toList, "a".toList, "b".toList, "zfill".toList] := by decide +kernel

example : (match pstepPathsOrig 9 (runOps 9 Tests.toy ⟨[], [], []⟩ shownOps) 0 none, pstepPathsOrig 9 (runOps 9 Tests.toy ⟨[], [], []⟩ shownOps) 0 (some "t".toList)
    with
    | .ok l, .ok l' => l == ["/(b-->x/y)".toList, "/a".toList] && l' == ["/(b-->x/y)".toList]
    | _, _ => false) = true := by decide +kernel

example : Touches 9 Tests.toy 0 (newStep 9 Tests.toy ⟨[], [], []⟩ [] .none none []).1 ["b".toList, "a".toList, "b".toList]
    (runOps 9 Tests.toy ⟨[], [], []⟩ [.new [] .none none [], .get 0 "b".toList, .get 0 "a".toList, .assignText 0 "b".toList "x/y".toList]) :=
  .read _ _ _ _ _ 1 rfl (.read _ _ _ _ _ 2 rfl (.assign _ _ _ _ _ (.str "x/y".toList) rfl (.none _)))

end Props
