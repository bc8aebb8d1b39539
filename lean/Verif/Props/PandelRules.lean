import Verif.Lemmas.Pandel
set_option linter.unusedSimpArgs false
/-
C29, C30: automatic defaults and additional properties.
-/
namespace Props
open Py Model Spec

/-! ### C29 -/

private theorem PSchema.ind {P : PSchema → Prop}
    (h : ∀ d a b c t ps, (∀ p ∈ ps, P p.2) → P (.mk d a b c t ps)) : ∀ s, P s := by
  intro s
  refine PSchema.rec (motive_1 := P) (motive_2 := fun l => ∀ p ∈ l, P p.2) (motive_3 := fun p => P p.2) ?_ ?_ ?_ ?_ s
  · intro d a b c t ps hps; exact h d a b c t ps hps
  · simp
  · intro p ps hp hps q hq
    rcases List.mem_cons.1 hq with rfl | hq
    · exact hp
    · exact hps _ hq
  · intro a b hb; exact hb

theorem firstDefined_iff (v d : Option Bool) : firstDefined v d = true ↔ On v d := by
  cases v with
  | none => cases d <;> simp [firstDefined, On]
  | some b => cases b <;> simp [firstDefined, On]

theorem nullable_iff (s : PSchema) : isNullInType s.type = true ↔ Nullable s := by
  unfold Nullable
  cases s.type with
  | none => simp [isNullInType]
  | one t => simp only [isNullInType, beq_iff_eq]; simp
  | many ts => simp only [isNullInType, List.contains_iff_mem]; simp

theorem isNull_iff (f : AutoFlags) (v : Doc) : f.isNull v = true ↔ IsNull f v := by
  unfold IsNull
  cases v <;> simp [AutoFlags.isNull]

/-- What one round of the loop leaves at its property. -/
def fillVal (f : AutoFlags) (sub : PSchema) (given : Option Doc) : Option Doc :=
  let null := match given with
    | some v => f.isNull v
    | none => false
  let notNullable := !isNullInType sub.type
  let fill := (firstDefined sub.autoDefault f.autoDefault && given.isNone) ||
    (firstDefined sub.autoDefaultNull f.autoDefaultNulls && notNullable && null)
  let remove := firstDefined sub.autoRemoveNull f.autoRemoveNulls && notNullable && null
  match sub.default, fill with
  | some d, true => some d
  | _, _ => if remove then none else given

theorem step_get (f : AutoFlags) (kvs : List (Str × Doc)) (p : Str) (sub : PSchema) (k : Str) :
    dget (autoDefaultStep f kvs p sub) k = if k = p then fillVal f sub (dget kvs p) else dget kvs k := by
  have hdel : ∀ k, dget (ddel kvs p) k = if k = p then none else dget kvs k := fun k => dget_ddel ..
  unfold autoDefaultStep fillVal
  cases hg : dget kvs p with
  | none =>
    simp only [Option.isNone_none, Bool.and_true, Bool.and_false, Bool.or_false]
    cases hd : sub.default <;> cases firstDefined sub.autoDefault f.autoDefault <;> by_cases hk : k = p <;>
      simp [dget_dset, hk, hg]
  | some v =>
    simp only [Option.isNone_some, Bool.and_false, Bool.false_or]
    cases hd : sub.default <;>
      cases (firstDefined sub.autoDefaultNull f.autoDefaultNulls && !isNullInType sub.type && f.isNull v) <;>
      cases (firstDefined sub.autoRemoveNull f.autoRemoveNulls && !isNullInType sub.type && f.isNull v) <;>
      by_cases hk : k = p <;> simp [dget_dset, hdel, hk, hg]

theorem loop_get (f : AutoFlags) (props : List (Str × PSchema)) : ∀ kvs, (dkeys props).Nodup → ∀ k,
    dget (autoDefaultLoop f kvs props) k = match dget props k with
      | some sub => fillVal f sub (dget kvs k)
      | none => dget kvs k := by
  induction props with
  | nil => intro kvs _ k; rfl
  | cons ps t ih =>
    obtain ⟨p, s⟩ := ps
    intro kvs hnd k
    simp only [dkeys, List.map_cons, List.nodup_cons] at hnd
    simp only [autoDefaultLoop]
    rw [ih _ hnd.2, step_get, dget_cons]
    by_cases hk : k = p
    · subst hk
      have : dget t k = none := (dget_eq_none_iff _ _).2 hnd.1
      simp [this]
    · have hk' : p ≠ k := fun e => hk e.symm
      simp [hk, hk']

private theorem descend_get (f : AutoFlags) (props : List (Str × PSchema)) : ∀ kvs, (dkeys props).Nodup → ∀ k,
    dget (autoDescend f props kvs) k = match dget props k with
      | some sub => (dget kvs k).map (autoDefaults f sub)
      | none => dget kvs k := by
  induction props with
  | nil => intro kvs _ k; simp [autoDescend]
  | cons ps t ih =>
    obtain ⟨p, s⟩ := ps
    intro kvs hnd k
    simp only [dkeys, List.map_cons, List.nodup_cons] at hnd
    rw [autoDescend, ih _ hnd.2, dget_cons]
    by_cases hk : k = p
    · subst hk
      have : dget t k = none := (dget_eq_none_iff _ _).2 hnd.1
      rw [this]
      cases hv : dget kvs k with
      | none => simp [hv]
      | some v => simp
    · have hk' : p ≠ k := fun e => hk e.symm
      rw [if_neg hk']
      cases hv : dget kvs p with
      | none => simp
      | some v => simp [dget_dset_ne _ _ hk]

theorem fillVal_filled (f : AutoFlags) (sub : PSchema) (given : Option Doc) :
    Filled f sub given (fillVal f sub given) := by
  have h1 := firstDefined_iff sub.autoDefault f.autoDefault
  have h2 := firstDefined_iff sub.autoDefaultNull f.autoDefaultNulls
  have h3 := firstDefined_iff sub.autoRemoveNull f.autoRemoveNulls
  have h4 := nullable_iff sub
  unfold fillVal
  generalize hA : firstDefined sub.autoDefault f.autoDefault = A at *
  generalize hB : firstDefined sub.autoDefaultNull f.autoDefaultNulls = B at *
  generalize hC : firstDefined sub.autoRemoveNull f.autoRemoveNulls = C at *
  generalize hN : isNullInType sub.type = N at *
  cases given with
  | none =>
    cases hd : sub.default with
    | none =>
      have := @Filled.stillMissing f sub (by simp [hd])
      cases A <;> cases B <;> cases C <;> cases N <;> simpa using this
    | some d =>
      cases hA' : A with
      | true => simp; exact .missing d hd (h1.1 hA')
      | false =>
        have := @Filled.stillMissing f sub (by rw [← h1, hA']; simp)
        cases B <;> cases C <;> cases N <;> simpa using this
  | some v =>
    have h5 := isNull_iff f v
    cases hv : f.isNull v with
    | false =>
      have hn : ¬ IsNull f v := by rw [← h5, hv]; simp
      have := @Filled.given f sub v hn
      cases hd : sub.default <;> cases A <;> cases B <;> cases C <;> cases N <;> simpa [hv] using this
    | true =>
      have hn := h5.1 hv
      cases hNN : N with
      | true =>
        have := @Filled.nullAllowed f sub v hn (h4.1 hNN)
        cases hd : sub.default <;> cases A <;> cases B <;> cases C <;> simpa [hv] using this
      | false =>
        have hnn : ¬ Nullable sub := by rw [← h4, hNN]; simp
        have rest : ¬ (sub.default.isSome ∧ On sub.autoDefaultNull f.autoDefaultNulls) →
            Filled f sub (some v) (if C = true then none else some v) := by
          intro hx
          cases hC' : C with
          | true => simp; exact .nullRemoved v hn hnn hx (h3.1 hC')
          | false => simp; exact .nullKept v hn hnn hx (by rw [← h3, hC']; simp)
        cases hd : sub.default with
        | none =>
          have := rest (by simp [hd])
          cases A <;> cases B <;> simpa [hv] using this
        | some d =>
          cases hB' : B with
          | true => simp [hv]; exact .nullReplaced v d hn hnn hd (h2.1 hB')
          | false =>
            have := rest (by rw [← h2, hB']; simp)
            cases A <;> simpa [hv] using this

theorem filled_unique {f : AutoFlags} {s : PSchema} {g a b : Option Doc} (h1 : Filled f s g a)
    (h2 : Filled f s g b) : a = b := by
  cases h1 <;> cases h2 <;> first | rfl | contradiction | skip
  all_goals simp_all

/-- C29: validating fills in the defaults of the properties that are missing, or null where that may
not be, removes the nulls that may not be, and changes nothing else; at any depth. -/
theorem C29_effect (f : AutoFlags) (s : PSchema) (hs : SchemaOk s) (d : Doc) : Defaulted f s d (autoDefaults f s d) := by
  induction s using PSchema.ind generalizing d with
  | h dd a b c t ps ih =>
    cases hs with
    | mk _ hnd hps =>
      replace hnd : (dkeys ps).Nodup := hnd
      replace hps : ∀ p ∈ ps, SchemaOk p.2 := hps
      cases d with
      | dict kvs =>
        simp only [autoDefaults]
        have key : ∀ k, dget (autoDescend f ps (autoDefaultLoop f kvs ps)) k = match dget ps k with
            | some sub => (fillVal f sub (dget kvs k)).map (autoDefaults f sub)
            | none => dget kvs k := by
          intro k
          rw [descend_get _ _ _ hnd, loop_get _ _ _ hnd]
          cases dget ps k <;> rfl
        refine .object _ kvs _ (fun p => (dget (autoDescend f ps (autoDefaultLoop f kvs ps)) p).getD .null) ?_ ?_ ?_ ?_
        · intro k hk
          have : dget ps k = none := (dget_eq_none_iff _ _).2 hk
          rw [key, this]
        · intro p sub hp hf
          have e := filled_unique (fillVal_filled f sub (dget kvs p)) hf
          have hp' : dget ps p = some sub := hp
          rw [key, hp']; simp only; rw [e]; rfl
        · intro p sub v hp hf
          have e := filled_unique (fillVal_filled f sub (dget kvs p)) hf
          have hp' : dget ps p = some sub := hp
          show _ = some ((dget _ p).getD Doc.null)
          rw [key, hp']; simp only; rw [e]; rfl
        · intro p sub v hp hf
          have e := filled_unique (fillVal_filled f sub (dget kvs p)) hf
          have hp' : dget ps p = some sub := hp
          show Defaulted f sub v ((dget _ p).getD .null)
          rw [key, hp']; simp only; rw [e]
          exact ih _ (mem_of_dget hp') (hps _ (mem_of_dget hp')) v
      | _ => simp only [autoDefaults]; exact .other _ _ (by simp [isDict])

private theorem autoDefaults_isNull (f : AutoFlags) (s : PSchema) (d : Doc) :
    f.isNull (autoDefaults f s d) = f.isNull d := by
  obtain ⟨_, _, _, _, _, ps⟩ := s
  cases d <;> rfl

private theorem autoDefaults_null (f : AutoFlags) (s : PSchema) (d : Doc) (h : f.isNull d = true) :
    autoDefaults f s d = d := by
  obtain ⟨_, _, _, _, _, ps⟩ := s
  cases d <;> first | rfl | (simp [AutoFlags.isNull] at h)

theorem dset_same {kvs : List (Str × Doc)} {k : Str} {v : Doc} (h : dget kvs k = some v) : dset kvs k v = kvs := by
  induction kvs with
  | nil => simp at h
  | cons a t ih =>
    obtain ⟨k', v'⟩ := a
    rw [dget_cons] at h
    by_cases hk : k' = k
    · rw [if_pos hk] at h; cases h; simp [dset, hk]
    · rw [if_neg hk] at h; simp [dset, hk, ih h]

/-- A round of the loop that finds what it would put there changes nothing. -/
theorem step_stable (f : AutoFlags) (kvs : List (Str × Doc)) (p : Str) (sub : PSchema)
    (h : fillVal f sub (dget kvs p) = dget kvs p) : autoDefaultStep f kvs p sub = kvs := by
  unfold fillVal at h
  unfold autoDefaultStep
  cases hg : dget kvs p with
  | none =>
    rw [hg] at h
    simp only [Option.isNone_none, Bool.and_true, Bool.and_false, Bool.or_false] at h ⊢
    revert h
    cases hd : sub.default <;> cases firstDefined sub.autoDefault f.autoDefault <;> simp
  | some v =>
    rw [hg] at h
    simp only [Option.isNone_some, Bool.and_false, Bool.false_or] at h ⊢
    revert h
    cases hd : sub.default <;>
      cases (firstDefined sub.autoDefaultNull f.autoDefaultNulls && !isNullInType sub.type && f.isNull v) <;>
      cases (firstDefined sub.autoRemoveNull f.autoRemoveNulls && !isNullInType sub.type && f.isNull v) <;>
      simp
    all_goals (intro e; exact dset_same (by rw [hg, e]))

theorem loop_stable (f : AutoFlags) (props : List (Str × PSchema)) (kvs : List (Str × Doc))
    (h : ∀ ps ∈ props, fillVal f ps.2 (dget kvs ps.1) = dget kvs ps.1) : autoDefaultLoop f kvs props = kvs := by
  induction props with
  | nil => rfl
  | cons ps t ih =>
    obtain ⟨p, s⟩ := ps
    simp only [autoDefaultLoop]
    rw [step_stable f kvs p s (h (p, s) (by simp))]
    exact ih (fun q hq => h q (by simp [hq]))

private theorem descend_stable (f : AutoFlags) (props : List (Str × PSchema)) (kvs : List (Str × Doc))
    (h : ∀ ps ∈ props, ∀ v, dget kvs ps.1 = some v → autoDefaults f ps.2 v = v) : autoDescend f props kvs = kvs := by
  induction props with
  | nil => simp [autoDescend]
  | cons ps t ih =>
    obtain ⟨p, s⟩ := ps
    rw [autoDescend]
    have ih' := ih (fun q hq => h q (by simp [hq]))
    cases hv : dget kvs p with
    | none => exact ih'
    | some v =>
      have := h (p, s) (by simp) v hv
      simp only at this ⊢
      rw [this, dset_same hv]
      exact ih'

/-- What was filled stays, unless it is removed and filled in turns; `w` is what happens to it later. -/
theorem fill_stable_by (f : AutoFlags) (sub : PSchema) (w : Doc → Doc) (hw1 : ∀ d, f.isNull (w d) = f.isNull d)
    (hw2 : ∀ d, f.isNull d = true → w d = d) (g : Option Doc)
    (hst : ¬ (¬ Nullable sub ∧ sub.default.isSome ∧ On sub.autoDefault f.autoDefault ∧
      On sub.autoRemoveNull f.autoRemoveNulls ∧ ¬ On sub.autoDefaultNull f.autoDefaultNulls)) :
    fillVal f sub ((fillVal f sub g).map w) = (fillVal f sub g).map w := by
  have hF := fillVal_filled f sub g
  generalize hx : fillVal f sub g = x at hF ⊢
  refine filled_unique (fillVal_filled f sub _) ?_
  cases hF with
  | missing d hd hon =>
    simp only [Option.map_some]
    by_cases hn : IsNull f d
    · rw [hw2 d ((isNull_iff _ _).2 hn)]
      by_cases hnn : Nullable sub
      · exact .nullAllowed _ hn hnn
      · by_cases hb : On sub.autoDefaultNull f.autoDefaultNulls
        · exact .nullReplaced _ _ hn hnn hd hb
        · by_cases hc : On sub.autoRemoveNull f.autoRemoveNulls
          · exact absurd ⟨hnn, by simp [hd], hon, hc, hb⟩ hst
          · exact .nullKept _ hn hnn (fun h => hb h.2) hc
    · refine .given _ ?_
      rw [← isNull_iff, hw1, isNull_iff]; exact hn
  | stillMissing h => exact .stillMissing h
  | nullReplaced v d hn hnn hd hb =>
    simp only [Option.map_some]
    by_cases hn' : IsNull f d
    · rw [hw2 d ((isNull_iff _ _).2 hn')]
      exact .nullReplaced _ _ hn' hnn hd hb
    · refine .given _ ?_
      rw [← isNull_iff, hw1, isNull_iff]; exact hn'
  | nullRemoved v hn hnn hb hc =>
    refine .stillMissing ?_
    rintro ⟨h1, h2⟩
    exact hst ⟨hnn, h1, h2, hc, fun h => hb ⟨h1, h⟩⟩
  | nullKept v hn hnn hb hc =>
    simp only [Option.map_some]
    rw [hw2 v ((isNull_iff _ _).2 hn)]
    exact .nullKept _ hn hnn hb hc
  | nullAllowed v hn hnn =>
    simp only [Option.map_some]
    rw [hw2 v ((isNull_iff _ _).2 hn)]
    exact .nullAllowed _ hn hnn
  | given v hn =>
    refine .given _ ?_
    rw [← isNull_iff, hw1, isNull_iff]; exact hn

/-- C29: validating again changes nothing more, when no property is one whose nulls are removed and
that is filled in when missing. See `C29_again_refuted` for those. -/
theorem C29_again_partial (f : AutoFlags) (s : PSchema) (hs : SchemaOk s) (hu : ¬ HasUnstable f s) (d : Doc) :
    autoDefaults f s (autoDefaults f s d) = autoDefaults f s d := by
  induction s using PSchema.ind generalizing d with
  | h dd a b c t ps ih =>
    cases hs with
    | mk _ hnd hps =>
      replace hnd : (dkeys ps).Nodup := hnd
      replace hps : ∀ p ∈ ps, SchemaOk p.2 := hps
      cases d with
      | dict kvs =>
        simp only [autoDefaults]
        congr 1
        have key : ∀ k, dget (autoDescend f ps (autoDefaultLoop f kvs ps)) k = match dget ps k with
            | some sub => (fillVal f sub (dget kvs k)).map (autoDefaults f sub)
            | none => dget kvs k := by
          intro k
          rw [descend_get _ _ _ hnd, loop_get _ _ _ hnd]
          cases dget ps k <;> rfl
        rw [loop_stable, descend_stable]
        · intro q hq v hv
          have hp : dget ps q.1 = some q.2 := dget_of_mem hnd hq
          rw [key, hp] at hv
          simp only at hv
          cases hfv : fillVal f q.2 (dget kvs q.1) with
          | none => rw [hfv] at hv; cases hv
          | some w =>
            rw [hfv] at hv; cases hv
            exact ih q hq (hps q hq) (fun h => hu (.inside _ q hq h)) w
        · intro q hq
          have hp : dget ps q.1 = some q.2 := dget_of_mem hnd hq
          rw [key, hp]
          refine fill_stable_by f q.2 _ (autoDefaults_isNull f q.2) (autoDefaults_null f q.2) _ ?_
          rintro ⟨h1, h2, h3, h4, h5⟩
          exact hu (.here _ q hq h1 h2 h3 h4 h5)
      | _ => rfl

private theorem autoDefaults_get (f : AutoFlags) (s : PSchema) (hs : SchemaOk s) (kvs : List (Str × Doc)) (q : Str × PSchema)
    (hq : q ∈ s.properties) : ∃ r, autoDefaults f s (.dict kvs) = .dict r ∧
      dget r q.1 = (fillVal f q.2 (dget kvs q.1)).map (autoDefaults f q.2) := by
  obtain ⟨dd, a, b, c, t, ps⟩ := s
  cases hs with
  | mk _ hnd hps =>
    replace hnd : (dkeys ps).Nodup := hnd
    refine ⟨_, rfl, ?_⟩
    rw [descend_get _ _ _ hnd, loop_get _ _ _ hnd, dget_of_mem hnd hq]

private theorem unstable_again (f : AutoFlags) {s : PSchema} (hu : HasUnstable f s) (hs : SchemaOk s) :
    ∃ kvs, autoDefaults f s (autoDefaults f s (.dict kvs)) ≠ autoDefaults f s (.dict kvs) := by
  induction hu with
  | here s p hp h1 h2 h3 h4 h5 =>
    refine ⟨[(p.1, .null)], fun e => ?_⟩
    obtain ⟨r, e1, g1⟩ := autoDefaults_get f s hs [(p.1, .null)] p hp
    obtain ⟨r', e2, g2⟩ := autoDefaults_get f s hs r p hp
    rw [e1, e2] at e
    injection e with e
    subst e
    have f1 : fillVal f p.2 (dget [(p.1, Doc.null)] p.1) = none := by
      have : dget [(p.1, Doc.null)] p.1 = some .null := by simp [dget_cons]
      rw [this]
      exact filled_unique (fillVal_filled f p.2 _) (.nullRemoved _ (.inl rfl) h1 (fun h => h5 h.2) h4)
    rw [f1, Option.map_none] at g1
    obtain ⟨x, hx⟩ := Option.isSome_iff_exists.1 h2
    rw [g1, filled_unique (fillVal_filled f p.2 _) (.missing x hx h3)] at g2
    cases g2
  | inside s p hp _ ih =>
    have hsub : SchemaOk p.2 := by cases hs with | mk _ _ h => exact h p hp
    obtain ⟨kvs, hne⟩ := ih hsub
    refine ⟨[(p.1, .dict kvs)], fun e => hne ?_⟩
    obtain ⟨r, e1, g1⟩ := autoDefaults_get f s hs [(p.1, .dict kvs)] p hp
    obtain ⟨r', e2, g2⟩ := autoDefaults_get f s hs r p hp
    rw [e1, e2] at e
    injection e with e
    subst e
    have notNull : ∀ l, ¬ IsNull f (.dict l) := by
      rintro l (h | ⟨_, h, -⟩) <;> cases h
    have f1 : dget [(p.1, Doc.dict kvs)] p.1 = some (.dict kvs) := by simp [dget_cons]
    rw [f1, filled_unique (fillVal_filled f p.2 _) (.given _ (notNull _))] at g1
    obtain ⟨l, hl⟩ : ∃ l, autoDefaults f p.2 (.dict kvs) = .dict l := by
      obtain ⟨_, _, _, _, _, ps⟩ := p.2
      exact ⟨_, rfl⟩
    simp only [Option.map_some, hl] at g1
    rw [g1, filled_unique (fillVal_filled f p.2 _) (.given _ (notNull _))] at g2
    simp only [Option.map_some, Option.some.injEq] at g2
    rw [hl]
    exact g2.symm

/-- C29: exactly for which schemas validating again never changes anything more. -/
theorem C29_again_exact (f : AutoFlags) (s : PSchema) (hs : SchemaOk s) :
    (∀ d, autoDefaults f s (autoDefaults f s d) = autoDefaults f s d) ↔ ¬ HasUnstable f s := by
  constructor
  · intro h hu
    obtain ⟨kvs, hne⟩ := unstable_again f hu hs
    exact hne (h _)
  · exact fun hu d => C29_again_partial f s hs hu d

/-- C29 fails: a null that is removed by the first validation is filled in by the second one. -/
theorem C29_again_refuted : ∃ f s d, SchemaOk s ∧ autoDefaults f s d = .dict [] ∧
    autoDefaults f s (autoDefaults f s d) = .dict [("a".toList, .int 1)] := by
  refine ⟨⟨some true, some false, some true, fun _ => false⟩,
    .mk none none none none .none [("a".toList, .mk (some (.int 1)) none none none (.one "integer".toList) [])],
    .dict [("a".toList, .null)], ?_, rfl, rfl⟩
  refine .mk _ (by decide) ?_
  intro p hp
  simp [PSchema.properties] at hp
  subst hp
  exact .mk _ (by decide) (by simp [PSchema.properties])

/-- C29 fails: a schema that asks for a default is not heeded when the validator was not asked for any. -/
theorem C29_schema_flag_refuted : ∃ f s d, pandelDefaults f s d = d ∧ ¬ Defaulted f s d d := by
  refine ⟨⟨some false, some false, some false, fun _ => false⟩,
    .mk none none none none .none [("a".toList, .mk (some (.int 1)) (some true) none none .none [])],
    .dict [], rfl, ?_⟩
  intro h
  cases h with
  | other _ _ h => exact h trivial
  | object _ _ _ next h1 h2 h3 h4 =>
    have := h3 "a".toList _ (.int 1) rfl (.missing _ rfl (.inl rfl))
    simp at this

/-- C29, violated: the documentation of `auto_default` says that the default is for properties whose type does not support nulls, but a
missing property is filled in whatever its type. -/
theorem C29_nullable_refuted : ∃ f s d dflt, SchemaOk s ∧
    s.properties = [("a".toList, .mk (some dflt) none none none (.many ["integer".toList, "null".toList]) [])] ∧
    f.autoDefault = some true ∧ d = .dict [] ∧ pandelDefaults f s d = .dict [("a".toList, dflt)] := by
  refine ⟨⟨some true, some false, some false, fun _ => false⟩,
    .mk none none none none .none [("a".toList, .mk (some (.int 1)) none none none (.many ["integer".toList, "null".toList]) [])],
    .dict [], .int 1, ?_, rfl, rfl, rfl, rfl⟩
  refine .mk _ (by decide) ?_
  intro p hp
  simp [PSchema.properties] at hp
  subst hp
  exact .mk _ (by decide) (by intro p hp; simp [PSchema.properties] at hp)

/-- C29: the validator installs the rule when any of its three arguments is set. -/
theorem C29_installed (f : AutoFlags) (s : PSchema) (hs : SchemaOk s) (d : Doc)
    (h : f.autoDefault = some true ∨ f.autoDefaultNulls = some true ∨ f.autoRemoveNulls = some true) :
    Defaulted f s d (pandelDefaults f s d) := by
  have e : pandelDefaults f s d = autoDefaults f s d := by
    unfold pandelDefaults
    rcases h with h | h | h <;> simp [h]
  rw [e]
  exact C29_effect f s hs d

/-- C29: when none of the three arguments is set (they may be left out), the document is left as it is, whatever the schema says. -/
theorem C29_not_installed (f : AutoFlags) (s : PSchema) (d : Doc)
    (h1 : f.autoDefault ≠ some true) (h2 : f.autoDefaultNulls ≠ some true) (h3 : f.autoRemoveNulls ≠ some true) :
    pandelDefaults f s d = d := by
  have hn : ∀ o : Option Bool, o ≠ some true → o.getD false = false := by
    intro o ho
    cases o with
    | none => rfl
    | some b => cases b with
      | false => rfl
      | true => exact absurd rfl ho
  simp [pandelDefaults, hn _ h1, hn _ h2, hn _ h3]

example : pandelDefaults ⟨none, some false, none, fun _ => false⟩
    (.mk none none none none .none [("a".toList, .mk (some (.int 1)) (some true) none none .none [])]) (.dict []) = .dict [] :=
  C29_not_installed _ _ _ (by simp) (by simp) (by simp)

/-- Defaults of a property and inside a property, and a null that is replaced. -/
example : autoDefaults ⟨some true, some true, none, fun _ => false⟩
    (.mk none none none none .none
      [("a".toList, .mk (some (.int 1)) none none none .none []),
       ("b".toList, .mk (some (.dict [])) none none none .none
          [("c".toList, .mk (some (.str [])) none none none .none [])]),
       ("d".toList, .mk (some (.int 5)) none none none (.many ["null".toList]) [])])
    (.dict [("a".toList, .null), ("d".toList, .null), ("z".toList, .int 0)]) =
  .dict [("a".toList, .int 1), ("d".toList, .null), ("z".toList, .int 0), ("b".toList, .dict [("c".toList, .str [])])] := rfl

/-! ### C30 -/

/-- C30: the additional properties are exactly the keys that are not declared and match no pattern.
Missing for the full property: patterns whose joined text is empty, see `C30_empty_pattern_refuted`. -/
theorem C30_extras_partial (search : Str → Str → Bool) (properties patterns keys : List Str)
    (hs : BarsAreAlternatives search) (hp : patterns ≠ [[]]) (k : Str) :
    k ∈ findAdditional search properties patterns keys ↔
      k ∈ keys ∧ k ∉ properties ∧ ∀ p ∈ patterns, search p k = false := by
  unfold findAdditional
  simp only [List.mem_filter, Bool.and_eq_true, Bool.not_eq_true', List.contains_eq_mem, decide_eq_false_iff_not]
  refine and_congr_right fun _ => and_congr_right fun _ => ?_
  cases patterns with
  | nil => simp [join]
  | cons p ps =>
    have hne : (join ['|'] (p :: ps)).isEmpty = false := by
      cases ps with
      | nil => cases p with
        | nil => exact absurd rfl hp
        | cons c t => simp [join]
      | cons q qs => simp [join]
    rw [hne]
    simp only [Bool.not_false, Bool.true_and]
    have := hs p ps k
    constructor
    · intro h q hq
      cases hq' : search q k with
      | false => rfl
      | true => rw [this.2 ⟨q, hq, hq'⟩] at h; cases h
    · intro h
      cases hj : search (join ['|'] (p :: ps)) k with
      | false => rfl
      | true =>
        obtain ⟨q, hq, hq'⟩ := this.1 hj
        rw [h q hq] at hq'; cases hq'

/-- C30: which properties are additional, whatever the patterns: a single pattern that is empty counts as none. -/
theorem C30_extras_exact (search : Str → Str → Bool) (properties patterns keys : List Str)
    (hs : BarsAreAlternatives search) (k : Str) :
    k ∈ findAdditional search properties patterns keys ↔
      k ∈ keys ∧ k ∉ properties ∧ (patterns = [[]] ∨ ∀ p ∈ patterns, search p k = false) := by
  by_cases hp : patterns = [[]]
  · subst hp
    unfold findAdditional
    simp [join]
  · rw [C30_extras_partial search properties patterns keys hs hp]
    simp [hp]

/-- C30: with `additionalProperties` false there is an error exactly when there is an additional
property, and it names them; with true there is never one; instances that are no objects are left alone. -/
theorem C30_error {V Sch : Type} (search : Str → Str → Bool) (descend : Doc → Sch → List V)
    (properties patterns : List Str) (kvs : List (Str × Doc)) (hs : BarsAreAlternatives search) (hp : patterns ≠ [[]]) :
    (ruleAdditional search descend (.flag false) (.dict kvs) properties patterns = [] ↔
      ∀ k ∈ kvs.map (·.1), k ∈ properties ∨ ∃ p ∈ patterns, search p k = true) ∧
    (∀ e ∈ ruleAdditional search descend (.flag false) (.dict kvs) properties patterns,
      ∃ ks, e = .unexpected ks ∧ ∀ k, k ∈ ks ↔ k ∈ kvs.map (·.1) ∧ k ∉ properties ∧ ∀ p ∈ patterns, search p k = false) ∧
    ruleAdditional search descend (.flag true) (.dict kvs) properties patterns = [] := by
  have key := C30_extras_partial search properties patterns (dkeys kvs) hs hp
  refine ⟨?_, ?_, rfl⟩
  · simp only [ruleAdditional]
    constructor
    · intro h k hk
      refine Classical.byContradiction fun hn => ?_
      rw [not_or] at hn
      have hm : k ∈ findAdditional search properties patterns (dkeys kvs) := by
        refine (key k).2 ⟨hk, hn.1, fun p hpp => ?_⟩
        cases hv : search p k with
        | false => rfl
        | true => exact absurd ⟨p, hpp, hv⟩ hn.2
      cases he : findAdditional search properties patterns (dkeys kvs) with
      | nil => rw [he] at hm; cases hm
      | cons x xs => rw [he] at h; simp at h
    · intro h
      have : findAdditional search properties patterns (dkeys kvs) = [] := by
        rw [List.eq_nil_iff_forall_not_mem]
        intro k hk
        obtain ⟨h1, h2, h3⟩ := (key k).1 hk
        rcases h k h1 with h | ⟨p, hpp, hv⟩
        · exact h2 h
        · rw [h3 p hpp] at hv; cases hv
      simp [this]
  · intro e he
    simp only [ruleAdditional] at he
    split at he
    · cases he
    · simp at he
      exact ⟨_, he, key⟩

/-- C30: with a schema each additional property, and no other, is checked with it. -/
theorem C30_schema {V Sch : Type} (search : Str → Str → Bool) (descend : Doc → Sch → List V) (sch : Sch)
    (properties patterns : List Str) (kvs : List (Str × Doc)) (hs : BarsAreAlternatives search) (hp : patterns ≠ [[]])
    (hk : (kvs.map (·.1)).Nodup) (e : AddErr V) :
    e ∈ ruleAdditional search descend (.schema sch) (.dict kvs) properties patterns ↔
      ∃ k v x, (k, v) ∈ kvs ∧ k ∉ properties ∧ (∀ p ∈ patterns, search p k = false) ∧ x ∈ descend v sch ∧
        e = .inside k x := by
  have key := C30_extras_partial search properties patterns (dkeys kvs) hs hp
  simp only [ruleAdditional, List.mem_flatMap, List.mem_map]
  constructor
  · rintro ⟨k, hk', x, hx, rfl⟩
    obtain ⟨h1, h2, h3⟩ := (key k).1 hk'
    obtain ⟨v, hv⟩ := (mem_dkeys_iff _ _).1 h1
    rw [hv] at hx
    exact ⟨k, v, x, mem_of_dget hv, h2, h3, hx, rfl⟩
  · rintro ⟨k, v, x, h1, h2, h3, hx, rfl⟩
    have hv := dget_of_mem hk h1
    exact ⟨k, (key k).2 ⟨(mem_dkeys_iff _ _).2 ⟨v, hv⟩, h2, h3⟩, x, by rw [hv]; exact hx, rfl⟩

/-- A library that satisfies the assumption: patterns are alternatives of literal texts. -/
private def literals : Str → Str → Bool := fun p s => (splitOn '|' p).any (fun q => q == s)

example : literals "a|b".toList "b".toList = true ∧
    findAdditional literals ["x".toList] ["a".toList, "b".toList] ["x".toList, "y".toList, "b".toList] = ["y".toList] := by
  decide

/-- C30 fails: with the empty text as the only pattern, which every key matches, keys are reported. -/
theorem C30_empty_pattern_refuted : ∃ (search : Str → Str → Bool), (∀ k, search [] k = true) ∧
    findAdditional search [] [[]] ["a".toList] = ["a".toList] :=
  ⟨fun _ _ => true, fun _ => rfl, rfl⟩

end Props
