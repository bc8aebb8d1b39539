import Verif.Lemmas.PandelHeap
/-
C28: what building does to the submodels that were added.
-/
set_option linter.unusedSimpArgs false
namespace Props
open Py Model Spec

private theorem shows_kept {n : Nat} {h h' : Heap} (hn : h.length ≤ n) (hk : Kept n h h') : Shows (whole h) (whole h') := by
  intro l o hl
  have hlt := (List.getElem?_eq_some_iff.1 hl).1
  unfold whole at *
  rw [hk l (Nat.lt_of_lt_of_le hlt hn)]
  exact hl

private theorem prevalidate_kept {n : Nat} {mk : MakerH} (hc : Careful n mk) : ∀ (vs : List Val) (h : Heap), n ≤ h.length →
    Kept n h (prevalidateH mk h vs).1 ∧ n ≤ (prevalidateH mk h vs).1.length := by
  intro vs
  induction vs with
  | nil => intro h hn; exact ⟨Kept.refl _ _, hn⟩
  | cons v vs ih =>
    intro h hn
    have k1 := hc.validator true h v hn
    have k2 := hc.grows true h v
    unfold prevalidateH
    split
    · rename_i h1 _ _ e
      rw [e] at k1 k2
      exact ⟨k1, Nat.le_trans hn k2⟩
    · rename_i h1 _ e
      rw [e] at k1 k2
      obtain ⟨i1, i2⟩ := ih h1 (Nat.le_trans hn k2)
      exact ⟨k1.trans i1, i2⟩

private theorem mergeH_newTo {n m : Nat} {h : Heap} {a b v : Val} (hn : n ≤ h.length) (ha : NewTo n a)
    (hb : ∀ l, b = .ref l → l < h.length) (hv : (mergeH m h a b).2 = .ok v) : NewTo n v := by
  cases m with
  | zero => simp [mergeH] at hv
  | succ m =>
    unfold mergeH at hv
    split at hv
    · split at hv
      · cases hv
      · split at hv
        · cases hv
        · split at hv
          · cases hv
          · simp at hv
            subst hv
            intro l hl; cases hl; exact hn
    · rename_i hnd
      split at hv
      · split at hv
        · cases hv
        · rename_i vs _
          have hk := mergeListH_kept (mergeH_adds m) vs h
          split at hv
          · cases hv
          · rename_i h1 ws he
            rw [he] at hk
            simp at hv
            subst hv
            intro l hl; cases hl; exact Nat.le_trans hn hk.2
      · rename_i hnl
        split at hv
        · cases hv
        · simp at hv
          split at hv
          · subst hv; exact ha
          · subst hv
            rw [not_or] at hnd hnl
            intro l hl
            subst hl
            have hlt := hb l rfl
            have h1 := hnd.2
            have h2 := hnl.2
            simp only [asDict, asList, List.getElem?_eq_getElem hlt] at h1 h2
            cases ho : h[l] with
            | list _ => rw [ho] at h2; simp at h2
            | dict _ => rw [ho] at h1; simp at h1

theorem mergeAll_kept {n m : Nat} : ∀ (vs : List Val) (h : Heap) (a : Val), n ≤ h.length → NewTo n a →
    (∀ v ∈ vs, ∀ l, v = .ref l → l < n) →
    Kept n h (mergeAllH m h a vs).1 ∧ n ≤ (mergeAllH m h a vs).1.length ∧ NewTo n (mergeAllH m h a vs).2.1 := by
  intro vs
  induction vs with
  | nil => intro h a hn ha _; exact ⟨Kept.refl _ _, hn, ha⟩
  | cons v vs ih =>
    intro h a hn ha hv
    obtain ⟨k1, k2⟩ := mergeH_adds m h a v
    unfold mergeAllH
    split
    · rename_i h1 e he
      rw [he] at k1 k2
      exact ⟨k1.mono hn, Nat.le_trans hn k2, ha⟩
    · rename_i h1 w he
      rw [he] at k1 k2
      have hw : NewTo n w := mergeH_newTo (m := m) hn ha
        (fun l e => Nat.lt_of_lt_of_le (hv v (by simp) l e) hn) (by rw [he])
      obtain ⟨i1, i2, i3⟩ := ih h1 w (Nat.le_trans hn k2) hw (fun x hx => hv x (by simp [hx]))
      exact ⟨(k1.mono hn).trans i1, i2, i3⟩

private theorem curate_kept {n : Nat} : ∀ (cs : List (Heap → Val → Heap × Val × Option PyErr)) (h : Heap) (m : Val),
    (∀ c ∈ cs, ∀ h v, n ≤ h.length → NewTo n v → Kept n h (c h v).1 ∧ n ≤ (c h v).1.length ∧ NewTo n (c h v).2.1) →
    n ≤ h.length → NewTo n m → Kept n h (curateH h m cs).1 ∧ NewTo n (curateH h m cs).2 := by
  intro cs
  induction cs with
  | nil => intro h m _ _ hm; exact ⟨Kept.refl _ _, hm⟩
  | cons c cs ih =>
    intro h m hc hn hm
    obtain ⟨k1, k2, k3⟩ := hc c (by simp) h m hn hm
    unfold curateH
    split
    · rename_i h1 m1 e he
      rw [he] at k1 k2 k3
      exact ⟨k1, k3⟩
    · rename_i h1 m1 he
      rw [he] at k1 k2 k3
      obtain ⟨i1, i2⟩ := ih h1 m1 (fun c h => hc c (by simp [h])) k2 k3
      exact ⟨k1.trans i1, i2⟩

private theorem build_kept {mk : MakerH} {h : Heap} (hc : Careful h.length mk) (fuel : Nat) (subs : List Val)
    (hs : ∀ v ∈ subs, ∀ l, v = .ref l → l < h.length) :
    Kept h.length h (buildH mk fuel h subs).1 ∧ NewTo h.length (buildH mk fuel h subs).2 := by
  have hnull : NewTo h.length .null := by intro l e; cases e
  obtain ⟨p1, p2⟩ := prevalidate_kept hc subs h (Nat.le_refl _)
  unfold buildH
  split
  · rename_i h1 e
    rw [e] at p1
    exact ⟨p1, hnull⟩
  · rename_i h1 e
    rw [e] at p1 p2
    obtain ⟨m1, m2, m3⟩ := mergeAll_kept (m := fuel) subs h1 .null p2 hnull hs
    split
    · rename_i h2 m e2
      rw [e2] at m1 m3
      exact ⟨p1.trans m1, m3⟩
    · rename_i h2 m e2
      rw [e2] at m1 m2 m3
      have v1 := hc.validator false h2 m m2
      have v2 := hc.grows false h2 m
      split
      rename_i h3 k r e3
      rw [e3] at v1 v2
      simp only at v1 v2
      split
      · obtain ⟨c1, c2⟩ := curate_kept mk.curators h3 m hc.curators (Nat.le_trans m2 v2) m3
        exact ⟨((p1.trans m1).trans v1).trans c1, c2⟩
      · exact ⟨(p1.trans m1).trans v1, m3⟩

/-- C28: building leaves all objects that were there, those of the submodels included, as they were,
when neither the validations nor the curations write to them; this is whatever the submodels are, share
or refer to, and however the building ends. Missing for the full property: validations that fill in
defaults, see `C28_prevalidation_refuted` and `C28_validation_refuted`. -/
theorem C28_unchanged_partial (mk : MakerH) (h : Heap) (subs : List Val) (fuel : Nat) (hc : Careful h.length mk)
    (hs : ∀ v ∈ subs, ∀ l, v = .ref l → l < h.length) (v : Val) (d : Doc) (hd : Reads (whole h) v d) :
    Reads (whole (buildH mk fuel h subs).1) v d :=
  Reads.mono (shows_kept (Nat.le_refl _) (build_kept hc fuel subs hs).1) d v hd

/-- C28: the model is never one of the objects that were there. -/
theorem C28_model_is_new (mk : MakerH) (h : Heap) (subs : List Val) (fuel : Nat) (hc : Careful h.length mk)
    (hs : ∀ v ∈ subs, ∀ l, v = .ref l → l < h.length) (l : Nat) (hl : (buildH mk fuel h subs).2 = .ref l) :
    h.length ≤ l :=
  (build_kept hc fuel subs hs).2 l hl

/-- C28: models that are found invalid are not curated: how the building ends does not depend on the curations. -/
theorem C28_invalid_uncurated (mk : MakerH) (h : Heap) (subs : List Val) (fuel : Nat)
    (hv : ∀ h v, (mk.validator false h v).2 ≠ (0, none)) (others : List (Heap → Val → Heap × Val × Option PyErr)) :
    buildH { mk with curators := others } fuel h subs = buildH mk fuel h subs := by
  have hp : ∀ (vs : List Val) (h : Heap), prevalidateH { mk with curators := others } h vs = prevalidateH mk h vs := by
    intro vs
    induction vs with
    | nil => intro h; rfl
    | cons v vs ih =>
      intro h
      unfold prevalidateH
      dsimp only
      split
      · rfl
      · rw [ih]
  unfold buildH
  rw [hp]
  split
  · rfl
  · split
    · rfl
    · rename_i h2 m _
      dsimp only
      have this : ¬ ((mk.validator false h2 m).2.1 = 0 ∧ (mk.validator false h2 m).2.2 = none) :=
        fun ⟨h1, h3⟩ => hv h2 m (Prod.ext h1 h3)
      exact (if_neg this).trans (if_neg this).symm

/-- A validation that reports one error, and a curation that would add a key. -/
example : ∀ h v, ((fun _ h _ => (h, 1, none) : Bool → Heap → Val → Heap × Nat × Option PyErr) false h v).2 ≠ (0, none) := by
  intro h v e
  cases e

private theorem view_none (h : Heap) : view (fun _ => false) h = whole h := by
  funext l; simp [view, whole]

/-- C28: merging on the heap does what merging of documents (C25, C26) says, when the nesting is within
the recursion limit. -/
theorem C28_merge_reads (n m : Nat) (hm : n < m) (h : Heap) (a b : Val) (da db : Doc) (ha : Reads (whole h) a da)
    (hb : Reads (whole h) b db) (hda : DepthLe n da) (hdb : DepthLe n db) :
    (∀ dc, mergeDoc da db = .ok dc → ∃ v, (mergeH m h a b).2 = .ok v ∧ Reads (whole (mergeH m h a b).1) v dc) ∧
    (∀ e, mergeDoc da db = .error e → (mergeH m h a b).2 = .error e) := by
  obtain ⟨k, rfl⟩ : ∃ k, m = k + 1 := ⟨m - 1, by omega⟩
  have := mergeH_agrees k h (fun _ => false) a b da db (by simp) (by rw [view_none]; exact ha)
    (by rw [view_none]; exact hb) (hda.mono (by omega)) (hdb.mono (by omega))
  constructor
  · intro dc hc
    rw [hc] at this
    obtain ⟨v, h1, h2⟩ := this
    rw [view_none] at h2
    exact ⟨v, h1, h2⟩
  · intro e he
    rw [he] at this
    exact this

/-- C28: the same of all submodels, one after the other. -/
theorem C28_merge_all_reads (n m : Nat) (hm : n < m) : ∀ (subs : List Val) (ds : List Doc) (h : Heap) (a : Val) (da : Doc),
    Reads (whole h) a da → ReadsList (whole h) subs ds → DepthLe n da → (∀ d ∈ ds, DepthLe n d) →
    Reads (whole (mergeAllH m h a subs).1) (mergeAllH m h a subs).2.1 (mergeAll da ds).1 ∧
    ((mergeAllH m h a subs).2.2 = true ↔ (mergeAll da ds).2 = none) := by
  intro subs
  induction subs with
  | nil => intro ds h a da ha hs _ _; cases hs; exact ⟨ha, by simp [mergeAllH, mergeAll]⟩
  | cons v vs ih =>
    intro ds h a da ha hs hda hds
    cases hs with
    | cons _ d _ ds h1 h2 =>
      have key := C28_merge_reads n m hm h a v da d ha h1 hda (hds d (by simp))
      obtain ⟨k1, k2⟩ := mergeH_adds m h a v
      have hsh := shows_kept (Nat.le_refl _) k1
      unfold mergeAllH mergeAll
      cases hc : mergeDoc da d with
      | error e =>
        have := key.2 e hc
        generalize hq : mergeH m h a v = q at this hsh
        obtain ⟨h', r⟩ := q
        simp only at this
        subst this
        simp only
        exact ⟨Reads.mono hsh da a ha, by simp⟩
      | ok dc =>
        obtain ⟨w, hw, hr⟩ := key.1 dc hc
        generalize hq : mergeH m h a v = q at hw hr hsh
        obtain ⟨h', r⟩ := q
        simp only at hw hr hsh
        subst hw
        simp only
        exact ih ds h' w dc hr (h2.mono hsh) (mergeDoc_depth n da d dc hda (hds d (by simp)) hc)
          (fun x hx => hds x (by simp [hx]))

/-- A schema that has no default anywhere below its top. -/
inductive NoDefaults : DSchema → Prop
  | mk (d ps) : (∀ p ∈ ps, p.2.default = none) → (∀ p ∈ ps, NoDefaults p.2) → NoDefaults (.mk d ps)

private theorem fillH_none (ps : List (Str × DSchema)) (h : Heap) (l : Nat) (hp : ∀ p ∈ ps, p.2.default = none) :
    fillH h l ps = h := by
  induction ps with
  | nil => rfl
  | cons p t ih =>
    obtain ⟨k, s⟩ := p
    have := hp (k, s) (by simp)
    simp only at this
    simp only [fillH, this]
    exact ih (fun q hq => hp q (by simp [hq]))

theorem defaultsH_none (s : DSchema) : NoDefaults s → ∀ h v, defaultsH s h v = h := by
  refine DSchema.rec (motive_1 := fun s => NoDefaults s → ∀ h v, defaultsH s h v = h)
    (motive_2 := fun ps => (∀ p ∈ ps, NoDefaults p.2) → ∀ h l, defaultsInH ps h l = h)
    (motive_3 := fun p => NoDefaults p.2 → ∀ h v, defaultsH p.2 h v = h) ?_ ?_ ?_ ?_ s
  · intro d ps ih hn h v
    cases hn with
    | mk _ _ h1 h2 =>
      unfold defaultsH
      split
      · split
        · rw [fillH_none ps h _ h1]; exact ih h2 h _
        · rfl
      · rfl
  · intro _ h l; simp [defaultsInH]
  · intro p ps hp hps hn h l
    obtain ⟨k, s⟩ := p
    unfold defaultsInH
    split
    · have := hp (hn (k, s) (by simp)) h
      simp only at this
      rw [this]
      exact hps (fun q hq => hn q (by simp [hq])) h l
    · exact hps (fun q hq => hn q (by simp [hq])) h l
  · intro k s h; exact h

/-- C28: the model-maker as it is, with schemas that have no defaults. -/
theorem C28_no_defaults_partial (pre post : DSchema) (h1 : NoDefaults pre) (h2 : NoDefaults post) (h : Heap)
    (subs : List Val) (fuel : Nat) (hs : ∀ v ∈ subs, ∀ l, v = .ref l → l < h.length) (v : Val) (d : Doc)
    (hd : Reads (whole h) v d) : Reads (whole (buildH (plainMaker pre post) fuel h subs).1) v d := by
  refine C28_unchanged_partial _ h subs fuel ⟨?_, ?_, ?_⟩ hs v d hd
  · intro p h' v' _
    cases p <;> simp [plainMaker, defaultsH_none _ h1, defaultsH_none _ h2] <;> exact Kept.refl _ _
  · intro p h' v'
    cases p <;> simp [plainMaker, defaultsH_none _ h1, defaultsH_none _ h2]
  · intro c hc; simp [plainMaker] at hc

/-- All objects below `n` have only gained. -/
private def GainedTo (n : Nat) (h h' : Heap) : Prop :=
  ∀ l o, l < n → h[l]? = some o → ∃ o', h'[l]? = some o' ∧ Gained o o'

private theorem gained_refl (o : Obj) : Gained o o := by
  cases o with
  | list vs => exact .list vs
  | dict kvs => exact .dict _ _ (fun _ _ h => h)

private theorem gained_trans {a b c : Obj} (h1 : Gained a b) (h2 : Gained b c) : Gained a c := by
  cases h1 with
  | list vs => exact h2
  | dict kvs kvs' h => cases h2 with
    | dict _ kvs'' h' => exact .dict _ _ (fun k v hk => h' k v (h k v hk))

private theorem gainedTo_trans {n : Nat} {a b c : Heap} (h1 : GainedTo n a b) (h2 : GainedTo n b c) : GainedTo n a c := by
  intro l o hl ho
  obtain ⟨o', h3, h4⟩ := h1 l o hl ho
  obtain ⟨o'', h5, h6⟩ := h2 l o' hl h3
  exact ⟨o'', h5, gained_trans h4 h6⟩

private theorem gainedTo_kept {n : Nat} {a b : Heap} (h : Kept n a b) : GainedTo n a b := by
  intro l o hl ho
  exact ⟨o, by rw [h l hl]; exact ho, gained_refl o⟩

private theorem fillH_gained (n l : Nat) (ps : List (Str × DSchema)) : ∀ h : Heap, (∃ kvs, h[l]? = some (.dict kvs)) →
    GainedTo n h (fillH h l ps) ∧ (∃ kvs, (fillH h l ps)[l]? = some (.dict kvs)) ∧ (fillH h l ps).length = h.length := by
  induction ps with
  | nil => intro h hl; exact ⟨gainedTo_kept (Kept.refl _ _), hl, rfl⟩
  | cons p t ih =>
    obtain ⟨k, s⟩ := p
    rintro h ⟨kvs, hl⟩
    have hlt := (List.getElem?_eq_some_iff.1 hl).1
    have hit : itemsAt h l = kvs := by unfold itemsAt; rw [hl]
    unfold fillH
    split
    · rename_i d hd hn
      obtain ⟨i1, i2, i3⟩ := ih (setKey h l k d) ⟨dset kvs k d, by unfold setKey; rw [hit]; simp [hlt]⟩
      refine ⟨gainedTo_trans ?_ i1, i2, by rw [i3]; simp [setKey]⟩
      intro l' o hl' ho
      by_cases he : l' = l
      · subst he
        rw [hl] at ho
        cases ho
        refine ⟨.dict (dset kvs k d), by unfold setKey; rw [hit]; simp [hlt], .dict _ _ ?_⟩
        intro k' v' hk'
        rw [dget_dset]
        split
        · rename_i hkk
          subst hkk
          rw [hit] at hn
          rw [hn] at hk'
          simp at hk'
        · exact hk'
      · refine ⟨o, ?_, gained_refl o⟩
        unfold setKey
        rw [List.getElem?_set_ne (fun h => he h.symm)]
        exact ho
    · exact ih h ⟨kvs, hl⟩

private theorem defaultsH_gained (n : Nat) (s : DSchema) : ∀ h v, GainedTo n h (defaultsH s h v) ∧
    (defaultsH s h v).length = h.length := by
  refine DSchema.rec (motive_1 := fun s => ∀ h v, GainedTo n h (defaultsH s h v) ∧ (defaultsH s h v).length = h.length)
    (motive_2 := fun ps => ∀ h l, GainedTo n h (defaultsInH ps h l) ∧ (defaultsInH ps h l).length = h.length)
    (motive_3 := fun p => ∀ h v, GainedTo n h (defaultsH p.2 h v) ∧ (defaultsH p.2 h v).length = h.length) ?_ ?_ ?_ ?_ s
  · intro d ps ih h v
    have same : GainedTo n h h ∧ h.length = h.length := ⟨gainedTo_kept (Kept.refl _ _), rfl⟩
    unfold defaultsH
    split
    · split
      · next l _ kvs hl =>
        obtain ⟨f1, -, f3⟩ := fillH_gained n l ps h ⟨kvs, hl⟩
        obtain ⟨g1, g2⟩ := ih (fillH h l ps) l
        exact ⟨gainedTo_trans f1 g1, g2.trans f3⟩
      · exact same
    · exact same
  · intro h l; exact ⟨gainedTo_kept (Kept.refl _ _), rfl⟩
  · intro p ps hp hps h l
    obtain ⟨k, s⟩ := p
    unfold defaultsInH
    split
    · rename_i v _
      obtain ⟨f1, f2⟩ := hp h v
      obtain ⟨g1, g2⟩ := hps (defaultsH s h v) l
      exact ⟨gainedTo_trans f1 g1, g2.trans f2⟩
    · exact hps h l
  · intro k s h; exact h

private theorem mergeAll_gained (m n : Nat) : ∀ (vs : List Val) (h : Heap) (a : Val), n ≤ h.length →
    GainedTo n h (mergeAllH m h a vs).1 := by
  intro vs
  induction vs with
  | nil => intro h a _; exact gainedTo_kept (Kept.refl _ _)
  | cons v vs ih =>
    intro h a hn
    obtain ⟨k1, k2⟩ := mergeH_adds m h a v
    unfold mergeAllH
    split
    · rename_i h1 _ e
      rw [e] at k1
      exact gainedTo_kept (k1.mono hn)
    · rename_i h1 x e
      rw [e] at k1 k2
      exact gainedTo_trans (gainedTo_kept (k1.mono hn)) (ih h1 x (Nat.le_trans hn k2))

private theorem prevalidate_gained (pre post : DSchema) (n : Nat) : ∀ (vs : List Val) (h : Heap),
    GainedTo n h (prevalidateH (plainMaker pre post) h vs).1 ∧
    (prevalidateH (plainMaker pre post) h vs).1.length = h.length := by
  intro vs
  induction vs with
  | nil => intro h; exact ⟨gainedTo_kept (Kept.refl _ _), rfl⟩
  | cons v vs ih =>
    intro h
    obtain ⟨g1, g2⟩ := defaultsH_gained n pre h v
    obtain ⟨i1, i2⟩ := ih (defaultsH pre h v)
    unfold prevalidateH
    simp only [plainMaker, if_true] at i1 i2 ⊢
    exact ⟨gainedTo_trans g1 i1, i2.trans g2⟩

/-- C28: building with the model-maker as it comes never loses or changes a value of a submodel: lists
stay as they are, and dictionaries can only gain keys (the defaults). Missing: that they do not gain
keys; they do, see `C28_prevalidation_refuted`. -/
theorem C28_only_gained_partial (pre post : DSchema) (h : Heap) (subs : List Val) (fuel : Nat) (l : Nat) (o : Obj)
    (ho : h[l]? = some o) :
    ∃ o', (buildH (plainMaker pre post) fuel h subs).1[l]? = some o' ∧ Gained o o' := by
  have hlt := (List.getElem?_eq_some_iff.1 ho).1
  suffices GainedTo h.length h (buildH (plainMaker pre post) fuel h subs).1 from this l o hlt ho
  obtain ⟨p1, p2⟩ := prevalidate_gained pre post h.length subs h
  unfold buildH
  split
  · rename_i h1 e
    rw [e] at p1
    exact p1
  · rename_i h1 e
    rw [e] at p1 p2
    have hm := mergeAll_gained fuel h.length subs h1 .null (by simp only at p2; omega)
    split
    · rename_i h2 m e2
      rw [e2] at hm
      exact gainedTo_trans p1 hm
    · rename_i h2 m e2
      rw [e2] at hm
      have p3 := gainedTo_trans p1 hm
      have p4 := (defaultsH_gained h.length post h2 m).1
      simp only [plainMaker, Bool.false_eq_true, if_false, and_self, if_true]
      exact gainedTo_trans p3 (by simpa [curateH] using p4)

/-- Two submodels that share an object, and a curation that writes to the model: hypotheses are met. -/
example : ∃ (mk : MakerH) (h : Heap) (subs : List Val), Careful h.length mk ∧
    (∀ v ∈ subs, ∀ l, v = .ref l → l < h.length) ∧
    Reads (whole h) (.ref 1) (.dict [("x".toList, .dict [("a".toList, .int 1)])]) ∧
    (buildH mk 10 h subs).2 = .ref 6 ∧
    itemsAt (buildH mk 10 h subs).1 6 = [("x".toList, .ref 7), ("y".toList, .ref 0), ("done".toList, .bool true)] := by
  refine ⟨⟨fun _ h _ => (h, 0, none), [fun h v => match v with
      | .ref l => (setKey h l "done".toList (.bool true), v, none)
      | _ => (h, v, none)]⟩,
    [.dict [("a".toList, .int 1)], .dict [("x".toList, .ref 0)], .dict [("y".toList, .ref 0)],
      .dict [("x".toList, .ref 0)]], [.ref 1, .ref 2, .ref 3], ⟨?_, ?_, ?_⟩, ?_, ?_, ?_, ?_⟩
  · intro _ h v _; exact Kept.refl _ _
  · intro _ h v; exact Nat.le_refl _
  · intro c hc h v hn hv
    simp at hc
    subst hc
    cases v with
    | ref l => exact ⟨Kept.setKey (hv l rfl) h _ _, by simp only [setKey_length]; exact hn, hv⟩
    | _ => exact ⟨Kept.refl _ _, hn, hv⟩
  · intro v hv l hl
    subst hl
    simp at hv
    simp; omega
  · exact .dict 1 _ _ rfl (.cons _ _ _ _ _ (.dict 0 _ _ rfl (.cons _ _ _ _ _ (.int 1) .nil)) .nil)
  · decide +kernel
  · decide +kernel

/-- C28 fails: the validation of the submodels fills the defaults of the schema in the submodels. -/
theorem C28_prevalidation_refuted : ∃ (s : DSchema) (h : Heap) (v : Val), Reads (whole h) v (.dict []) ∧
    Reads (whole (buildH (plainMaker s s) 10 h [v]).1) v (.dict [("a".toList, .int 1)]) := by
  refine ⟨.mk none [("a".toList, .mk (some (.int 1)) [])], [.dict []], .ref 0, .dict 0 _ _ rfl .nil, ?_⟩
  exact .dict 0 [("a".toList, .int 1)] _ (by decide +kernel) (.cons _ _ _ _ _ (.int 1) .nil)

/-- C28 fails: also when only the schema of the unified model has defaults, since the model shares the
inner objects of the submodels. -/
theorem C28_validation_refuted : ∃ (pre post : DSchema) (h : Heap) (v : Val), NoDefaults pre ∧
    Reads (whole h) v (.dict [("x".toList, .dict [])]) ∧
    Reads (whole (buildH (plainMaker pre post) 10 h [v]).1) v (.dict [("x".toList, .dict [("a".toList, .int 1)])]) := by
  refine ⟨.mk none [], .mk none [("x".toList, .mk none [("a".toList, .mk (some (.int 1)) [])])],
    [.dict [], .dict [("x".toList, .ref 0)]], .ref 1, .mk _ _ (by simp) (by simp), ?_, ?_⟩
  · exact .dict 1 _ _ rfl (.cons _ _ _ _ _ (.dict 0 _ _ rfl .nil) .nil)
  · exact .dict 1 [("x".toList, .ref 0)] _ (by decide +kernel)
      (.cons _ _ _ _ _ (.dict 0 [("a".toList, .int 1)] _ (by decide +kernel) (.cons _ _ _ _ _ (.int 1) .nil)) .nil)

end Props
