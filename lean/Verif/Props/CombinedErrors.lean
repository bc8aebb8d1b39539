import Verif.Props.Combined
import Verif.Spec.CombinedErrors
/-
C139 for schemas with combined keywords: which errors are reported, and where.
-/
namespace Props
open Py Model Spec

/-- The errors of the run are among these, and all of them if it is not ended by an exception. -/
private structure Tells2 (B : CErr → Prop) (d : Doc) (r : Res) : Prop where
  doc : r.doc = d
  sound : ∀ e ∈ r.errs, B e
  complete : r.raised = none → ∀ e, B e → e ∈ r.errs

private theorem Tells2.imp {B B' : CErr → Prop} {d : Doc} {r : Res} (h : Tells2 B d r) (hi : ∀ e, B e ↔ B' e) : Tells2 B' d r :=
  ⟨h.doc, fun e he => (hi e).1 (h.sound e he), fun hr e he => h.complete hr e ((hi e).2 he)⟩

private theorem tells2_nothing (d : Doc) : Tells2 (fun _ => False) d ⟨d, [], none⟩ := ⟨rfl, by simp, fun _ _ h => h.elim⟩

private theorem tells2_raised {B : CErr → Prop} (d : Doc) (x : PyErr) : Tells2 B d ⟨d, [], some x⟩ := ⟨rfl, by simp, by simp⟩

private theorem runAll_tells2 {α : Type} (body : α → Doc → Res) (d : Doc) (B : α → CErr → Prop) : ∀ (as : List α),
    (∀ a ∈ as, Tells2 (B a) d (body a d)) → Tells2 (fun e => ∃ a ∈ as, B a e) d (runAll false body as d) := by
  intro as
  induction as with
  | nil => intro _; exact (tells2_nothing d).imp (by simp)
  | cons a as ih =>
    intro h
    have ha := h a (by simp)
    have hr := ih (fun b hb => h b (by simp [hb]))
    simp only [runAll, andThen, Bool.false_and, Bool.or_false]
    split
    · rename_i hs
      exact ⟨ha.doc, fun e he => ⟨a, by simp, ha.sound e he⟩, fun hn => by simp [hn] at hs⟩
    · rename_i hs
      have hn : (body a d).raised = none := by
        cases h0 : (body a d).raised with
        | none => rfl
        | some e => simp [h0] at hs
      rw [ha.doc]
      refine ⟨hr.doc, ?_, ?_⟩
      · intro e he
        rcases List.mem_append.1 he with he | he
        · exact ⟨a, by simp, ha.sound e he⟩
        · obtain ⟨b, hb, h⟩ := hr.sound e he
          exact ⟨b, by simp [hb], h⟩
      · rintro hq e ⟨b, hb, hx⟩
        rcases List.mem_cons.1 hb with rfl | hb
        · exact List.mem_append.2 (.inl (ha.complete hn e hx))
        · exact List.mem_append.2 (.inr (hr.complete hq e ⟨b, hb, hx⟩))

private theorem atKey_tells2 (k : Str) (visit : Doc → Res) (B : Doc → CErr → Prop) (kvs : List (Str × Doc))
    (h : ∀ v, Tells2 (B v) v (visit v)) :
    Tells2 (fun e => ∃ v e', dget kvs k = some v ∧ B v e' ∧ e = .inside k e') (.dict kvs) (atKey k visit (.dict kvs)) := by
  simp only [atKey]
  cases hg : dget kvs k with
  | none => exact (tells2_nothing _).imp (by simp)
  | some v =>
    have hv := h v
    refine ⟨by simp only [hv.doc]; rw [dset_same hg], ?_, ?_⟩
    · intro e he
      obtain ⟨e', h1, rfl⟩ := List.mem_map.1 he
      exact ⟨v, e', rfl, hv.sound e' h1, rfl⟩
    · rintro hr e ⟨v', e', hv', hb, rfl⟩
      cases hv'
      exact List.mem_map.2 ⟨e', hv.complete hr e' hb, rfl⟩

private theorem atItem_tells2 (i : Nat) (visit : Doc → Res) (B : Doc → CErr → Prop) (xs : List Doc)
    (h : ∀ v, Tells2 (B v) v (visit v)) :
    Tells2 (fun e => ∃ v e', xs[i]? = some v ∧ B v e' ∧ e = .item i e') (.list xs) (atItem i visit (.list xs)) := by
  simp only [atItem]
  cases hg : xs[i]? with
  | none => exact (tells2_nothing _).imp (by simp)
  | some v =>
    have hv := h v
    refine ⟨?_, ?_, ?_⟩
    · simp only [hv.doc]
      congr 1
      refine List.ext_getElem? fun j => ?_
      rw [List.getElem?_set]
      split
      · rename_i e; subst e
        split
        · exact hg.symm
        · rename_i hl; rw [List.getElem?_eq_none (by omega)]
      · rfl
    · intro e he
      obtain ⟨e', h1, rfl⟩ := List.mem_map.1 he
      exact ⟨v, e', rfl, hv.sound e' h1, rfl⟩
    · rintro hr e ⟨v', e', hv', hb, rfl⟩
      cases hv'
      exact List.mem_map.2 ⟨e', hv.complete hr e' hb, rfl⟩

/-- What `C111_verdict_partial` says of a run. -/
private def Decides (V I : Prop) (d : Doc) (r : Res) : Prop :=
  r.doc = d ∧ (r.raised = none → (r.errs = [] ↔ V) ∧ (r.errs ≠ [] ↔ I))

private theorem not_some {o : Option PyErr} (h : ¬ o.isSome = true) : o = none := by cases o <;> simp_all

private theorem anyOf_tells2 {V I : CSchema → Prop} {visit : Bool → CSchema → Doc → Res} (d : Doc) : ∀ (ss : List CSchema),
    (∀ s lazy, Decides (V s) (I s) d (visit lazy s d)) →
    Tells2 (fun e => (∀ s ∈ ss, I s) ∧ e = .noAlternative) d (anyOfRun visit ss d) := by
  intro ss
  induction ss with
  | nil => intro _; exact ⟨rfl, by simp [anyOfRun], by simp [anyOfRun]⟩
  | cons s ss ih =>
    intro h
    obtain ⟨h1, h2⟩ := h s false
    simp only [anyOfRun]
    split
    · rename_i hr
      rw [h1]
      obtain ⟨x, hx⟩ := Option.isSome_iff_exists.1 hr
      rw [hx]; exact tells2_raised d x
    · rename_i hr
      obtain ⟨h3, h4⟩ := h2 (not_some hr)
      rw [h1]
      split
      · rename_i he
        refine (tells2_nothing d).imp (fun e => ⟨False.elim, ?_⟩)
        rintro ⟨hi, -⟩
        exact h4.2 (hi s (by simp)) (by simpa using he)
      · rename_i he
        have hi := h4.1 (by simpa using he)
        refine (ih h).imp (fun e => ⟨?_, ?_⟩)
        · rintro ⟨hs, rfl⟩
          refine ⟨?_, rfl⟩
          intro u hu
          rcases List.mem_cons.1 hu with rfl | hu
          · exact hi
          · exact hs u hu
        · rintro ⟨hs, rfl⟩
          exact ⟨fun u hu => hs u (by simp [hu]), rfl⟩

private theorem others_tells2 {V I : CSchema → Prop} {visit : Bool → CSchema → Doc → Res} (d : Doc) : ∀ (ss : List CSchema) (found : Bool),
    (∀ s lazy, Decides (V s) (I s) d (visit lazy s d)) →
    Tells2 (fun e => (found = true ∨ ∃ s ∈ ss, V s) ∧ e = .manyAlternatives) d (othersRun visit found ss d) := by
  intro ss
  induction ss with
  | nil =>
    intro found _
    cases found <;> exact ⟨rfl, by simp [othersRun], by simp [othersRun]⟩
  | cons s ss ih =>
    intro found h
    obtain ⟨h1, h2⟩ := h s true
    simp only [othersRun]
    split
    · rename_i hr
      rw [h1]
      obtain ⟨x, hx⟩ := Option.isSome_iff_exists.1 hr
      rw [hx]; exact tells2_raised d x
    · rename_i hr
      obtain ⟨h3, h4⟩ := h2 (not_some hr)
      rw [h1]
      have hb : (visit true s d).errs.isEmpty = true ↔ V s := by rw [← h3]; simp
      refine (ih _ h).imp (fun e => ?_)
      simp only [Bool.or_eq_true, hb, List.mem_cons, exists_eq_or_imp, or_assoc]

private theorem oneOf_tells2 {V I : CSchema → Prop} {visit : Bool → CSchema → Doc → Res} (d : Doc) : ∀ (ss : List CSchema),
    (∀ s lazy, Decides (V s) (I s) d (visit lazy s d)) →
    Tells2 (fun e => ((∀ s ∈ ss, I s) ∧ e = .noAlternative) ∨
      ((∃ l1 s l2 t l3, ss = l1 ++ s :: (l2 ++ t :: l3) ∧ V s ∧ V t) ∧ e = .manyAlternatives)) d (oneOfRun visit ss d) := by
  intro ss
  induction ss with
  | nil => intro _; exact ⟨rfl, by simp [oneOfRun], by simp [oneOfRun]⟩
  | cons s ss ih =>
    intro h
    obtain ⟨h1, h2⟩ := h s false
    simp only [oneOfRun]
    split
    · rename_i hr
      rw [h1]
      obtain ⟨x, hx⟩ := Option.isSome_iff_exists.1 hr
      rw [hx]; exact tells2_raised d x
    · rename_i hr
      obtain ⟨h3, h4⟩ := h2 (not_some hr)
      rw [h1]
      split
      · rename_i he
        have hv : V s := h3.1 (by simpa using he)
        have hni : ¬ I s := fun hi => h4.2 hi (by simpa using he)
        refine (others_tells2 d ss false h).imp (fun e => ⟨?_, ?_⟩)
        · rintro ⟨h | ⟨t, ht, hvt⟩, rfl⟩
          · cases h
          · obtain ⟨l2, l3, rfl⟩ := List.append_of_mem ht
            exact .inr ⟨⟨[], s, l2, t, l3, rfl, hv, hvt⟩, rfl⟩
        · rintro (⟨hi, -⟩ | ⟨⟨l1, t, l2, u, l3, e, ht, hu⟩, rfl⟩)
          · exact absurd (hi s (by simp)) hni
          · refine ⟨.inr ⟨u, ?_, hu⟩, rfl⟩
            cases l1 with
            | nil => cases e; simp
            | cons a l1 => cases e; simp
      · rename_i he
        have hi := h4.1 (by simpa using he)
        have hnv : ¬ V s := fun hv => he (by rw [h3.2 hv]; rfl)
        refine (ih h).imp (fun e => ⟨?_, ?_⟩)
        · rintro (⟨hs, rfl⟩ | ⟨⟨l1, t, l2, u, l3, rfl, ht, hu⟩, rfl⟩)
          · refine .inl ⟨?_, rfl⟩
            intro u hu
            rcases List.mem_cons.1 hu with rfl | hu
            · exact hi
            · exact hs u hu
          · exact .inr ⟨⟨s :: l1, t, l2, u, l3, rfl, ht, hu⟩, rfl⟩
        · rintro (⟨hs, rfl⟩ | ⟨⟨l1, t, l2, u, l3, e, ht, hu⟩, rfl⟩)
          · exact .inl ⟨fun u hu => hs u (by simp [hu]), rfl⟩
          · cases l1 with
            | nil => cases e; exact absurd ht hnv
            | cons a l1 => cases e; exact .inr ⟨⟨l1, t, l2, u, l3, rfl, ht, hu⟩, rfl⟩

private theorem not_asked2 {f : VFlags} (h : ¬ Asked f) :
    (f.autoDefault.getD false || f.autoDefaultNulls.getD false || f.autoRemoveNulls.getD false) = false := by
  unfold Asked at h
  cases h1 : f.autoDefault <;> cases h2 : f.autoDefaultNulls <;> cases h3 : f.autoRemoveNulls <;> simp_all

private theorem visit_tells2 (f : VFlags) (hf : ¬ Asked f) (defs : Str → Option CSchema) : ∀ (n : Nat) (s : CSchema) (d : Doc),
    Tells2 (BreachC defs s d) d (visitC f defs n false s d) := by
  intro n
  induction n with
  | zero => intro s d; exact tells2_raised d _
  | succ n ih =>
    intro s d
    have hdec : ∀ t lazy, Decides (ValidC defs t d) (InvalidC defs t d) d (visitC f defs n lazy t d) :=
      fun t lazy => C111_verdict_partial f hf defs n lazy t d
    rw [visitC]
    refine (runAll_tells2 _ d (fun kw => BreachOfC defs kw d) s.kws ?_).imp
      (fun e => ⟨fun ⟨kw, hk, h⟩ => .mk s d kw e hk h, fun h => by obtain ⟨_, _, kw, _, hk, h⟩ := h; exact ⟨kw, hk, h⟩⟩)
    intro kw _
    cases kw with
    | check p =>
      simp only [kwRun]
      cases hp : p d
      · refine ⟨rfl, ?_, ?_⟩
        · intro e he; simp at he; subst he; exact .check _ _ hp
        · intro _ e he; cases he; simp
      · refine (tells2_nothing d).imp (fun e => ⟨False.elim, ?_⟩)
        intro h; cases h with | check _ _ h => rw [hp] at h; cases h
    | properties ps =>
      simp only [kwRun]
      cases d with
      | dict kvs =>
        have e : fillC f ps kvs = kvs := by unfold fillC; rw [not_asked2 hf]; rfl
        simp only [e]
        refine (runAll_tells2 _ (.dict kvs) _ ps (fun p _ => atKey_tells2 p.1 _ (BreachC defs p.2) kvs (fun v => ih p.2 v))).imp
          (fun e => ⟨?_, ?_⟩)
        · rintro ⟨p, hp, v, e', hv, hb, rfl⟩; exact .properties _ _ p.1 p.2 v e' hp hv hb
        · intro h; cases h with | properties _ _ k t v e' hm hv hb => exact ⟨(k, t), hm, v, e', hv, hb, rfl⟩
      | _ => exact (tells2_nothing _).imp (fun e => ⟨False.elim, fun h => by cases h⟩)
    | keyed sel t =>
      simp only [kwRun]
      cases d with
      | dict kvs =>
        refine (runAll_tells2 _ (.dict kvs) _ _ (fun k _ => atKey_tells2 k _ (BreachC defs t) kvs (fun v => ih t v))).imp
          (fun e => ⟨?_, ?_⟩)
        · rintro ⟨k, hk, v, e', hv, hb, rfl⟩; exact .keyed _ _ _ k v e' (List.mem_filter.1 hk).2 hv hb
        · intro h
          cases h with
          | keyed _ _ _ k v e' hs hv hb =>
            exact ⟨k, List.mem_filter.2 ⟨(mem_dkeys_iff _ _).2 ⟨v, hv⟩, hs⟩, v, e', hv, hb, rfl⟩
      | _ => exact (tells2_nothing _).imp (fun e => ⟨False.elim, fun h => by cases h⟩)
    | items t =>
      simp only [kwRun]
      cases d with
      | list xs =>
        refine (runAll_tells2 _ (.list xs) _ _ (fun i _ => atItem_tells2 i _ (BreachC defs t) xs (fun v => ih t v))).imp
          (fun e => ⟨?_, ?_⟩)
        · rintro ⟨i, _, v, e', hv, hb, rfl⟩; exact .items _ _ i v e' hv hb
        · intro h
          cases h with
          | items _ _ i v e' hv hb =>
            refine ⟨i, List.mem_range.2 ?_, v, e', hv, hb, rfl⟩
            exact (List.getElem?_eq_some_iff.1 hv).1
      | _ => exact (tells2_nothing _).imp (fun e => ⟨False.elim, fun h => by cases h⟩)
    | allOf ss =>
      refine (runAll_tells2 _ d _ ss (fun t _ => ih t d)).imp (fun e => ⟨?_, ?_⟩)
      · rintro ⟨t, ht, hb⟩; exact .allOf _ t _ e ht hb
      · intro h; cases h with | allOf _ t _ _ ht hb => exact ⟨t, ht, hb⟩
    | anyOf ss =>
      refine (anyOf_tells2 d ss hdec).imp (fun e => ⟨?_, ?_⟩)
      · rintro ⟨hi, rfl⟩; exact .anyOf _ _ hi
      · intro h; cases h with | anyOf _ _ hi => exact ⟨hi, rfl⟩
    | oneOf ss =>
      refine (oneOf_tells2 d ss hdec).imp (fun e => ⟨?_, ?_⟩)
      · rintro (⟨hi, rfl⟩ | ⟨⟨l1, t, l2, u, l3, e, ht, hu⟩, rfl⟩)
        · exact .noneOf _ _ hi
        · exact .manyOf _ l1 t l2 u l3 _ e ht hu
      · intro h
        cases h with
        | noneOf _ _ hi => exact .inl ⟨hi, rfl⟩
        | manyOf _ l1 t l2 u l3 _ e ht hu => exact .inr ⟨⟨l1, t, l2, u, l3, e, ht, hu⟩, rfl⟩
    | not t =>
      obtain ⟨h1, h2⟩ := hdec t true
      simp only [kwRun]
      rw [h1]
      cases hr : (visitC f defs n true t d).raised with
      | some x => exact tells2_raised d x
      | none =>
        obtain ⟨h3, h4⟩ := h2 hr
        by_cases he : (visitC f defs n true t d).errs = []
        · simp only [he, List.isEmpty_nil, Option.isNone_none, Bool.and_true, ↓reduceIte]
          refine ⟨rfl, ?_, ?_⟩
          · intro e hm; simp at hm; subst hm; exact .not _ _ (h3.1 he)
          · intro _ e h; cases h; simp
        · have hie : (visitC f defs n true t d).errs.isEmpty = false := by simpa using he
          simp only [hie, Bool.and_false, Bool.false_eq_true, ↓reduceIte]
          refine (tells2_nothing d).imp (fun e => ⟨False.elim, ?_⟩)
          intro h; cases h with | not _ _ hv => exact he (h3.2 hv)
    | cond c t e =>
      obtain ⟨h1, h2⟩ := hdec c true
      simp only [kwRun]
      rw [h1]
      cases hr : (visitC f defs n true c d).raised with
      | some x => exact tells2_raised d x
      | none =>
        obtain ⟨h3, h4⟩ := h2 hr
        simp only [Option.isSome_none, Bool.false_eq_true, ↓reduceIte]
        by_cases he : (visitC f defs n true c d).errs = []
        · simp only [he, List.isEmpty_nil, ↓reduceIte]
          refine (ih t d).imp (fun x => ⟨.thens _ _ _ _ _ (h3.1 he), ?_⟩)
          intro h
          cases h with
          | thens _ _ _ _ _ _ hb => exact hb
          | elses _ _ _ _ _ hi _ => exact absurd he (h4.2 hi)
        · have hie : (visitC f defs n true c d).errs.isEmpty = false := by simpa using he
          simp only [hie, Bool.false_eq_true, ↓reduceIte]
          refine (ih e d).imp (fun x => ⟨.elses _ _ _ _ _ (h4.1 he), ?_⟩)
          intro h
          cases h with
          | thens _ _ _ _ _ hv _ => exact absurd (h3.2 hv) he
          | elses _ _ _ _ _ _ hb => exact hb
    | ref name =>
      simp only [kwRun]
      cases hd : defs name with
      | none => exact tells2_raised d _
      | some t =>
        refine (ih t d).imp (fun x => ⟨.ref _ _ _ _ hd, ?_⟩)
        intro h
        cases h with
        | ref _ t' _ _ hd' hb => rw [hd] at hd'; cases hd'; exact hb

/-- C139, in part: with keywords that combine schemas, and unless an argument asks for defaults, the errors that are reported are errors that
are in the document, each said with its place; if the validation is not ended by an exception, they are all of them. Missing: with defaults, see
`C111_verdict_refuted`. -/
theorem C139_combined_partial (f : VFlags) (hf : ¬ Asked f) (defs : Str → Option CSchema) (n : Nat) (s : CSchema) (d : Doc) (e : CErr) :
    (e ∈ (visitC f defs n false s d).errs → BreachC defs s d e) ∧
    ((visitC f defs n false s d).raised = none → (e ∈ (visitC f defs n false s d).errs ↔ BreachC defs s d e)) := by
  have h := visit_tells2 f hf defs n s d
  exact ⟨h.sound e, fun hr => ⟨h.sound e, h.complete hr e⟩⟩

mutual
private theorem breach_invalid (defs : Str → Option CSchema) : ∀ {s : CSchema} {d : Doc} {e : CErr}, BreachC defs s d e → InvalidC defs s d
  | _, _, _, .mk s d kw _ hk h => .mk s d kw hk (breachOf_fails defs h)
private theorem breachOf_fails (defs : Str → Option CSchema) : ∀ {kw : CKw} {d : Doc} {e : CErr}, BreachOfC defs kw d e → FailsC defs kw d
  | _, _, _, .check p d h => .check p d h
  | _, _, _, .properties ps kvs k s v _ hm hv h => .properties ps kvs k s v hm hv (breach_invalid defs h)
  | _, _, _, .keyed sel s kvs k v _ hs hv h => .keyed sel s kvs k v hs hv (breach_invalid defs h)
  | _, _, _, .items s xs _ x _ hx h => .items s xs x (List.mem_of_getElem? hx) (breach_invalid defs h)
  | _, _, _, .allOf ss s d _ hs h => .allOf ss s d hs (breach_invalid defs h)
  | _, _, _, .anyOf ss d h => .anyOf ss d h
  | _, _, _, .noneOf ss d h => .noneOf ss d h
  | _, _, _, .manyOf ss l1 s l2 t l3 d e hs ht => .manyOf ss l1 s l2 t l3 d e hs ht
  | _, _, _, .not s d h => .not s d h
  | _, _, _, .thens c t e d _ hc h => .thens c t e d hc (breach_invalid defs h)
  | _, _, _, .elses c t e d _ hc h => .elses c t e d hc (breach_invalid defs h)
  | _, _, _, .ref name s d _ hd h => .ref name s d hd (breach_invalid defs h)
end

private theorem invalid_breach (defs : Str → Option CSchema) {s : CSchema} {d : Doc} (h : InvalidC defs s d) : ∃ e, BreachC defs s d e := by
  refine InvalidC.rec (motive_1 := fun _ _ _ => True) (motive_2 := fun s d _ => ∃ e, BreachC defs s d e)
    (motive_3 := fun _ _ _ => True) (motive_4 := fun kw d _ => ∃ e, BreachOfC defs kw d e)
    ?_ ?_ ?_ ?_ ?_ ?_ ?_ ?_ ?_ ?_ ?_ ?_ ?_ ?_ ?_ ?_ ?_ ?_ ?_ ?_ ?_ ?_ ?_ ?_ ?_ h
  · intros; trivial
  · rintro s d kw hkw hf ⟨e, h⟩; exact ⟨e, .mk s d kw e hkw h⟩
  · intros; trivial
  · intros; trivial
  · intros; trivial
  · intros; trivial
  · intros; trivial
  · intros; trivial
  · intros; trivial
  · intros; trivial
  · intros; trivial
  · intros; trivial
  · intros; trivial
  · intro p d h; exact ⟨_, .check p d h⟩
  · rintro ps kvs k s v hm hv - ⟨e, h⟩; exact ⟨_, .properties ps kvs k s v e hm hv h⟩
  · rintro sel s kvs k v hs hv - ⟨e, h⟩; exact ⟨_, .keyed sel s kvs k v e hs hv h⟩
  · rintro s xs x hx - ⟨e, h⟩
    obtain ⟨i, hi⟩ := List.mem_iff_getElem?.1 hx
    exact ⟨_, .items s xs i x e hi h⟩
  · rintro ss s d hs - ⟨e, h⟩; exact ⟨_, .allOf ss s d e hs h⟩
  · intro ss d h _; exact ⟨_, .anyOf ss d h⟩
  · intro ss d h _; exact ⟨_, .noneOf ss d h⟩
  · intro ss l1 s l2 t l3 d e hs ht _ _; exact ⟨_, .manyOf ss l1 s l2 t l3 d e hs ht⟩
  · intro s d h _; exact ⟨_, .not s d h⟩
  · rintro c t e d hc - - ⟨x, h⟩; exact ⟨_, .thens c t e d x hc h⟩
  · rintro c t e d hc - - ⟨x, h⟩; exact ⟨_, .elses c t e d x hc h⟩
  · rintro name s d hd - ⟨x, h⟩; exact ⟨_, .ref name s d x hd h⟩

/-- C139, for schemas with combined keywords: there are errors in a document exactly if it is not as the schema asks. -/
theorem C139_combined_breaches (defs : Str → Option CSchema) (s : CSchema) (d : Doc) : InvalidC defs s d ↔ ∃ e, BreachC defs s d e :=
  ⟨invalid_breach defs, fun ⟨_, h⟩ => breach_invalid defs h⟩

mutual
private theorem breach_placed (defs : Str → Option CSchema) : ∀ {s : CSchema} {d : Doc} {e : CErr}, BreachC defs s d e →
    ∃ t v, WithinC defs s t ∧ placed (CErr.places e) d = some v ∧ InvalidC defs t v
  | _, _, _, .mk s d kw _ hk h => by
    rcases breachOf_placed defs h with ⟨hp, hf⟩ | ⟨t, u, v, hu, hw, hp, hi⟩
    · exact ⟨s, d, .self s, hp, .mk s d kw hk hf⟩
    · exact ⟨u, v, .part s t u (hu s hk) hw, hp, hi⟩
private theorem breachOf_placed (defs : Str → Option CSchema) : ∀ {kw : CKw} {d : Doc} {e : CErr}, BreachOfC defs kw d e →
    (placed (CErr.places e) d = some d ∧ FailsC defs kw d) ∨
      ∃ t u v, (∀ s : CSchema, kw ∈ s.kws → PartOfC defs s t) ∧ WithinC defs t u ∧ placed (CErr.places e) d = some v ∧ InvalidC defs u v
  | _, _, _, .check p d h => .inl ⟨rfl, .check p d h⟩
  | _, _, _, .properties ps kvs k s v e hm hv h => by
    obtain ⟨u, w, h1, h2, h3⟩ := breach_placed defs h
    exact .inr ⟨s, u, w, fun r hr => .property r ps k s hr hm, h1, by simp [CErr.places, placed, hv, h2], h3⟩
  | _, _, _, .keyed sel s kvs k v e hs hv h => by
    obtain ⟨u, w, h1, h2, h3⟩ := breach_placed defs h
    exact .inr ⟨s, u, w, fun r hr => .keyed r sel s hr, h1, by simp [CErr.places, placed, hv, h2], h3⟩
  | _, _, _, .items s xs i x e hx h => by
    obtain ⟨u, w, h1, h2, h3⟩ := breach_placed defs h
    exact .inr ⟨s, u, w, fun r hr => .items r s hr, h1, by simp [CErr.places, placed, hx, h2], h3⟩
  | _, _, _, .allOf ss s d e hs h => by
    obtain ⟨u, w, h1, h2, h3⟩ := breach_placed defs h
    exact .inr ⟨s, u, w, fun r hr => .allOf r ss s hr hs, h1, h2, h3⟩
  | _, _, _, .anyOf ss d h => .inl ⟨rfl, .anyOf ss d h⟩
  | _, _, _, .noneOf ss d h => .inl ⟨rfl, .noneOf ss d h⟩
  | _, _, _, .manyOf ss l1 s l2 t l3 d e hs ht => .inl ⟨rfl, .manyOf ss l1 s l2 t l3 d e hs ht⟩
  | _, _, _, .not s d h => .inl ⟨rfl, .not s d h⟩
  | _, _, _, .thens c t e d x hc h => by
    obtain ⟨u, w, h1, h2, h3⟩ := breach_placed defs h
    exact .inr ⟨t, u, w, fun r hr => .cond r c t e t hr (.inr (.inl rfl)), h1, h2, h3⟩
  | _, _, _, .elses c t e d x hc h => by
    obtain ⟨u, w, h1, h2, h3⟩ := breach_placed defs h
    exact .inr ⟨e, u, w, fun r hr => .cond r c t e e hr (.inr (.inr rfl)), h1, h2, h3⟩
  | _, _, _, .ref name s d x hd h => by
    obtain ⟨u, w, h1, h2, h3⟩ := breach_placed defs h
    exact .inr ⟨s, u, w, fun r hr => .ref r name s hr hd, h1, h2, h3⟩
end

/-- C139, in part: the place that an error names is in the document, and what is there is not as a schema asks that is in the schema or
referred to. Missing: with defaults. -/
theorem C139_combined_place_partial (f : VFlags) (hf : ¬ Asked f) (defs : Str → Option CSchema) (n : Nat) (s : CSchema) (d : Doc) (e : CErr)
    (he : e ∈ (visitC f defs n false s d).errs) :
    ∃ t v, WithinC defs s t ∧ placed (CErr.places e) d = some v ∧ InvalidC defs t v :=
  breach_placed defs ((C139_combined_partial f hf defs n s d e).1 he)

/-! #### Cases -/

private def kwsC (kws : List CKw) : CSchema := .mk kws false none none none none
private def wholeC : CKw := .check (fun d => match d with | .int _ => true | _ => false)
private def textC : CKw := .check (fun d => match d with | .str _ => true | _ => false)
private def offC : VFlags := ⟨⟨some false, none, none, fun _ => false⟩, fun _ => true⟩
/-- `{"items": {"properties": {"a": {"anyOf": [{"type": "integer"}, {"type": "string"}]}}, "not": {"type": "integer"}}}`. -/
private def rowsC : CSchema :=
  kwsC [.items (kwsC [.properties [("a".toList, kwsC [.anyOf [kwsC [wholeC], kwsC [textC]]])], .not (kwsC [wholeC])])]
private def someRows : Doc := .list [.dict [("a".toList, .int 1)], .int 3, .dict [("a".toList, .null)]]

/-- Two errors, each said with its place. -/
example : ¬ Asked offC ∧ (visitC offC (fun _ => none) 9 false rowsC someRows).raised = none ∧
    (visitC offC (fun _ => none) 9 false rowsC someRows).errs = [.item 1 .excluded, .item 2 (.inside "a".toList .noAlternative)] ∧
    placed (CErr.places (.item 2 (.inside "a".toList .noAlternative))) someRows = some .null :=
  ⟨(by rintro (h | h | h) <;> cases h), rfl, rfl, rfl⟩

end Props
