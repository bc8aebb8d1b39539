import Verif.Lemmas.Pandel
set_option linter.unusedSimpArgs false
/-
C25-C27: merging submodels and building models.
-/
namespace Props
open Py Model Spec

/-! ### C25 -/

/-- C25: the merged model is the earlier one overridden by the later one, key by key and at any depth.
Missing for the full property: a text over a list, see `C25_text_over_list_refuted`. -/
theorem C25_merge_partial (a b c : Doc) (ha : KeysOk a) (hb : KeysOk b) (ht : ¬ TextOverList a b)
    (h : mergeDoc a b = .ok c) : Over a b c :=
  merge_over b a c ha hb ht h

private theorem text_not_over {a b : Doc} (ht : TextOverList a b) : ∀ c, KeysOk a → KeysOk b → mergeDoc a b = .ok c →
    ¬ Over a b c := by
  induction ht with
  | here xs s =>
    intro c _ _ h ho
    rcases mergeDoc_cases h with ⟨e, -⟩ | ⟨_, _, _, e, -⟩ | ⟨_, e, -⟩ | ⟨_, e, -, ⟨-, rfl⟩ | ⟨e', -⟩⟩ | ⟨-, -, -, e, -⟩
    · cases e
    · cases e
    · cases e
    · cases ho
    · exact e' xs rfl
    · exact e s rfl
  | inside as bs k x y hx hy _ ih =>
    intro c ha hb h ho
    rcases mergeDoc_cases h with ⟨e, -⟩ | ⟨_, as', cs, e, e', hc, rfl⟩ | ⟨_, e, -⟩ | ⟨_, e, -⟩ | ⟨_, e, -⟩
    · cases e
    · cases e
      cases e'
      obtain ⟨hnd, hbk⟩ := keysOk_dict hb
      obtain ⟨-, hak⟩ := keysOk_dict ha
      obtain ⟨h1, -⟩ := mergeItems_get _ _ _ hnd hc
      cases ho with
      | replace _ _ hno _ _ => exact hno trivial
      | objects _ _ _ merged g1 g2 g3 g4 =>
        have := h1 k
        rw [hx, hy, g3 k x y hx hy] at this
        simp only [mergeOptDoc, Option.map_some, Option.some.injEq] at this
        exact ih _ (hak _ _ hx) (hbk _ _ hy) this.symm (g4 k x y hx hy)
    · cases e
    · cases e
    · exact e trivial

/-- C25: exactly where the merged model is the earlier one overridden by the later one. -/
theorem C25_exact (a b c : Doc) (ha : KeysOk a) (hb : KeysOk b) (h : mergeDoc a b = .ok c) :
    Over a b c ↔ ¬ TextOverList a b :=
  ⟨fun ho ht => text_not_over ht c ha hb h ho, fun ht => merge_over b a c ha hb ht h⟩

/-- C25: no key of an object appears twice in the result, and at the top the keys are those of the two. -/
theorem C25_keys (as bs : List (Str × Doc)) (c : Doc) (ha : KeysOk (.dict as)) (hb : KeysOk (.dict bs))
    (h : mergeDoc (.dict as) (.dict bs) = .ok c) :
    KeysOk c ∧ ∃ cs, c = .dict cs ∧ ∀ k, k ∈ cs.map (·.1) ↔ k ∈ as.map (·.1) ∨ k ∈ bs.map (·.1) := by
  refine ⟨merge_keysOk _ _ _ ha hb h, ?_⟩
  rcases mergeDoc_cases h with ⟨e, -⟩ | ⟨_, _, cs, e, e', hc, rfl⟩ | ⟨_, e, -⟩ | ⟨_, e, -⟩ | ⟨_, e, -⟩
  · cases e
  · cases e; cases e'
    refine ⟨cs, rfl, fun k => ?_⟩
    obtain ⟨-, h2⟩ := mergeItems_get _ _ _ (keysOk_dict hb).1 hc
    show k ∈ dkeys cs ↔ k ∈ dkeys as ∨ k ∈ dkeys bs
    rw [h2]
    by_cases hk : k ∈ dkeys as <;> simp [hk]
  · cases e
  · cases e
  · exact absurd trivial e

/-- C25: exactly which values can be merged: objects only with objects (or nothing), scalars not over
lists, no two `None`s and no `None` in lists that are copied. -/
theorem C25_defined (a b : Doc) (ha : KeysOk a) (hb : KeysOk b) :
    (∃ c, mergeDoc a b = .ok c) ↔ Mergeable a b :=
  merge_defined b a ha hb

/-- C25 fails: a text over a list does not replace it, the list of its characters does. -/
theorem C25_text_over_list_refuted : ∃ a b c, KeysOk a ∧ KeysOk b ∧ mergeDoc a b = .ok c ∧ ¬ Over a b c := by
  refine ⟨.list [.int 1], .str "ab".toList, .list [.str ['a'], .str ['b']], ?_, .str _, rfl, ?_⟩
  · exact .list _ (by intro x hx; simp at hx; subst hx; exact .int _)
  · intro h; cases h

/-- C25 fails: a scalar of the later submodel does not replace an object or list of the earlier one. -/
theorem C25_scalar_refuted : mergeDoc (.dict []) (.int 1) = .error .typeError ∧
    mergeDoc (.list []) (.int 1) = .error .typeError ∧ mergeDoc (.int 1) (.dict []) = .error .typeError :=
  ⟨rfl, rfl, rfl⟩

private def base : Doc :=
  .dict [("a".toList, .dict [("x".toList, .int 1), ("y".toList, .null)]), ("b".toList, .list [.int 1])]
private def top : Doc :=
  .dict [("a".toList, .dict [("y".toList, .int 2), ("z".toList, .int 3)]), ("b".toList, .list []), ("c".toList, .null)]

private theorem keysOk_base : KeysOk base := by
  refine .dict _ (by decide) ?_
  intro p hp
  rcases List.mem_cons.1 hp with rfl | hp
  · refine .dict _ (by decide) ?_
    intro p hp
    simp at hp
    rcases hp with rfl | rfl
    · exact .int _
    · exact .null
  · simp at hp; subst hp
    exact .list _ (by intro x hx; simp at hx; subst hx; exact .int _)

private theorem keysOk_top : KeysOk top := by
  refine .dict _ (by decide) ?_
  intro p hp
  simp only [List.mem_cons, List.not_mem_nil, or_false] at hp
  rcases hp with rfl | rfl | rfl
  · refine .dict _ (by decide) ?_
    intro p hp
    simp at hp
    rcases hp with rfl | rfl <;> exact .int _
  · exact .list _ (by simp)
  · exact .null

example : KeysOk base ∧ KeysOk top ∧ mergeDoc base top = .ok (.dict
    [("a".toList, .dict [("x".toList, .int 1), ("y".toList, .int 2), ("z".toList, .int 3)]),
     ("b".toList, .list []), ("c".toList, .null)]) := ⟨keysOk_base, keysOk_top, rfl⟩

/-! ### C26 -/

/-- C26: when three submodels merge both ways, the grouping makes no difference. -/
theorem C26_assoc (a b c ab bc r1 r2 : Doc) (ha : KeysOk a) (hb : KeysOk b) (hc : KeysOk c)
    (h1 : mergeDoc a b = .ok ab) (h2 : mergeDoc ab c = .ok r1)
    (h3 : mergeDoc b c = .ok bc) (h4 : mergeDoc a bc = .ok r2) : r1 = r2 :=
  mergeDoc_assoc b a c ab bc r1 r2 ha hb hc h1 h2 h3 h4

example : ∃ ab bc r1 r2, mergeDoc base top = .ok ab ∧ mergeDoc ab base = .ok r1 ∧
    mergeDoc top base = .ok bc ∧ mergeDoc base bc = .ok r2 := ⟨_, _, _, _, rfl, rfl, rfl, rfl⟩

/-! ### C27 -/

private theorem prevalidate_pass {V : Type} (check : Doc → Validation V) (ds : List Doc) :
    ((prevalidateAll check ds).1 = [] ∧ (prevalidateAll check ds).2.1 = none) ↔ AllPass check ds := by
  induction ds with
  | nil => simp [prevalidateAll, AllPass]
  | cons d ds ih =>
    have e : AllPass check (d :: ds) ↔ ((check d).errs = [] ∧ (check d).raised = none) ∧ AllPass check ds := by
      simp [AllPass]
    rw [e, ← ih]
    cases hr : (check d).raised with
    | none => simp only [prevalidateAll, hr, List.append_eq_nil_iff]; simp [and_assoc]
    | some e => simp [prevalidateAll, hr]

private theorem prevalidate_after {V : Type} (check : Doc → Validation V) (ds : List Doc) (h : AllPass check ds) :
    (prevalidateAll check ds).2.2 = ds.map (fun d => (check d).after) := by
  induction ds with
  | nil => rfl
  | cons d ds ih =>
    have h1 := (h d (by simp)).2
    have := ih (fun x hx => h x (by simp [hx]))
    simp [prevalidateAll, h1, this]

private theorem mergeAll_iff (ds : List Doc) : ∀ m u, mergeAll m ds = (u, none) ↔ MergedAll m ds u := by
  induction ds with
  | nil =>
    intro m u
    constructor
    · intro h; simp [mergeAll] at h; subst h; exact .done _
    · intro h; cases h; rfl
  | cons d ds ih =>
    intro m u
    constructor
    · intro h
      simp only [mergeAll] at h
      split at h
      · cases h
      · rename_i m' hm
        exact .step _ _ _ m' _ hm ((ih _ _).1 h)
    · intro h
      cases h with
      | step _ _ _ m' _ h1 h2 => simp [mergeAll, h1, (ih _ _).2 h2]

private theorem curateAll_iff (cs : List (Doc → Doc × Option PyErr)) : ∀ m u, curateAll m cs = (u, none) ↔ Curated m cs u := by
  induction cs with
  | nil =>
    intro m u
    constructor
    · intro h; simp [curateAll] at h; subst h; exact .done _
    · intro h; cases h; rfl
  | cons c cs ih =>
    intro m u
    constructor
    · intro h
      simp only [curateAll] at h
      split at h
      · cases h
      · rename_i m' hm
        exact .step _ _ _ m' _ hm ((ih _ _).1 h)
    · intro h
      cases h with
      | step _ _ _ m' _ h1 h2 => simp [curateAll, h1, (ih _ _).2 h2]

private theorem raisedErr_nil {V : Type} (i : Nat) (e : Option PyErr) : (raisedErr i e : List (BuildErr V)) = [] ↔ e = none := by
  cases e with
  | none => simp [raisedErr]
  | some e => cases e <;> simp [raisedErr]

/-- A loop that yields nothing went through all of its steps. -/
private theorem loop_cons {V : Type} (i : Nat) (s : BState) (step : BState → StepOut V) (steps) :
    (buildLoop i s (step :: steps)).1 = [] ↔
      ((step s).errs = [] ∧ (step s).raised = none ∧ (buildLoop (i + 1) (step s).st steps).1 = []) := by
  have hk : ((step s).errs.map (BuildErr.found i) ++ raisedErr i (step s).raised = []) ↔
      ((step s).errs = [] ∧ (step s).raised = none) := by
    rw [List.append_eq_nil_iff, List.map_eq_nil_iff, raisedErr_nil]
  by_cases h : (step s).errs.map (BuildErr.found i) ++ raisedErr i (step s).raised = []
  · obtain ⟨h1, h2⟩ := hk.1 h
    simp [buildLoop, h1, h2, raisedErr]
  · constructor
    · intro h'
      exfalso
      simp only [buildLoop] at h'
      simp at h'
    · rintro ⟨h1, h2, -⟩
      exact absurd (hk.2 ⟨h1, h2⟩) h

private theorem loop_cons_state {V : Type} (i : Nat) (s : BState) (step : BState → StepOut V) (steps)
    (h : (step s).errs = [] ∧ (step s).raised = none) :
    buildLoop i s (step :: steps) = ((buildLoop (i + 1) (step s).st steps).1, (buildLoop (i + 1) (step s).st steps).2.1,
      i :: (buildLoop (i + 1) (step s).st steps).2.2) := by
  simp [buildLoop, h.1, h.2, raisedErr]

private theorem iter_nil_iff {V : Type} (mk : Maker V) (subs : List Doc) (m : Doc) :
    ((buildIter mk subs).1 = [] ∧ (buildIter mk subs).2.1.model = m) ↔
      AllPass (mk.validator true) subs ∧
      ∃ u, MergedAll .null (subs.map (fun d => (mk.validator true d).after)) u ∧
        (mk.validator false u).errs = [] ∧ (mk.validator false u).raised = none ∧
        Curated (mk.validator false u).after mk.curators m := by
  unfold buildIter buildSteps
  constructor
  · rintro ⟨h, hm⟩
    rw [loop_cons] at h
    obtain ⟨h1, h1', h⟩ := h
    simp only at h1 h1'
    have hp := (prevalidate_pass _ _).1 ⟨h1, h1'⟩
    rw [loop_cons_state _ _ _ _ ⟨h1, h1'⟩] at hm
    simp only [prevalidate_after _ _ hp] at h hm
    rw [loop_cons] at h
    obtain ⟨-, h2, h⟩ := h
    simp only at h2
    rw [loop_cons_state _ _ _ _ ⟨rfl, h2⟩] at hm
    simp only at hm h
    rw [loop_cons] at h
    obtain ⟨h3, h3', h⟩ := h
    simp only at h3 h3' h
    rw [loop_cons_state _ _ _ _ ⟨h3, h3'⟩] at hm
    simp only at hm
    rw [loop_cons] at h
    obtain ⟨-, h4, -⟩ := h
    simp only at h4
    rw [loop_cons_state _ _ _ _ ⟨rfl, h4⟩] at hm
    simp only [buildLoop] at hm h3 h3' h4 h2
    refine ⟨hp, (mergeAll .null (subs.map (fun d => (mk.validator true d).after))).1, ?_, h3, h3', ?_⟩
    · rw [← mergeAll_iff]
      exact Prod.ext rfl h2
    · rw [← curateAll_iff]
      exact Prod.ext hm h4
  · rintro ⟨hp, u, hu, h3, h3', hc⟩
    have hp' := (prevalidate_pass _ _).2 hp
    have hu' := (mergeAll_iff _ _ _).2 hu
    have hc' := (curateAll_iff _ _ _).2 hc
    rw [loop_cons_state _ _ _ _ hp']
    simp only [prevalidate_after _ _ hp]
    rw [loop_cons_state _ _ _ _ ⟨rfl, by simp [hu']⟩]
    simp only [hu']
    rw [loop_cons_state _ _ _ _ ⟨h3, h3'⟩]
    simp only
    rw [loop_cons_state _ _ _ _ ⟨rfl, by simp [hc']⟩]
    simp [hc', buildLoop]

/-- C27: building returns `m` exactly when every submodel passes the prevalidation, they all merge into
some `u` in their order, `u` passes the validation, and the curation functions take it to `m`. -/
theorem C27_model {V : Type} (mk : Maker V) (subs : List Doc) (m : Doc) :
    build mk subs = .ok m ↔
      AllPass (mk.validator true) subs ∧
      ∃ u, MergedAll .null (subs.map (fun d => (mk.validator true d).after)) u ∧
        (mk.validator false u).errs = [] ∧ (mk.validator false u).raised = none ∧
        Curated (mk.validator false u).after mk.curators m := by
  rw [← iter_nil_iff]
  unfold build
  cases h : (buildIter mk subs).1 with
  | nil => simp
  | cons e t => simp

/-- C27: otherwise building raises the first error that iterating would report. -/
theorem C27_first_error {V : Type} (mk : Maker V) (subs : List Doc) (e : BuildErr V) :
    build mk subs = .error e ↔ (buildIter mk subs).1.head? = some e := by
  unfold build
  cases h : (buildIter mk subs).1 with
  | nil => simp
  | cons e t => simp

private theorem loop_trace {V : Type} (steps : List (BState → StepOut V)) : ∀ i s,
    ((buildLoop i s steps).1 = [] ∧ (buildLoop i s steps).2.2 = List.range' i steps.length) ∨
    (∃ k es, k < steps.length ∧ es ≠ [] ∧ (buildLoop i s steps).1 = es ++ [.gaveUp (i + k)] ∧
      (∀ e ∈ es, stepOf e = i + k ∧ ¬ isGaveUp e) ∧ (buildLoop i s steps).2.2 = List.range' i (k + 1)) := by
  induction steps with
  | nil => intro i s; left; simp [buildLoop]
  | cons step steps ih =>
    intro i s
    by_cases h : (step s).errs = [] ∧ (step s).raised = none
    · rw [loop_cons_state _ _ _ _ h]
      rcases ih (i + 1) (step s).st with ⟨h1, h2⟩ | ⟨k, es, hk, hes, h1, h2, h3⟩
      · left
        refine ⟨h1, ?_⟩
        simp only
        rw [h2, List.length_cons, List.range'_succ]
      · right
        refine ⟨k + 1, es, by simp; omega, hes, ?_, ?_, ?_⟩
        · simp only; rw [h1, show i + 1 + k = i + (k + 1) by omega]
        · intro e he
          have := h2 e he
          exact ⟨by rw [this.1]; omega, this.2⟩
        · simp only; rw [h3, List.range'_succ (n := k + 1)]
    · right
      have hk : ¬ ((step s).errs.map (BuildErr.found i) ++ raisedErr i (step s).raised = []) := by
        rw [List.append_eq_nil_iff, List.map_eq_nil_iff, raisedErr_nil]; exact h
      refine ⟨0, (step s).errs.map (BuildErr.found i) ++ raisedErr i (step s).raised, by simp, hk, ?_, ?_, ?_⟩
      · simp only [buildLoop]
        rfl
      · intro e he
        rcases List.mem_append.1 he with he | he
        · obtain ⟨v, -, rfl⟩ := List.mem_map.1 he
          exact ⟨rfl, by simp [isGaveUp]⟩
        · cases hr : (step s).raised with
          | none => rw [hr] at he; simp [raisedErr] at he
          | some x =>
            rw [hr] at he
            cases x <;> simp [raisedErr] at he <;> subst he <;> exact ⟨rfl, by simp [isGaveUp]⟩
      · simp only [buildLoop]
        rfl

/-- C27: the phases start in their order 1, 2, 3, 4. Either all four run and nothing is reported, or
errors of one phase `k` are reported, no phase after it starts, and the report ends with the note that
building stopped there. -/
theorem C27_phases {V : Type} (mk : Maker V) (subs : List Doc) :
    ((buildIter mk subs).1 = [] ∧ (buildIter mk subs).2.2 = [1, 2, 3, 4]) ∨
    (∃ k es, 1 ≤ k ∧ k ≤ 4 ∧ es ≠ [] ∧ (buildIter mk subs).1 = es ++ [.gaveUp k] ∧
      (∀ e ∈ es, stepOf e = k ∧ ¬ isGaveUp e) ∧ (buildIter mk subs).2.2 = [1, 2, 3, 4].take k) := by
  rcases loop_trace (buildSteps mk) 1 ⟨.null, subs⟩ with h | ⟨k, es, hk, hes, h1, h2, h3⟩
  · exact .inl h
  · right
    have hk' : k < 4 := hk
    refine ⟨1 + k, es, by omega, by omega, hes, h1, h2, ?_⟩
    show (buildLoop 1 ⟨.null, subs⟩ (buildSteps mk)).2.2 = _
    rw [h3]
    have : k = 0 ∨ k = 1 ∨ k = 2 ∨ k = 3 := by omega
    rcases this with rfl | rfl | rfl | rfl <;> rfl

/-- A maker that accepts everything but integers at the top. -/
private def maker : Maker Str :=
  ⟨fun _ d => match d with
    | .int _ => ⟨["no integers".toList], none, d⟩
    | d => ⟨[], none, d⟩, []⟩

example : ∃ m, mergeDoc base top = .ok m ∧ build maker [base, top] = .ok m := ⟨_, rfl, rfl⟩
example : (buildIter maker [base, .int 1, .int 2]).1 =
    [.found 1 "no integers".toList, .found 1 "no integers".toList, .gaveUp 1] := rfl

end Props
