import Verif.Spec.MakerThreads
import Verif.Props.Pandel
import Verif.Props.AnyOrder
import Verif.Props.BuildGiven
/-
C166: threads that share a model-maker.
-/
namespace Props
open Py Model Spec

/-! ### Adding -/

private theorem run_cons {V : Type} (C : Checks V) (c : Makers V) (j : Nat) (js : List Nat) :
    c.run C (j :: js) = (c.step C j).run C js := rfl

private theorem perm_set (d : Doc) (ds : List Doc) : ∀ (xs : List (List Doc)) (j : Nat), xs[j]? = some (d :: ds) →
    (xs.flatten).Perm (d :: (xs.set j ds).flatten)
  | [], _, h => by cases h
  | x :: xs, 0, h => by
    cases (by simpa using h : x = d :: ds)
    simp
  | x :: xs, j + 1, h => by
    have := perm_set d ds xs j (by simpa using h)
    simp only [List.flatten_cons, List.set_cons_succ]
    exact (this.append_left x).trans List.perm_middle

private theorem step_subs {V : Type} (C : Checks V) (S : SharedMaker) (t : MakerPc V) :
    (∃ d ds, t = .add (d :: ds) ∧ (t.step C S).1.subs = S.subs ++ [d] ∧ (t.step C S).2 = .add ds) ∨
    ((t.step C S).1.subs = S.subs ∧ toAdd (t.step C S).2 = toAdd t) := by
  cases t with
  | add ds => cases ds with
    | nil => exact .inr ⟨rfl, rfl⟩
    | cons d ds => exact .inl ⟨d, ds, rfl, rfl, rfl⟩
  | pre i =>
    right; refine ⟨rfl, ?_⟩
    simp only [MakerPc.step]
    cases S.subs[i]? with
    | none => rfl
    | some d => dsimp only; cases C.first 1 true d <;> rfl
  | merge i =>
    right; refine ⟨rfl, ?_⟩
    simp only [MakerPc.step]
    cases S.subs[i]? <;> rfl
  | into i d =>
    right; refine ⟨rfl, ?_⟩
    simp only [MakerPc.step]
    cases mergeDoc S.model d with
    | ok m => rfl
    | error e => dsimp only; cases (raisedErr 2 (some e) : List (BuildErr V)) <;> rfl
  | check =>
    right; refine ⟨rfl, ?_⟩
    simp only [MakerPc.step]
    cases C.first 3 false S.model <;> rfl
  | asked i =>
    right; refine ⟨rfl, ?_⟩
    simp only [MakerPc.step]
    by_cases h0 : S.errored = true
    · rw [if_pos h0]; rfl
    · rw [if_neg h0]
      by_cases h1 : i = 1
      · rw [if_pos h1]; rfl
      · rw [if_neg h1]
        by_cases h2 : i = 2
        · rw [if_pos h2]; rfl
        · rw [if_neg h2]
          by_cases h3 : i = 3
          · rw [if_pos h3]; rfl
          · rw [if_neg h3]; rfl
  | _ => exact .inr ⟨rfl, rfl⟩

private theorem set_same {α : Type} {xs : List α} {j : Nat} {x : α} (h : xs[j]? = some x) : xs.set j x = xs := by
  apply List.ext_getElem?
  intro i
  rw [List.getElem?_set]
  by_cases hij : j = i
  · subst hij
    have hl : j < xs.length := by
      rcases Nat.lt_or_ge j xs.length with hl | hl
      · exact hl
      · rw [List.getElem?_eq_none hl] at h; cases h
    rw [if_pos rfl, if_pos hl, h]
  · simp [hij]

/-- C166. Whatever the threads that share a model-maker do meanwhile, and in whatever order their accesses come: once every thread has added its
submodels, the model-maker has those it had and then all of theirs, each once, every thread's own in the order that the thread added them. -/
theorem C166_added {V : Type} (C : Checks V) (js : List Nat) : ∀ (c : Makers V),
    (∀ t ∈ (c.run C js).threads, toAdd t = []) →
    ∃ l, (c.run C js).shared.subs = c.shared.subs ++ l ∧ l.Perm (c.threads.map toAdd).flatten ∧
      ∀ t ∈ c.threads, (toAdd t).Sublist l := by
  induction js with
  | nil =>
    intro c h
    refine ⟨[], by simp [Makers.run], ?_, ?_⟩
    · have : (c.threads.map toAdd).flatten = [] := by
        rw [List.flatten_eq_nil_iff]
        intro x hx
        obtain ⟨t, ht, rfl⟩ := List.mem_map.1 hx
        exact h t ht
      rw [this]
    · intro t ht
      rw [h t ht]
      exact List.Sublist.refl _
  | cons j js ih =>
    intro c h
    rw [run_cons] at h ⊢
    obtain ⟨l, h1, h2, h3⟩ := ih _ h
    rw [h1]
    cases ht : c.threads[j]? with
    | none =>
      have hs : c.step C j = c := by simp only [Makers.step, ht]
      rw [hs] at h2 h3 ⊢
      exact ⟨l, rfl, h2, h3⟩
    | some t =>
      have hs : c.step C j = ⟨(t.step C c.shared).1, c.threads.set j (t.step C c.shared).2⟩ := by simp only [Makers.step, ht]
      rw [hs] at h2 h3 ⊢
      dsimp only at h2 h3 ⊢
      rw [List.map_set] at h2
      have hm : (c.threads.map toAdd)[j]? = some (toAdd t) := by rw [List.getElem?_map, ht]; rfl
      have hl : j < c.threads.length := by
        rcases Nat.lt_or_ge j c.threads.length with hl | hl
        · exact hl
        · rw [List.getElem?_eq_none hl] at ht; cases ht
      have hj : ∀ t' ∈ c.threads, t' = t ∨ t' ∈ c.threads.set j (t.step C c.shared).2 := by
        intro t' ht'
        obtain ⟨i, hi⟩ := List.getElem?_of_mem ht'
        by_cases hij : j = i
        · subst hij; rw [ht] at hi; cases hi; exact .inl rfl
        · right
          apply List.mem_of_getElem? (i := i)
          rw [List.getElem?_set]; simp [hij, hi]
      have hself := h3 (t.step C c.shared).2 (List.mem_of_getElem? (i := j) (by rw [List.getElem?_set]; simp [hl]))
      rcases step_subs C c.shared t with ⟨d, ds, rfl, e1, e2⟩ | ⟨e1, e2⟩
      · rw [e1]
        rw [e2] at h2 h3 hj hself
        refine ⟨d :: l, by simp, ?_, ?_⟩
        · exact (h2.cons d).trans (perm_set d ds _ j hm).symm
        · intro t' ht'
          rcases hj t' ht' with rfl | hin
          · exact hself.cons_cons d
          · exact (h3 t' hin).cons d
      · rw [e1]
        rw [e2, set_same hm] at h2
        rw [e2] at hself
        refine ⟨l, rfl, h2, ?_⟩
        intro t' ht'
        rcases hj t' ht' with rfl | hin
        · exact hself
        · exact h3 t' hin

/-- C166. Threads add submodels at once, in two different orders of their accesses; if the submodels nowhere disagree, the models built from them
afterwards are the same, but for the order of keys. -/
theorem C166_build {V : Type} (C : Checks V) (f : VFlags) (hf : ¬ Asked f) (defs : Str → Option CSchema) (n : Nat) (pre post : CSchema)
    (c : Makers V) (js js' : List Nat) (hd : ∀ t ∈ (c.run C js).threads, toAdd t = []) (hd' : ∀ t ∈ (c.run C js').threads, toAdd t = [])
    (hk : ∀ d ∈ (c.run C js).shared.subs, KeysOk d)
    (ha : ∀ a ∈ (c.run C js).shared.subs, ∀ b ∈ (c.run C js).shared.subs, Agree a b) (m m' : Doc)
    (hb : build (combinedMaker f defs n pre post) (c.run C js).shared.subs = .ok m)
    (hb' : build (combinedMaker f defs n pre post) (c.run C js').shared.subs = .ok m') : SameJson m m' := by
  obtain ⟨l, e1, p1, _⟩ := C166_added C js c hd
  obtain ⟨l', e2, p2, _⟩ := C166_added C js' c hd'
  refine C162_build f hf defs n pre post _ _ ?_ hk ha m m' hb hb'
  intro d
  rw [e1, e2, List.mem_append, List.mem_append, p1.mem_iff, p2.mem_iff]

/-! ### Alone -/

private theorem run_append {V : Type} (C : Checks V) (c : Makers V) (as bs : List Nat) :
    c.run C (as ++ bs) = (c.run C as).run C bs := by simp [Makers.run, List.foldl_append]

/-- Thread `j` gets from one place to another by its own accesses. -/
private def Gets {V : Type} (C : Checks V) (S : SharedMaker) (t : MakerPc V) (S' : SharedMaker) (t' : MakerPc V) : Prop :=
  ∃ n, ∀ (c : Makers V) (j : Nat), c.shared = S → c.threads[j]? = some t →
    (c.run C (List.replicate n j)).shared = S' ∧ (c.run C (List.replicate n j)).threads[j]? = some t'

private theorem Gets.refl {V : Type} (C : Checks V) (S : SharedMaker) (t : MakerPc V) : Gets C S t S t :=
  ⟨0, fun _ _ h1 h2 => ⟨h1, h2⟩⟩

private theorem Gets.one {V : Type} {C : Checks V} {S : SharedMaker} {t : MakerPc V} {S' : SharedMaker} {t' : MakerPc V}
    (h : Gets C (t.step C S).1 (t.step C S).2 S' t') : Gets C S t S' t' := by
  obtain ⟨n, hn⟩ := h
  refine ⟨n + 1, fun c j hs ht => ?_⟩
  rw [List.replicate_succ, run_cons]
  have hl : j < c.threads.length := by
    rcases Nat.lt_or_ge j c.threads.length with hl | hl
    · exact hl
    · rw [List.getElem?_eq_none hl] at ht; cases ht
  subst hs
  have he : c.step C j = ⟨(t.step C c.shared).1, c.threads.set j (t.step C c.shared).2⟩ := by simp only [Makers.step, ht]
  rw [he]
  exact hn _ j rfl (by simp [hl])

private theorem first_none {V : Type} {C : Checks V} {i : Nat} {b : Bool} {d : Doc} (h : C.first i b d = none) :
    (C.check b d).1 = [] ∧ (C.check b d).2 = none := by
  unfold Checks.first at h
  rw [List.head?_eq_none_iff, List.append_eq_nil_iff, List.map_eq_nil_iff] at h
  refine ⟨h.1, ?_⟩
  cases hr : (C.check b d).2 with
  | none => rfl
  | some e => rw [hr] at h; cases e <;> cases h.2

private theorem pre_all {V : Type} (C : Checks V) (S : SharedMaker) (hne : S.errored = false) : ∀ (rest : List Doc) (i : Nat), S.subs.drop i = rest →
    ((prevalidateAll (C.maker.validator true) rest).1.map (BuildErr.found 1) ++
        raisedErr 1 (prevalidateAll (C.maker.validator true) rest).2.1 = [] ∧
      (prevalidateAll (C.maker.validator true) rest).2.2 = rest ∧ Gets C S (.pre i) S (.merge 0)) ∨
    ∃ e t, (prevalidateAll (C.maker.validator true) rest).1.map (BuildErr.found 1) ++
        raisedErr 1 (prevalidateAll (C.maker.validator true) rest).2.1 = e :: t ∧ Gets C S (.pre i) { S with errored := true } (.done (.error e))
  | [], i, h => by
    have hg : S.subs[i]? = none := by
      have := congrArg (fun l => l[0]?) h
      simpa using this
    left
    refine ⟨rfl, rfl, .one ?_⟩
    simp only [MakerPc.step, hg]
    refine .one ?_
    simp only [MakerPc.step, hne, Bool.false_eq_true, if_false, if_true]
    exact .refl ..
  | d :: rest, i, h => by
    have hg : S.subs[i]? = some d := by
      have := congrArg (fun l => l[0]?) h
      simpa using this
    have hd : S.subs.drop (i + 1) = rest := by
      have := congrArg (fun l => l.drop 1) h
      simpa [List.drop_drop, Nat.add_comm] using this
    cases hf : C.first 1 true d with
    | none =>
      obtain ⟨h1, h2⟩ := first_none hf
      have hp : prevalidateAll (C.maker.validator true) (d :: rest) =
          ((prevalidateAll (C.maker.validator true) rest).1, (prevalidateAll (C.maker.validator true) rest).2.1,
            d :: (prevalidateAll (C.maker.validator true) rest).2.2) := by
        simp [prevalidateAll, Checks.maker, h1, h2]
      have hstep : ∀ {S' t'}, Gets C S (.pre (i + 1)) S' t' → Gets C S (.pre i) S' t' := by
        intro S' t' hh
        refine .one ?_
        simp only [MakerPc.step, hg, hf]
        exact hh
      rw [hp]
      rcases pre_all C S hne rest (i + 1) hd with ⟨a, b, g⟩ | ⟨e, t, a, g⟩
      · exact .inl ⟨a, by rw [b], hstep g⟩
      · exact .inr ⟨e, t, a, hstep g⟩
    | some e =>
      right
      have hgets : Gets C S (.pre i) { S with errored := true } (.done (.error e)) := by
        refine .one ?_
        simp only [MakerPc.step, hg, hf]
        exact .one (.refl ..)
      unfold Checks.first at hf
      cases hes : (C.check true d).1 with
      | cons v vs =>
        rw [hes] at hf
        cases (by simpa using hf : BuildErr.found 1 v = e)
        cases hr : (C.check true d).2 with
        | none => exact ⟨_, _, by simp [prevalidateAll, Checks.maker, hes, hr]; rfl, hgets⟩
        | some x => exact ⟨_, _, by simp [prevalidateAll, Checks.maker, hes, hr]; rfl, hgets⟩
      | nil =>
        rw [hes] at hf
        cases hr : (C.check true d).2 with
        | none => rw [hr] at hf; simp [raisedErr] at hf
        | some x =>
          rw [hr] at hf
          refine ⟨e, [], ?_, hgets⟩
          simp only [prevalidateAll, Checks.maker, hes, hr, List.map_nil, List.nil_append]
          simp only [List.map_nil, List.nil_append] at hf
          cases x <;> cases hf <;> rfl

private theorem merge_all {V : Type} (C : Checks V) : ∀ (rest : List Doc) (S : SharedMaker), S.errored = false → ∀ (i : Nat), S.subs.drop i = rest →
    ((mergeAll S.model rest).2 = none ∧ Gets C S (.merge i) { S with model := (mergeAll S.model rest).1 } (.check)) ∨
    ∃ e x, (mergeAll S.model rest).2 = some e ∧ (raisedErr 2 (some e) : List (BuildErr V)) = [x] ∧
      Gets C S (.merge i) { S with model := (mergeAll S.model rest).1, errored := true } (.done (.error x))
  | [], S, hne, i, h => by
    have hg : S.subs[i]? = none := by
      have := congrArg (fun l => l[0]?) h
      simpa using this
    left
    refine ⟨rfl, .one ?_⟩
    simp only [MakerPc.step, hg]
    refine .one ?_
    have hs : (MakerPc.asked 2 : MakerPc V).step C S = (S, .check) := by simp [MakerPc.step, hne]
    rw [hs]
    exact .refl ..
  | d :: rest, S, hne, i, h => by
    have hg : S.subs[i]? = some d := by
      have := congrArg (fun l => l[0]?) h
      simpa using this
    have hd : S.subs.drop (i + 1) = rest := by
      have := congrArg (fun l => l.drop 1) h
      simpa [List.drop_drop, Nat.add_comm] using this
    cases hm : mergeDoc S.model d with
    | ok m =>
      have hstep : ∀ {S' t'}, Gets C { S with model := m } (.merge (i + 1)) S' t' → Gets C S (.merge i) S' t' := by
        intro S' t' hh
        refine .one ?_
        simp only [MakerPc.step, hg]
        refine .one ?_
        simp only [MakerPc.step, hm]
        exact .one hh
      simp only [mergeAll, hm]
      rcases merge_all C rest { S with model := m } hne (i + 1) hd with ⟨a, g⟩ | ⟨e, x, a, b, g⟩
      · exact .inl ⟨a, hstep g⟩
      · exact .inr ⟨e, x, a, b, hstep g⟩
    | error e =>
      right
      have hx : ∃ x : BuildErr V, (raisedErr 2 (some e) : List (BuildErr V)) = [x] := by cases e <;> exact ⟨_, rfl⟩
      obtain ⟨x, hx⟩ := hx
      simp only [mergeAll, hm]
      refine ⟨e, x, rfl, hx, .one ?_⟩
      simp only [MakerPc.step, hg]
      refine .one ?_
      simp only [MakerPc.step, hm, hx]
      exact .one (.refl ..)

private theorem gets_trans {V : Type} {C : Checks V} {S S' S'' : SharedMaker} {t t' t'' : MakerPc V} (h : Gets C S t S' t')
    (h' : Gets C S' t' S'' t'') : Gets C S t S'' t'' := by
  obtain ⟨n, hn⟩ := h
  obtain ⟨k, hk⟩ := h'
  refine ⟨n + k, fun c j h1 h2 => ?_⟩
  rw [← List.replicate_append_replicate, run_append]
  obtain ⟨a, b⟩ := hn c j h1 h2
  exact hk _ j a b

private theorem loop_nil {V : Type} (i : Nat) (s : BState) (st : BState → StepOut V) (sts : List (BState → StepOut V))
    (h : (st s).errs.map (BuildErr.found i) ++ raisedErr i (st s).raised = []) :
    (buildLoop i s (st :: sts)).1 = (buildLoop (i + 1) (st s).st sts).1 ∧
    (buildLoop i s (st :: sts)).2.1 = (buildLoop (i + 1) (st s).st sts).2.1 := by
  simp only [buildLoop, h]
  exact ⟨trivial, trivial⟩

private theorem loop_cons {V : Type} (i : Nat) (s : BState) (st : BState → StepOut V) (sts : List (BState → StepOut V)) (e : BuildErr V)
    (t : List (BuildErr V)) (h : (st s).errs.map (BuildErr.found i) ++ raisedErr i (st s).raised = e :: t) :
    ∃ t', (buildLoop i s (st :: sts)).1 = e :: t' := by
  simp only [buildLoop, h]
  exact ⟨_, rfl⟩

private theorem build_error {V : Type} {mk : Maker V} {subs : List Doc} {e : BuildErr V} {t : List (BuildErr V)}
    (h : (buildIter mk subs).1 = e :: t) : build mk subs = .error e := by
  unfold build
  rw [h]

private theorem build_ok {V : Type} {mk : Maker V} {subs : List Doc} (h : (buildIter mk subs).1 = []) :
    build mk subs = .ok (buildIter mk subs).2.1.model := by
  unfold build
  rw [h]

private theorem alone {V : Type} (C : Checks V) (S : SharedMaker) :
    ∃ S', (S'.subs = S.subs ∧ (∀ m, build C.maker S.subs = .ok m → S'.model = m ∧ S'.errored = false) ∧
      ∀ e, build C.maker S.subs = .error e → S'.errored = true) ∧ Gets C S .begin S' (.done (build C.maker S.subs)) := by
  have hstart : ∀ {S' t'}, Gets C ⟨S.subs, .null, false⟩ (.pre 0) S' t' → Gets C S .begin S' t' := fun hh => .one (.one hh)
  rcases pre_all C ⟨S.subs, .null, false⟩ rfl S.subs 0 rfl with ⟨h1, h2, g1⟩ | ⟨e, t, h1, g1⟩
  · obtain ⟨l1, l1'⟩ := loop_nil 1 ⟨.null, S.subs⟩
      (fun s => let r := prevalidateAll (C.maker.validator true) s.subs; (⟨r.1, r.2.1, ⟨s.model, r.2.2⟩⟩ : StepOut V))
      ((buildSteps C.maker).tail) h1
    have hst : ((buildSteps C.maker).head (by simp [buildSteps]) ⟨.null, S.subs⟩).st = ⟨.null, S.subs⟩ := by
      show (⟨.null, (prevalidateAll (C.maker.validator true) S.subs).2.2⟩ : BState) = _
      rw [h2]
    have l2 : (buildIter C.maker S.subs).1 = (buildLoop 2 ⟨.null, S.subs⟩ (buildSteps C.maker).tail).1 := by
      refine Eq.trans l1 ?_
      exact congrArg (fun s => (buildLoop 2 s (buildSteps C.maker).tail).1) hst
    have l2' : (buildIter C.maker S.subs).2.1 = (buildLoop 2 ⟨.null, S.subs⟩ (buildSteps C.maker).tail).2.1 := by
      refine Eq.trans l1' ?_
      exact congrArg (fun s => (buildLoop 2 s (buildSteps C.maker).tail).2.1) hst
    rcases merge_all C S.subs ⟨S.subs, .null, false⟩ rfl 0 rfl with ⟨m1, g2⟩ | ⟨e, x, m1, m2, g2⟩
    · obtain ⟨l3, l3'⟩ := loop_nil 2 ⟨.null, S.subs⟩ (fun s => let r := mergeAll s.model s.subs; (⟨[], r.2, ⟨r.1, s.subs⟩⟩ : StepOut V))
        ((buildSteps C.maker).tail.tail) (by dsimp only; dsimp only at m1; rw [m1]; rfl)
      have l4 := l2.trans l3
      have l4' := l2'.trans l3'
      have hfirst : ∀ m : Doc, C.first 3 false m = ((C.maker.validator false m).errs.map (BuildErr.found 3) ++
        raisedErr 3 (C.maker.validator false m).raised).head? := fun m => rfl
      cases hf : C.first 3 false (mergeAll .null S.subs).1 with
      | none =>
        have hnil := hf
        rw [hfirst, List.head?_eq_none_iff] at hnil
        obtain ⟨l5, l5'⟩ := loop_nil 3 ⟨(mergeAll .null S.subs).1, S.subs⟩
          (fun s => let r := C.maker.validator false s.model; (⟨r.errs, r.raised, ⟨r.after, s.subs⟩⟩ : StepOut V))
          ((buildSteps C.maker).tail.tail.tail) hnil
        have l6 : (buildIter C.maker S.subs).1 = [] := (l4.trans l5).trans rfl
        have l6' : (buildIter C.maker S.subs).2.1 = ⟨(mergeAll .null S.subs).1, S.subs⟩ := (l4'.trans l5').trans rfl
        rw [build_ok l6, l6']
        refine ⟨⟨S.subs, (mergeAll .null S.subs).1, false⟩, ⟨rfl, fun m hm => by cases hm; exact ⟨rfl, rfl⟩, fun e he => by cases he⟩,
          hstart (gets_trans g1 (gets_trans g2 (.one ?_)))⟩
        simp only [MakerPc.step, hf]
        refine .one ?_
        simp only [MakerPc.step, Bool.false_eq_true, if_false, if_true]
        refine .one ?_
        simp [MakerPc.step]
        refine .one ?_
        exact .refl ..
      | some e =>
        have hcons : ∃ t, (C.maker.validator false (mergeAll .null S.subs).1).errs.map (BuildErr.found 3) ++
            raisedErr 3 (C.maker.validator false (mergeAll .null S.subs).1).raised = e :: t := by
          rw [hfirst] at hf
          exact List.head?_eq_some_iff.1 hf
        obtain ⟨t, ht⟩ := hcons
        obtain ⟨t', ht'⟩ := loop_cons 3 ⟨(mergeAll .null S.subs).1, S.subs⟩
          (fun s => let r := C.maker.validator false s.model; (⟨r.errs, r.raised, ⟨r.after, s.subs⟩⟩ : StepOut V))
          ((buildSteps C.maker).tail.tail.tail) e t ht
        rw [build_error (l4.trans ht')]
        refine ⟨⟨S.subs, (mergeAll .null S.subs).1, true⟩, ⟨rfl, fun m hm => (by cases hm), fun e he => rfl⟩,
          hstart (gets_trans g1 (gets_trans g2 (.one ?_)))⟩
        simp only [MakerPc.step, hf]
        exact .one (.refl ..)
    · obtain ⟨t', ht'⟩ := loop_cons 2 ⟨.null, S.subs⟩ (fun s => let r := mergeAll s.model s.subs; (⟨[], r.2, ⟨r.1, s.subs⟩⟩ : StepOut V))
        ((buildSteps C.maker).tail.tail) x [] (by dsimp only; dsimp only at m1; rw [m1, m2]; rfl)
      rw [build_error (l2.trans ht')]
      exact ⟨⟨S.subs, (mergeAll .null S.subs).1, true⟩, ⟨rfl, fun m hm => (by cases hm), fun e he => rfl⟩, hstart (gets_trans g1 g2)⟩
  · obtain ⟨t', ht'⟩ := loop_cons 1 ⟨.null, S.subs⟩
      (fun s => let r := prevalidateAll (C.maker.validator true) s.subs; (⟨r.1, r.2.1, ⟨s.model, r.2.2⟩⟩ : StepOut V))
      ((buildSteps C.maker).tail) e t h1
    have : (buildIter C.maker S.subs).1 = e :: t' := ht'
    rw [build_error this]
    exact ⟨⟨S.subs, .null, true⟩, ⟨rfl, fun m hm => (by cases hm), fun e he => rfl⟩, hstart g1⟩

/-- C166. A thread that builds while no other thread gets in between, whatever the others did before and however far they got, returns or raises
what building gives with the submodels that are there. These stay; a model returned is the one that the attribute holds then; and the flag is
set exactly if there was an error. -/
theorem C166_alone {V : Type} (C : Checks V) (c : Makers V) (j : Nat) (h : c.threads[j]? = some .begin) :
    ∃ n, (c.run C (List.replicate n j)).threads[j]? = some (.done (build C.maker c.shared.subs)) ∧
      (c.run C (List.replicate n j)).shared.subs = c.shared.subs ∧
      (∀ m, build C.maker c.shared.subs = .ok m →
        (c.run C (List.replicate n j)).shared.model = m ∧ (c.run C (List.replicate n j)).shared.errored = false) ∧
      ∀ e, build C.maker c.shared.subs = .error e → (c.run C (List.replicate n j)).shared.errored = true := by
  obtain ⟨S', hS, n, hn⟩ := alone C c.shared
  obtain ⟨h1, h2⟩ := hn c j rfl h
  refine ⟨n, h2, ?_⟩
  rw [h1]
  exact hS

/-! ### At once -/

private theorem merges_mono {subs subs' : List Doc} (h : ∀ d ∈ subs, d ∈ subs') {m : Doc} (hm : Merges subs m) : Merges subs' m := by
  obtain ⟨l, h1, h2⟩ := hm
  exact ⟨l, fun d hd => h d (h1 d hd), h2⟩

private theorem reason_mono {V : Type} {C : Checks V} {subs subs' : List Doc} (h : ∀ d ∈ subs, d ∈ subs') {e : BuildErr V}
    (he : Reason C subs e) : Reason C subs' e := by
  cases he with
  | sub d v a b => exact .sub d v (h d a) b
  | subRaises d _ _ a b c => exact .subRaises d _ _ (h d a) b c
  | merge m d _ _ a b c e' => exact .merge m d _ _ (merges_mono h a) (h d b) c e'
  | model m v a b => exact .model m v (merges_mono h a) b
  | modelRaises m _ _ a b c => exact .modelRaises m _ _ (merges_mono h a) b c

private theorem merged_snoc {a m m' : Doc} {l : List Doc} (d : Doc) (h : MergedAll a l m) (hm : mergeDoc m d = .ok m') :
    MergedAll a (l ++ [d]) m' := by
  induction h with
  | done m => exact .step _ _ _ _ _ hm (.done _)
  | step m x ds m1 m2 h1 h2 ih => exact .step _ _ _ _ _ h1 (ih hm)

/-- What holds of a thread at any moment. -/
private def Fine {V : Type} (C : Checks V) (subs : List Doc) : MakerPc V → Prop
  | .into _ d => d ∈ subs
  | .write _ m => Merges subs m
  | .fails e => Reason C subs e
  | .done (.ok m) => Merges subs m
  | .done (.error e) => Reason C subs e ∨ ∃ i, e = .gaveUp i
  | _ => True

private theorem fine_mono {V : Type} {C : Checks V} {subs subs' : List Doc} (h : ∀ d ∈ subs, d ∈ subs') {t : MakerPc V}
    (ht : Fine C subs t) : Fine C subs' t := by
  match t, ht with
  | .into _ d, ht => exact h d ht
  | .write _ m, ht => exact merges_mono h ht
  | .fails e, ht => exact reason_mono h ht
  | .done (.ok m), ht => exact merges_mono h ht
  | .done (.error e), ht => exact ht.imp (reason_mono h) id
  | .begin, _ => trivial
  | .clear, _ => trivial
  | .pre _, _ => trivial
  | .merge _, _ => trivial
  | .check, _ => trivial
  | .asked _, _ => trivial
  | .final, _ => trivial
  | .add _, _ => trivial

private theorem raised_mem {V : Type} {i : Nat} {o : Option PyErr} {x : BuildErr V} (h : x ∈ (raisedErr i o : List (BuildErr V))) :
    ∃ e, o = some e ∧ (x = .invalid i ∧ e = .validationError ∨ x = .failed i e) := by
  cases o with
  | none => cases h
  | some e => cases e <;> (cases h with
    | head => first | exact ⟨_, rfl, .inl ⟨rfl, rfl⟩⟩ | exact ⟨_, rfl, .inr rfl⟩
    | tail _ h => cases h)

private theorem first_mem {V : Type} {C : Checks V} {i : Nat} {b : Bool} {d : Doc} {x : BuildErr V} (h : C.first i b d = some x) :
    (∃ v ∈ (C.check b d).1, x = .found i v) ∨
    ∃ e, (C.check b d).2 = some e ∧ (x = .invalid i ∧ e = .validationError ∨ x = .failed i e) := by
  have := List.mem_of_mem_head? (l := (C.check b d).1.map (BuildErr.found i) ++ raisedErr i (C.check b d).2) h
  rcases List.mem_append.1 this with h | h
  · obtain ⟨v, hv, rfl⟩ := List.mem_map.1 h
    exact .inl ⟨v, hv, rfl⟩
  · exact .inr (raised_mem h)

private theorem fine_step {V : Type} (C : Checks V) (S : SharedMaker) (t : MakerPc V) (hm : Merges S.subs S.model) (ht : Fine C S.subs t) :
    Merges (t.step C S).1.subs (t.step C S).1.model ∧ Fine C (t.step C S).1.subs (t.step C S).2 := by
  match t, ht with
  | .begin, _ => exact ⟨hm, trivial⟩
  | .clear, _ => exact ⟨⟨[], fun _ h => (nomatch h), .done _⟩, trivial⟩
  | .pre i, _ =>
    refine ⟨hm, ?_⟩
    simp only [MakerPc.step]
    cases hg : S.subs[i]? with
    | none => trivial
    | some d =>
      dsimp only
      have hd := List.mem_of_getElem? hg
      cases hf : C.first 1 true d with
      | none => trivial
      | some e =>
        show Reason C S.subs e
        rcases first_mem hf with ⟨v, hv, rfl⟩ | ⟨x, hx, h⟩
        · exact .sub d v hd hv
        · exact .subRaises d x e hd hx h
  | .merge i, _ =>
    refine ⟨hm, ?_⟩
    simp only [MakerPc.step]
    cases hg : S.subs[i]? with
    | none => trivial
    | some d => exact List.mem_of_getElem? hg
  | .into i d, hd =>
    refine ⟨hm, ?_⟩
    simp only [MakerPc.step]
    cases hmd : mergeDoc S.model d with
    | ok m =>
      obtain ⟨l, h1, h2⟩ := hm
      refine ⟨l ++ [d], ?_, merged_snoc d h2 hmd⟩
      intro x hx
      rcases List.mem_append.1 hx with hx | hx
      · exact h1 x hx
      · cases List.mem_singleton.1 hx; exact hd
    | error e =>
      dsimp only
      have hmem : ∃ x : BuildErr V, (raisedErr 2 (some e) : List (BuildErr V)) = [x] := by cases e <;> exact ⟨_, rfl⟩
      obtain ⟨x, hx⟩ := hmem
      rw [hx]
      obtain ⟨e', he', h⟩ := raised_mem (V := V) (i := 2) (o := some e) (x := x) (by rw [hx]; exact List.mem_singleton.2 rfl)
      cases he'
      exact Reason.merge S.model d e x hm hd hmd h
  | .write i m, h => exact ⟨h, trivial⟩
  | .check, _ =>
    refine ⟨hm, ?_⟩
    simp only [MakerPc.step]
    cases hf : C.first 3 false S.model with
    | none => trivial
    | some e =>
      show Reason C S.subs e
      rcases first_mem hf with ⟨v, hv, rfl⟩ | ⟨x, hx, h⟩
      · exact .model S.model v hm hv
      · exact .modelRaises S.model x e hm hx h
  | .asked i, _ =>
    refine ⟨hm, ?_⟩
    simp only [MakerPc.step]
    by_cases h0 : S.errored = true
    · rw [if_pos h0]; exact .inr ⟨i, rfl⟩
    · rw [if_neg h0]
      by_cases h1 : i = 1
      · rw [if_pos h1]; trivial
      · rw [if_neg h1]
        by_cases h2 : i = 2
        · rw [if_pos h2]; trivial
        · rw [if_neg h2]
          by_cases h3 : i = 3
          · rw [if_pos h3]; trivial
          · rw [if_neg h3]; trivial
  | .fails e, h => exact ⟨hm, .inl h⟩
  | .final, _ => exact ⟨hm, hm⟩
  | .done r, h => exact ⟨hm, h⟩
  | .add [], _ => exact ⟨hm, trivial⟩
  | .add (d :: ds), _ => exact ⟨merges_mono (fun _ h => List.mem_append.2 (.inl h)) hm, trivial⟩

private theorem mem_grow {V : Type} (C : Checks V) (S : SharedMaker) (t : MakerPc V) : ∀ d ∈ S.subs, d ∈ (t.step C S).1.subs := by
  intro x hx
  rcases step_subs C S t with ⟨d, ds, _, e, _⟩ | ⟨e, _⟩
  · rw [e]; exact List.mem_append.2 (.inl hx)
  · rw [e]; exact hx

/-- Somebody ended with an error of their own. -/
private def Failed {V : Type} (C : Checks V) (c : Makers V) : Prop := ∃ e, .done (.error e) ∈ c.threads ∧ Reason C c.shared.subs e

private structure Sound {V : Type} (C : Checks V) (c : Makers V) : Prop where
  model : Merges c.shared.subs c.shared.model
  fine : ∀ t ∈ c.threads, Fine C c.shared.subs t
  errored : c.shared.errored = true → Failed C c
  gaveUp : ∀ i, .done (.error (.gaveUp i)) ∈ c.threads → Failed C c

private theorem mem_set_of {α : Type} {xs : List α} {j : Nat} {x y z : α} (_ : xs[j]? = some x) (hz : z ∈ xs.set j y) : z = y ∨ z ∈ xs :=
  (List.mem_or_eq_of_mem_set hz).symm

private theorem mem_set_kept {α : Type} {xs : List α} {j : Nat} {x y z : α} (h : xs[j]? = some x) (hz : z ∈ xs) : z = x ∨ z ∈ xs.set j y := by
  obtain ⟨i, hi⟩ := List.getElem?_of_mem hz
  by_cases hij : j = i
  · subst hij; rw [h] at hi; cases hi; exact .inl rfl
  · right
    apply List.mem_of_getElem? (i := i)
    rw [List.getElem?_set]; simp [hij, hi]

private theorem mem_set_new {α : Type} {xs : List α} {j : Nat} {x : α} (y : α) (h : xs[j]? = some x) : y ∈ xs.set j y := by
  have hl : j < xs.length := by
    rcases Nat.lt_or_ge j xs.length with hl | hl
    · exact hl
    · rw [List.getElem?_eq_none hl] at h; cases h
  exact List.mem_of_getElem? (i := j) (by rw [List.getElem?_set]; simp [hl])

private theorem errored_step {V : Type} (C : Checks V) (S : SharedMaker) (t : MakerPc V) (h : (t.step C S).1.errored = true) :
    S.errored = true ∨ ∃ e, t = .fails e := by
  match t, h with
  | .begin, h => cases h
  | .fails e, _ => exact .inr ⟨e, rfl⟩
  | .clear, h => exact .inl h
  | .pre _, h => exact .inl h
  | .merge _, h => exact .inl h
  | .into _ _, h => exact .inl h
  | .write _ _, h => exact .inl h
  | .check, h => exact .inl h
  | .asked _, h => exact .inl h
  | .final, h => exact .inl h
  | .done _, h => exact .inl h
  | .add [], h => exact .inl h
  | .add (_ :: _), h => exact .inl h

private theorem gaveUp_step {V : Type} (C : Checks V) (S : SharedMaker) (t : MakerPc V) (i : Nat)
    (ht : Fine C S.subs t) (h : .done (.error (.gaveUp i)) = (t.step C S).2) : S.errored = true ∨ t = .done (.error (.gaveUp i)) := by
  match t, ht, h with
  | .asked k, _, h =>
    by_cases h0 : S.errored = true
    · exact .inl h0
    · simp only [MakerPc.step] at h
      rw [if_neg h0] at h
      by_cases h1 : k = 1
      · rw [if_pos h1] at h; cases h
      · rw [if_neg h1] at h
        by_cases h2 : k = 2
        · rw [if_pos h2] at h; cases h
        · rw [if_neg h2] at h
          by_cases h3 : k = 3
          · rw [if_pos h3] at h; cases h
          · rw [if_neg h3] at h; cases h
  | .fails e, ht, h =>
    cases h
    have ht' : Reason C S.subs (.gaveUp i) := ht
    cases ht' with
    | subRaises d e x a b c => rcases c with ⟨c, _⟩ | c <;> cases c
    | merge m d e x a b c e' => rcases e' with ⟨c, _⟩ | c <;> cases c
    | modelRaises m e x a b c => rcases c with ⟨c, _⟩ | c <;> cases c
  | .done r, _, h => exact .inr h.symm
  | .pre k, _, h =>
    simp only [MakerPc.step] at h
    cases hg : S.subs[k]? with
    | none => rw [hg] at h; cases h
    | some d =>
      rw [hg] at h
      dsimp only at h
      cases hf : C.first 1 true d with
      | none => rw [hf] at h; cases h
      | some e => rw [hf] at h; cases h
  | .merge k, _, h =>
    simp only [MakerPc.step] at h
    cases hg : S.subs[k]? with
    | none => rw [hg] at h; cases h
    | some d => rw [hg] at h; cases h
  | .into k d, _, h =>
    simp only [MakerPc.step] at h
    cases hg : mergeDoc S.model d with
    | ok m => rw [hg] at h; cases h
    | error e =>
      rw [hg] at h
      dsimp only at h
      cases e <;> cases h
  | .check, _, h =>
    simp only [MakerPc.step] at h
    cases hf : C.first 3 false S.model with
    | none => rw [hf] at h; cases h
    | some e => rw [hf] at h; cases h
  | .begin, _, h => cases h
  | .clear, _, h => cases h
  | .write _ _, _, h => cases h
  | .final, _, h => cases h
  | .add [], _, h => cases h
  | .add (_ :: _), _, h => cases h

private theorem sound_step {V : Type} (C : Checks V) (c : Makers V) (j : Nat) (h : Sound C c) : Sound C (c.step C j) := by
  cases ht : c.threads[j]? with
  | none =>
    have hs : c.step C j = c := by simp only [Makers.step, ht]
    rw [hs]; exact h
  | some t =>
    have hs : c.step C j = ⟨(t.step C c.shared).1, c.threads.set j (t.step C c.shared).2⟩ := by simp only [Makers.step, ht]
    rw [hs]
    have hft := h.fine t (List.mem_of_getElem? ht)
    obtain ⟨f1, f2⟩ := fine_step C c.shared t h.model hft
    have hgrow := mem_grow C c.shared t
    have hkeep : Failed C c → Failed C ⟨(t.step C c.shared).1, c.threads.set j (t.step C c.shared).2⟩ := by
      rintro ⟨e, he, hr⟩
      refine ⟨e, ?_, reason_mono hgrow hr⟩
      rcases mem_set_kept (y := (t.step C c.shared).2) ht he with rfl | h
      · exact mem_set_new _ ht
      · exact h
    refine ⟨f1, ?_, ?_, ?_⟩
    · intro t' ht'
      rcases mem_set_of ht ht' with rfl | h'
      · exact f2
      · exact fine_mono hgrow (h.fine t' h')
    · intro he
      rcases errored_step C c.shared t he with he | ⟨e, rfl⟩
      · exact hkeep (h.errored he)
      · exact ⟨e, mem_set_new _ ht, hft⟩
    · intro i hi
      rcases mem_set_of ht hi with hi | hi
      · rcases gaveUp_step C c.shared t i hft hi with he | rfl
        · exact hkeep (h.errored he)
        · exact hkeep (h.gaveUp i (List.mem_of_getElem? ht))
      · exact hkeep (h.gaveUp i hi)

private theorem sound_run {V : Type} (C : Checks V) (js : List Nat) : ∀ c : Makers V, Sound C c → Sound C (c.run C js) := by
  induction js with
  | nil => exact fun _ h => h
  | cons j js ih => exact fun c h => ih _ (sound_step C c j h)

private theorem sound_fresh {V : Type} (C : Checks V) (c : Makers V) (h : FreshMakers c) : Sound C c := by
  obtain ⟨h1, h2, h3⟩ := h
  refine ⟨?_, ?_, ?_, ?_⟩
  · rw [h1]; exact ⟨[], fun _ h => (nomatch h), .done _⟩
  · intro t ht
    rcases h3 t ht with rfl | ⟨ds, rfl⟩ <;> trivial
  · intro he; rw [h2] at he; cases he
  · intro i hi
    rcases h3 _ hi with hc | ⟨ds, hc⟩ <;> cases hc

/-- C166. Threads build with one model-maker at once, and add submodels meanwhile. Whatever a build returns is a merge of some of the submodels
that were added, some perhaps more than once or not at all, in some order: nothing is made up. That it need be the merge of all of them is
refuted below. -/
theorem C166_returned_partial {V : Type} (C : Checks V) (c : Makers V) (hc : FreshMakers c) (js : List Nat) (j : Nat) (m : Doc)
    (h : (c.run C js).threads[j]? = some (.done (.ok m))) : Merges (c.run C js).shared.subs m :=
  (sound_run C js c (sound_fresh C c hc)).fine _ (List.mem_of_getElem? h)

/-- C166. So every value in what a build returns, at whatever path of keys, is the value that some submodel gives there, unless it is a text
and a submodel gives a list there. -/
theorem C166_values {V : Type} (C : Checks V) (c : Makers V) (hc : FreshMakers c) (js : List Nat) (j : Nat) (m : Doc)
    (h : (c.run C js).threads[j]? = some (.done (.ok m))) (hk : ∀ d ∈ (c.run C js).shared.subs, KeysOk d) (p : List Str) (v : Doc)
    (hv : Scalar v) (ht : ¬ TextAndList (c.run C js).shared.subs p v) (hg : GivesAt m p v) :
    ∃ d ∈ (c.run C js).shared.subs, GivesAt d p v := by
  obtain ⟨l, h1, h2⟩ := C166_returned_partial C c hc js j m h
  have hl : ¬ TextAndList l p v := fun ⟨a, d, hd, b⟩ => ht ⟨a, d, h1 d hd, b⟩
  have := (C121_merged_partial l (fun d hd => hk d (h1 d hd)) m h2 p v hv hl).1 hg
  cases this with
  | last before d after g _ => exact ⟨d, h1 d (by simp), g⟩

/-- C166. At any moment the attribute `model` holds nothing, or a merge of some of the submodels. -/
theorem C166_model {V : Type} (C : Checks V) (c : Makers V) (hc : FreshMakers c) (js : List Nat) :
    Merges (c.run C js).shared.subs (c.run C js).shared.model :=
  (sound_run C js c (sound_fresh C c hc)).model

/-- C166. Whatever a build raises is an error that some submodel, or some merge of submodels, really has; or else it says that building was given
up, and then another thread's build has raised such an error. -/
theorem C166_raised_partial {V : Type} (C : Checks V) (c : Makers V) (hc : FreshMakers c) (js : List Nat) (j : Nat) (e : BuildErr V)
    (h : (c.run C js).threads[j]? = some (.done (.error e))) :
    Reason C (c.run C js).shared.subs e ∨
      ((∃ i, e = .gaveUp i) ∧
        ∃ (k : Nat) (e' : BuildErr V), k ≠ j ∧ (c.run C js).threads[k]? = some (.done (.error e')) ∧ Reason C (c.run C js).shared.subs e') := by
  have hs := sound_run C js c (sound_fresh C c hc)
  have hf : Reason C (c.run C js).shared.subs e ∨ ∃ i, e = .gaveUp i := hs.fine _ (List.mem_of_getElem? h)
  rcases hf with hf | ⟨i, rfl⟩
  · exact .inl hf
  · right
    refine ⟨⟨i, rfl⟩, ?_⟩
    obtain ⟨e', h1, h2⟩ := hs.gaveUp i (List.mem_of_getElem? h)
    obtain ⟨k, hk⟩ := List.getElem?_of_mem h1
    refine ⟨k, e', ?_, hk, h2⟩
    intro hkj
    subst hkj
    rw [hk] at h
    cases h
    cases h2 with
    | subRaises d e x a b c => rcases c with ⟨c, _⟩ | c <;> cases c
    | merge m d e x a b c e' => rcases e' with ⟨c, _⟩ | c <;> cases c
    | modelRaises m e x a b c => rcases c with ⟨c, _⟩ | c <;> cases c

/-! ### Every build ends -/

/-- The accesses that a build has still to make, at most, with `n` submodels. -/
private def left {V : Type} (n : Nat) : MakerPc V → Nat
  | .begin => 10 + 4 * n
  | .clear => 9 + 4 * n
  | .pre i => 8 + 3 * n + (n - i)
  | .merge i => 6 + 3 * (n - i)
  | .into i _ => 5 + 3 * (n - i)
  | .write i _ => 4 + 3 * (n - i)
  | .check => 4
  | .asked i => if i = 1 then 7 + 3 * n else if i = 2 then 5 else if i = 3 then 3 else 2
  | .fails _ => 1
  | .final => 1
  | .done _ => 0
  | .add _ => 0

/-- Building, from a valid position. -/
private def Within {V : Type} (n : Nat) : MakerPc V → Prop
  | .into i _ => i < n
  | .write i _ => i < n
  | .add _ => False
  | _ => True

private theorem left_step {V : Type} (C : Checks V) (S : SharedMaker) (t : MakerPc V) (h : Within S.subs.length t) :
    (t.step C S).1.subs = S.subs ∧ Within S.subs.length (t.step C S).2 ∧
      left S.subs.length (t.step C S).2 ≤ left S.subs.length t - 1 := by
  match t, h with
  | .begin, _ => exact ⟨rfl, trivial, by simp [MakerPc.step, left]⟩
  | .clear, _ => exact ⟨rfl, trivial, by simp only [MakerPc.step, left]; omega⟩
  | .pre i, _ =>
    refine ⟨rfl, ?_⟩
    simp only [MakerPc.step]
    cases hg : S.subs[i]? with
    | none => exact ⟨trivial, by simp [left]; omega⟩
    | some d =>
      have hl : i < S.subs.length := by
        rcases Nat.lt_or_ge i S.subs.length with hl | hl
        · exact hl
        · rw [List.getElem?_eq_none hl] at hg; cases hg
      dsimp only
      cases C.first 1 true d with
      | none => exact ⟨trivial, by simp only [left]; omega⟩
      | some e => exact ⟨trivial, by simp only [left]; omega⟩
  | .merge i, _ =>
    refine ⟨rfl, ?_⟩
    simp only [MakerPc.step]
    cases hg : S.subs[i]? with
    | none => exact ⟨trivial, by simp [left]⟩
    | some d =>
      have hl : i < S.subs.length := by
        rcases Nat.lt_or_ge i S.subs.length with hl | hl
        · exact hl
        · rw [List.getElem?_eq_none hl] at hg; cases hg
      exact ⟨hl, by simp only [left]; omega⟩
  | .into i d, h =>
    refine ⟨rfl, ?_⟩
    simp only [MakerPc.step]
    cases mergeDoc S.model d with
    | ok m => exact ⟨h, by simp only [left]; omega⟩
    | error e => cases e <;> exact ⟨trivial, by show 1 ≤ _; simp only [left]; omega⟩
  | .write i m, h =>
    have h' : i < S.subs.length := h
    exact ⟨rfl, trivial, by simp only [MakerPc.step, left]; omega⟩
  | .check, _ =>
    refine ⟨rfl, ?_⟩
    simp only [MakerPc.step]
    cases C.first 3 false S.model with
    | none => exact ⟨trivial, by simp [left]⟩
    | some e => exact ⟨trivial, by simp [left]⟩
  | .asked i, _ =>
    refine ⟨rfl, ?_⟩
    simp only [MakerPc.step]
    by_cases h0 : S.errored = true
    · rw [if_pos h0]; exact ⟨trivial, by simp [left]⟩
    · rw [if_neg h0]
      by_cases h1 : i = 1
      · rw [if_pos h1]; exact ⟨trivial, by simp [left, h1]⟩
      · rw [if_neg h1]
        by_cases h2 : i = 2
        · rw [if_pos h2]; exact ⟨trivial, by simp [left, h2]⟩
        · rw [if_neg h2]
          by_cases h3 : i = 3
          · rw [if_pos h3]; exact ⟨trivial, by simp [left, h3]⟩
          · rw [if_neg h3]; exact ⟨trivial, by simp [left, h1, h2, h3]⟩
  | .fails e, _ => exact ⟨rfl, trivial, by simp [MakerPc.step, left]⟩
  | .final, _ => exact ⟨rfl, trivial, by simp [MakerPc.step, left]⟩
  | .done r, _ => exact ⟨rfl, trivial, by simp [MakerPc.step, left]⟩

private theorem left_zero {V : Type} (n : Nat) (t : MakerPc V) (h : Within n t) (h0 : left n t = 0) : ∃ r, t = .done r := by
  match t, h, h0 with
  | .done r, _, _ => exact ⟨r, rfl⟩
  | .asked i, _, h =>
    simp only [left] at h
    by_cases h1 : i = 1
    · rw [if_pos h1] at h; omega
    · rw [if_neg h1] at h
      by_cases h2 : i = 2
      · rw [if_pos h2] at h; cases h
      · rw [if_neg h2] at h
        by_cases h3 : i = 3
        · rw [if_pos h3] at h; cases h
        · rw [if_neg h3] at h; cases h
  | .begin, _, h => simp only [left] at h; omega
  | .clear, _, h => simp only [left] at h; omega
  | .pre _, _, h => simp only [left] at h; omega
  | .merge _, _, h => simp only [left] at h; omega
  | .into _ _, _, h => simp only [left] at h; omega
  | .write _ _, _, h => simp only [left] at h; omega
  | .check, _, h => cases h
  | .fails _, _, h => cases h
  | .final, _, h => cases h

private theorem left_run {V : Type} (C : Checks V) (n : Nat) (j : Nat) (js : List Nat) : ∀ (c : Makers V) (t : MakerPc V),
    c.shared.subs.length = n → (∀ t ∈ c.threads, Within n t) → c.threads[j]? = some t →
    ∃ t', (c.run C js).threads[j]? = some t' ∧ Within n t' ∧ left n t' ≤ left n t - js.count j := by
  induction js with
  | nil => exact fun c t hn hw ht => ⟨t, ht, hw t (List.mem_of_getElem? ht), by simp⟩
  | cons i js ih =>
    intro c t hn hw ht
    rw [run_cons]
    cases hi : c.threads[i]? with
    | none =>
      have hs : c.step C i = c := by simp only [Makers.step, hi]
      have hij : i ≠ j := by rintro rfl; rw [hi] at ht; cases ht
      rw [hs, List.count_cons_of_ne hij]
      exact ih c t hn hw ht
    | some u =>
      have hs : c.step C i = ⟨(u.step C c.shared).1, c.threads.set i (u.step C c.shared).2⟩ := by simp only [Makers.step, hi]
      rw [hs]
      subst hn
      obtain ⟨e1, e2, e3⟩ := left_step C c.shared u (hw u (List.mem_of_getElem? hi))
      have hw' : ∀ t ∈ c.threads.set i (u.step C c.shared).2, Within c.shared.subs.length t := by
        intro t' ht'
        rcases mem_set_of hi ht' with rfl | h
        · exact e2
        · exact hw t' h
      have hl : i < c.threads.length := by
        rcases Nat.lt_or_ge i c.threads.length with hl | hl
        · exact hl
        · rw [List.getElem?_eq_none hl] at hi; cases hi
      by_cases hij : i = j
      · subst hij
        rw [hi] at ht
        cases ht
        obtain ⟨t', a, b, d⟩ := ih ⟨(t.step C c.shared).1, c.threads.set i (t.step C c.shared).2⟩ (t.step C c.shared).2
          (by dsimp only; rw [e1]) hw' (by simp [hl])
        refine ⟨t', a, b, ?_⟩
        rw [List.count_cons_self]
        omega
      · rw [List.count_cons_of_ne hij]
        exact ih ⟨(u.step C c.shared).1, c.threads.set i (u.step C c.shared).2⟩ t (by dsimp only; rw [e1]) hw'
          (by dsimp only; rw [List.getElem?_set]; simp [hij, ht])

/-- C166. Threads that build at once all end, whatever the order of their accesses: each makes at most ten accesses and four for every
submodel. -/
theorem C166_ends {V : Type} (C : Checks V) (c : Makers V) (hb : ∀ t ∈ c.threads, t = .begin) (js : List Nat) (j : Nat) (hj : j < c.threads.length)
    (hn : 10 + 4 * c.shared.subs.length ≤ js.count j) : ∃ r, (c.run C js).threads[j]? = some (.done r) := by
  have ht : c.threads[j]? = some .begin := by
    rw [List.getElem?_eq_getElem hj, hb _ (List.getElem_mem hj)]
  obtain ⟨t', h1, h2, h3⟩ := left_run C _ j js c .begin rfl (fun t ht => by rw [hb t ht]; trivial) ht
  obtain ⟨r, rfl⟩ := left_zero _ t' h2 (by
    have hb : left (V := V) c.shared.subs.length .begin = 10 + 4 * c.shared.subs.length := rfl
    rw [hb] at h3
    omega)
  exact ⟨r, h1⟩

/-! ### What is lost -/

/-- A model must have a `mass`. -/
private def needsMass : Checks Str := ⟨fun pre d => match pre, d with
  | true, _ => ([], none)
  | false, .dict kvs => if (dget kvs "mass".toList).isSome then ([], none) else (["mass is required".toList], none)
  | false, _ => (["not a dictionary".toList], none)⟩

private def car : Doc := .dict [("mass".toList, .int 1200)]

private def twoBuild (subs : List Doc) : Makers Str := ⟨⟨subs, .null, false⟩, [.begin, .begin]⟩

/-- C166. That threads that build at once return what each would return alone is refuted: the model has been merged and has passed the validation
when another thread starts to build, and `build` returns `None`, which the schema does not allow. -/
theorem C166_returned_refuted :
    ¬ ∀ (C : Checks Str) (c : Makers Str), FreshMakers c → ∀ (js : List Nat) (j : Nat) (m : Doc),
      (c.run C js).threads[j]? = some (.done (.ok m)) → build C.maker (c.run C js).shared.subs = .ok m ∨ (C.check false m).1 = [] := by
  intro h
  have := h needsMass (twoBuild [car]) ⟨rfl, rfl, fun t ht => .inl (by simpa [twoBuild] using ht)⟩
    [0, 0, 0, 0, 0, 0, 0, 0, 0, 0, 0, 0, 0, 1, 1, 0] 0 .null rfl
  rcases this with h | h
  · have : build needsMass.maker [car] = .ok car := rfl
    have h2 : build needsMass.maker [car] = .ok .null := h
    rw [this] at h2
    cases h2
  · cases h

private def anything : Checks Str := ⟨fun _ _ => ([], none)⟩

/-- C166. That threads that build at once raise only what building raises is refuted: a number is replaced by a list that is given later, but if
another thread has put the list there first, merging the number into it is an error. -/
theorem C166_raised_refuted :
    ¬ ∀ (C : Checks Str) (c : Makers Str), FreshMakers c → ∀ (js : List Nat) (j : Nat) (e : BuildErr Str),
      (c.run C js).threads[j]? = some (.done (.error e)) → ∃ e', build C.maker (c.run C js).shared.subs = .error e' := by
  intro h
  obtain ⟨e', he⟩ := h anything (twoBuild [.int 5, .list [.int 1]]) ⟨rfl, rfl, fun t ht => .inl (by simpa [twoBuild] using ht)⟩
    [0, 0, 0, 0, 0, 0, 1, 1, 1, 1, 1, 1, 1, 1, 1, 1, 1, 1, 0, 0, 0, 0, 0, 0, 0] 0 (.failed 2 .typeError) rfl
  have : build anything.maker [.int 5, .list [.int 1]] = .ok (.list [.int 1]) := rfl
  have h2 : build anything.maker [.int 5, .list [.int 1]] = .error e' := he
  rw [this] at h2
  cases h2

/-! ### Examples -/

private def wheels : Doc := .dict [("wheels".toList, .int 4)]

private def crew : Makers Str := ⟨⟨[], .null, false⟩, [.add [car, .null], .add [wheels], .begin]⟩

/-- Two threads add submodels while a third builds. -/
example : FreshMakers crew := ⟨rfl, rfl, fun t ht => by
  simp only [crew, List.mem_cons, List.not_mem_nil, or_false] at ht
  rcases ht with rfl | rfl | rfl
  · exact .inr ⟨_, rfl⟩
  · exact .inr ⟨_, rfl⟩
  · exact .inl rfl⟩

example : (crew.run anything [2, 1, 2, 0, 2, 0]).shared.subs = [wheels, car, .null] := rfl

example : ∀ t ∈ (crew.run anything [2, 1, 2, 0, 2, 0]).threads, toAdd t = [] := by
  intro t ht
  have : (crew.run anything [2, 1, 2, 0, 2, 0]).threads = [.add [], .add [], .pre 1] := rfl
  rw [this] at ht
  simp only [List.mem_cons, List.not_mem_nil, or_false] at ht
  rcases ht with rfl | rfl | rfl <;> rfl

/-- A submodel that is added after the submodels were validated is merged all the same. -/
example : (crew.run anything ([1, 2, 2, 2, 2, 2, 0] ++ List.replicate 20 2)).threads[2]?
    = some (.done (.ok (.dict [("wheels".toList, .int 4), ("mass".toList, .int 1200)]))) := rfl

/-- Another thread's error: the submodel that has it was added in between. -/
private def noNumbers : Checks Str := ⟨fun pre d => match pre, d with
  | true, .int _ => (["a number".toList], none)
  | _, _ => ([], none)⟩

example : ((⟨⟨[car], .null, false⟩, [.begin, .begin, .add [.int 3]]⟩ : Makers Str).run noNumbers
    [0, 0, 0, 0, 2, 1, 1, 1, 1, 1, 0]).threads.take 2
    = [.done (.error (.gaveUp 1)), .done (.error (.found 1 "a number".toList))] := rfl

/-- Two builds, one after the other. -/
example : ((twoBuild [car, wheels]).run needsMass (List.replicate 18 0 ++ List.replicate 18 1)).threads =
    [.done (.ok (.dict [("mass".toList, .int 1200), ("wheels".toList, .int 4)])),
     .done (.ok (.dict [("mass".toList, .int 1200), ("wheels".toList, .int 4)]))] := rfl

/-- A value of what was built while submodels were added. -/
example : GivesAt (.dict [("wheels".toList, .int 4), ("mass".toList, .int 1200)]) ["mass".toList] (.int 1200) ∧ Scalar (.int 1200) ∧
    (¬ TextAndList (crew.run anything ([1, 2, 2, 2, 2, 2, 0] ++ List.replicate 20 2)).shared.subs ["mass".toList] (.int 1200)) ∧
    ∀ d ∈ (crew.run anything ([1, 2, 2, 2, 2, 2, 0] ++ List.replicate 20 2)).shared.subs, KeysOk d := by
  refine ⟨.inside _ _ _ _ _ rfl (.here _), .int _, fun ⟨⟨s, hs⟩, _⟩ => (by cases hs), ?_⟩
  have h3 : (crew.run anything ([1, 2, 2, 2, 2, 2, 0] ++ List.replicate 20 2)).shared.subs = [wheels, car] := rfl
  rw [h3]
  intro d hd
  simp only [List.mem_cons, List.not_mem_nil, or_false] at hd
  rcases hd with rfl | rfl
  · exact .dict _ (by decide) (by simp; exact .int _)
  · exact .dict _ (by decide) (by simp; exact .int _)

/-- Submodels that nowhere disagree, and an order of accesses in which they are added the other way round. -/
private def adders : Makers Str := ⟨⟨[], .null, false⟩, [.add [car], .add [wheels]]⟩

private def noAsk : VFlags := ⟨⟨some false, some false, some false, fun _ => false⟩, fun _ => true⟩

private def anySchema : CSchema := .mk [] false none none none none

example : ¬ Asked noAsk ∧ (∀ t ∈ (adders.run anything [0, 1]).threads, toAdd t = []) ∧ (∀ t ∈ (adders.run anything [1, 0]).threads, toAdd t = []) ∧
    (∀ d ∈ (adders.run anything [0, 1]).shared.subs, KeysOk d) ∧
    (∀ a ∈ (adders.run anything [0, 1]).shared.subs, ∀ b ∈ (adders.run anything [0, 1]).shared.subs, Agree a b) ∧
    build (combinedMaker noAsk (fun _ => none) 9 anySchema anySchema) (adders.run anything [0, 1]).shared.subs
      = .ok (.dict [("mass".toList, .int 1200), ("wheels".toList, .int 4)]) ∧
    build (combinedMaker noAsk (fun _ => none) 9 anySchema anySchema) (adders.run anything [1, 0]).shared.subs
      = .ok (.dict [("wheels".toList, .int 4), ("mass".toList, .int 1200)]) := by
  have h1 : (adders.run anything [0, 1]).threads = [.add [], .add []] := rfl
  have h2 : (adders.run anything [1, 0]).threads = [.add [], .add []] := rfl
  have h3 : (adders.run anything [0, 1]).shared.subs = [car, wheels] := rfl
  have hself : ∀ (k : Str) (i : Int), Agree (.dict [(k, .int i)]) (.dict [(k, .int i)]) := by
    intro k i
    refine .objects _ _ (fun k' x y hx hy => ?_)
    rw [hx] at hy
    cases hy
    have : x = .int i := by
      have := mem_of_dget hx
      simp only [List.mem_singleton, Prod.mk.injEq] at this
      exact this.2
    rw [this]
    exact .same _ (by simp [isDict])
  refine ⟨by simp [Asked, noAsk], ?_, ?_, ?_, ?_, rfl, rfl⟩
  · rw [h1]; intro t ht; simp at ht; subst ht; rfl
  · rw [h2]; intro t ht; simp at ht; subst ht; rfl
  · rw [h3]
    intro d hd
    simp only [List.mem_cons, List.not_mem_nil, or_false] at hd
    rcases hd with rfl | rfl
    · exact .dict _ (by decide) (by simp; exact .int _)
    · exact .dict _ (by decide) (by simp; exact .int _)
  · rw [h3]
    intro a ha b hb
    simp only [List.mem_cons, List.not_mem_nil, or_false] at ha hb
    rcases ha with rfl | rfl <;> rcases hb with rfl | rfl
    · exact hself _ _
    · refine .objects _ _ (fun k x y hx hy => ?_)
      have e1 := mem_of_dget hx
      have e2 := mem_of_dget hy
      simp at e1 e2
      rw [e1.1] at e2
      exact absurd e2.1 (by decide)
    · refine .objects _ _ (fun k x y hx hy => ?_)
      have e1 := mem_of_dget hx
      have e2 := mem_of_dget hy
      simp at e1 e2
      rw [e1.1] at e2
      exact absurd e2.1 (by decide)
    · exact hself _ _

/-- The bound on accesses is met by a schedule that takes turns. -/
example : 10 + 4 * (twoBuild [car]).shared.subs.length ≤ (List.flatten (List.replicate 14 [0, 1])).count 0 := by decide

end Props
