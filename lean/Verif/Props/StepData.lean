import Verif.Spec.StepData
import Verif.Props.SetMany
import Verif.Props.PstepPaths
/-
C146: documents are written and read through the paths of steps.
-/
namespace Props
open Py Model Spec Lemmas

private theorem esc_plain {k : Str} (h : Plain k) : esc k = k := by
  obtain ⟨h1, h2⟩ := h
  induction k with
  | nil => rfl
  | cons c t ih =>
    simp only [List.mem_cons, not_or] at h1 h2
    have := ih h1.2 h2.2
    simp only [esc, List.flatMap_cons] at this ⊢
    rw [this]
    simp [escChar, Ne.symm h1.1, Ne.symm h2.1]

private theorem text_pointer : ∀ (p : List Str), (∀ k ∈ p, Plain k) → pathText ("".toList :: p) = pointerOf p := by
  have key : ∀ (p : List Str), (∀ k ∈ p, Plain k) → ∀ x, pathText (x :: p) = x ++ pointerOf p := by
    intro p
    induction p with
    | nil => intro _ x; simp [pathText, join, pointerOf]
    | cons k ks ih =>
      intro h x
      have h' := ih (fun y hy => h y (List.mem_cons_of_mem _ hy)) k
      simp only [pathText, join] at h' ⊢
      rw [h']
      simp [pointerOf, esc_plain (h k (List.mem_cons_self ..))]
  intro p h
  exact key p h _

private theorem before_ne {x y : Str} (h : TextBefore x y) : x ≠ y := by
  rintro rfl
  rcases h with ⟨c, t, h⟩ | ⟨p, a, s, b, t, h1, h2, h3⟩
  · have := congrArg List.length h
    simp at this
  · rw [h1] at h2
    have := List.append_cancel_left h2
    injection this with e1 _
    rw [e1] at h3; omega

private theorem chains_of {paths : List (List Str)} : ∀ (l : List Str),
    (∀ x ∈ l, ∃ p, Maximal paths p ∧ x = pathText ("".toList :: p)) →
    ∃ ps : List (List Str), l = ps.map (fun p => pathText ("".toList :: p)) ∧ ∀ p ∈ ps, Maximal paths p := by
  intro l
  induction l with
  | nil => intro _; exact ⟨[], rfl, fun p hp => by cases hp⟩
  | cons x t ih =>
    intro h
    obtain ⟨ps, h1, h2⟩ := ih (fun y hy => h y (List.mem_cons_of_mem _ hy))
    obtain ⟨p, hp, rfl⟩ := h x (List.mem_cons_self ..)
    refine ⟨p :: ps, by rw [h1]; rfl, ?_⟩
    intro q hq
    rcases List.mem_cons.1 hq with rfl | hq
    · exact hp
    · exact h2 q hq

private theorem maximal_unrelated {paths : List (List Str)} {p q : List Str} (hp : Maximal paths p) (hq : Maximal paths q)
    (hne : p ≠ q) : Unrelated p q := by
  have key : ∀ {p q : List Str}, Maximal paths p → Maximal paths q → p ≠ q → ¬ p <+: q := by
    intro p q hp hq hne hpre
    rcases List.mem_cons.1 hq.1 with rfl | h
    · exact hne (List.prefix_nil.1 hpre)
    · exact hne (hp.2 q h hpre).symm
  exact ⟨key hp hq hne, key hq hp (fun e => hne e.symm)⟩

/-- C146. Make an absolute step without mappings, and read any chains of attributes from it. Then values can be set at all
the paths it reports, in any document whose values on the way are no lists. Afterwards each path reads the value set
there, and so does following the texts of the steps of the chain, one after the other.
Missing for the full property: mappings that rename steps to texts with slashes, see `C146_slashes_refuted`. -/
theorem C146_written_is_read_partial (F : Nat) (E : RegexLib) (h : List PmodObj) (paths : List (List Str))
    (hnames : ∀ p ∈ paths, ∀ k ∈ p, StepName k ∧ Ordinary k ∧ Plain k) (hsome : ∃ p ∈ paths, p ≠ [])
    (hF : ∀ p ∈ [] :: paths, p.length < F) (kvs : List (Str × Doc)) (hl : ∀ p ∈ paths, MeetsNoList (.dict kvs) p)
    (value : Str → Doc) :
    ∃ σ0 r σ l d, newStep F E ⟨h, [], []⟩ "".toList .none none [] = (σ0, .ok r) ∧ readPaths F E σ0 r paths = .ok σ ∧
      pstepPaths F σ r none = .ok l ∧ SetEach value (.dict kvs) l d ∧
      (∀ x ∈ l, resolveJsonPointer d x none = .ok (value x)) ∧
      ∀ p, Maximal paths p → Walk d (p.map Step.key) (value (pathText ("".toList :: p))) := by
  obtain ⟨σ0, r, σ, l, h1, h2, h3, h4, h5⟩ := C19_paths_are_maximal F E h "".toList paths (.inl rfl)
    (fun p hp k hk => ⟨(hnames p hp k hk).1, (hnames p hp k hk).2.1⟩) hF
  obtain ⟨ps, hps, hmax⟩ := chains_of l (fun x hx => (h5 x).1 hx)
  have hne : ∀ p, Maximal paths p → p ∈ paths ∧ p ≠ [] := by
    intro p hp
    obtain ⟨q, hq, hq'⟩ := hsome
    have hn : p ≠ [] := by
      rintro rfl
      exact hq' (hp.2 q hq List.nil_prefix)
    rcases List.mem_cons.1 hp.1 with rfl | h
    · exact absurd rfl hn
    · exact ⟨h, hn⟩
  have hplain : ∀ p, Maximal paths p → pathText ("".toList :: p) = pointerOf p := fun p hp =>
    text_pointer p (fun k hk => (hnames p (hne p hp).1 k hk).2.2)
  let sets : List (List Str × Doc) := ps.map (fun p => (p, value (pathText ("".toList :: p))))
  have mem : ∀ s ∈ sets, Maximal paths s.1 ∧ s.2 = value (pathText ("".toList :: s.1)) := by
    intro s hs
    obtain ⟨p, hp, rfl⟩ := List.mem_map.1 hs
    exact ⟨hmax p hp, rfl⟩
  have hpw : sets.Pairwise (fun a b => Unrelated a.1 b.1) := by
    rw [List.pairwise_map]
    have h4' : (ps.map (fun p => pathText ("".toList :: p))).Pairwise TextBefore := hps ▸ h4
    rw [List.pairwise_map] at h4'
    refine h4'.imp_of_mem (fun {a b} ha hb hab => ?_)
    exact maximal_unrelated (hmax a ha) (hmax b hb) (by rintro rfl; exact before_ne hab rfl)
  obtain ⟨d, g1, g2⟩ := C137_all kvs sets (fun s hs => (hne _ (mem s hs).1).2) (fun s hs => hl _ (hne _ (mem s hs).1).1) hpw
  have g3 := C137_keys kvs sets (fun s hs => (hne _ (mem s hs).1).2) (fun s hs => hl _ (hne _ (mem s hs).1).1) hpw d g1
  refine ⟨σ0, r, σ, l, d, h1, h2, h3, ?_, ?_, ?_⟩
  · have key : ∀ (ps : List (List Str)), (∀ p ∈ ps, Maximal paths p) → ∀ d0 d, SetAll d0 (ps.map (fun p => (p, value (pathText ("".toList :: p))))) d →
        SetEach value d0 (ps.map (fun p => pathText ("".toList :: p))) d := by
      intro ps
      induction ps with
      | nil => intro _ d0 d h; cases h; exact .nil _
      | cons p ps ih =>
        intro hm d0 d h
        cases h with
        | cons _ d1 _ _ _ _ e rest =>
          refine .cons _ d1 _ _ _ ?_ (ih (fun q hq => hm q (List.mem_cons_of_mem _ hq)) _ _ rest)
          have := hplain p (hm p (List.mem_cons_self ..))
          rw [← this] at e
          exact e
    rw [hps]
    exact key ps hmax _ _ g1
  · intro x hx
    rw [hps] at hx
    obtain ⟨p, hp, rfl⟩ := List.mem_map.1 hx
    have := g2 _ (List.mem_map.2 ⟨p, hp, rfl⟩)
    simp only [← hplain p (hmax p hp)] at this
    exact this
  · intro p hp
    have hx : pathText ("".toList :: p) ∈ ps.map (fun p => pathText ("".toList :: p)) := hps ▸ (h5 _).2 ⟨p, hp, rfl⟩
    obtain ⟨q, hq, e⟩ := List.mem_map.1 hx
    have hqp : q = p := by
      have e' : pointerOf q = pointerOf p := by rw [← hplain q (hmax q hq), ← hplain p hp]; exact e
      have := congrArg iterParts e'
      rw [iterParts_pointerOf, iterParts_pointerOf] at this
      injection this
    subst hqp
    exact g3 _ (List.mem_map.2 ⟨q, hq, rfl⟩)

/-- C146, violated: with `/a` mapped to `x~1y`, the escaped `x/y`, the text of the step is `x/y`, but its path is not escaped
again. A value set there is found under `x` and then `y`, not under the text of the step. -/
theorem C146_slashes_refuted :
    let h : List PmodObj := [⟨none, [("".toList, 1)], []⟩, ⟨none, [("a".toList, 2)], []⟩, ⟨some "x~1y".toList, [], []⟩]
    let σ0 := (newStep 9 Tests.toy ⟨h, [], []⟩ "".toList (.pmod 0) none []).1
    let r := getAttr 9 Tests.toy σ0 0 "a".toList
    (match r.2, pstepPaths 9 r.1 0 none with
      | .ok (some c), .ok l => textOf r.1 c == some "x/y".toList && l == ["/x/y".toList]
      | _, _ => false) = true ∧
    setJsonPointer (.dict []) "/x/y".toList (.int 7) = .ok (.dict [("x".toList, .dict [("y".toList, .int 7)])]) ∧
    ¬ ∃ v, Walk (.dict [("x".toList, .dict [("y".toList, .int 7)])]) [.key "x/y".toList] v := by
  refine ⟨by decide +kernel, rfl, ?_⟩
  rintro ⟨v, hw⟩
  generalize hd : (Doc.dict [("x".toList, .dict [("y".toList, .int 7)])]) = d at hw
  cases hw with
  | key before after k d steps v hk hw =>
    injection hd with hd
    cases before with
    | nil => injection hd with e _; injection e with e _; exact absurd e (by decide)
    | cons b bs =>
      injection hd with _ e
      cases bs <;> cases e

/-- C146, with mappings. Take mappings that stand for the hierarchy `pm`, make a step from them, and read any chains of attributes from it. Where each
chain is mapped to a path of plain names, and of different ones neither leads through the other, values can be set at all the paths the step
reports, in any document whose values on the way are no lists. Afterwards each path reads the value set there, and so does following the
names that a chain is mapped to.
Missing for the full property: paths of which one leads through the other, see `C146_through_refuted`, and texts with slashes. -/
theorem C146_mapped_partial (F : Nat) (E : RegexLib) (h : List PmodObj) (r : Nat) (pm : Pmod)
    (σ0 σ : PsState) (s : Nat) (paths : List (List Str))
    (hden : Den h r pm) (hpm : pm.alias = none) (hdepth : depth pm ≤ F)
    (hstep : newStep F E ⟨h, [], []⟩ "".toList (.pmod r) none [] = (σ0, .ok s))
    (hread : readPaths F E σ0 s paths = .ok σ)
    (hnames : ∀ p ∈ paths, ∀ k ∈ p, StepName k ∧ Ordinary k ∧ Plain k)
    (halias : ∀ p ∈ [] :: paths, ∀ a as, AliasesAlong E (some pm) ("".toList :: p) (a :: as) →
      (∀ x, a = some x → RootAlias x) ∧ ∀ x, some x ∈ as → RelativeAlias x)
    (hF : ∀ p ∈ [] :: paths, p.length < F)
    (names : List Str → List Str)
    (hmap : ∀ p, Maximal paths p → pm.mapPath E (pathText ("".toList :: p)) = .ok (pathText ("".toList :: names p)))
    (hplain : ∀ p, Maximal paths p → names p ≠ [] ∧ ∀ k ∈ names p, Plain k)
    (hun : ∀ p q, Maximal paths p → Maximal paths q → names p = names q ∨ Unrelated (names p) (names q))
    (kvs : List (Str × Doc)) (hl : ∀ p, Maximal paths p → MeetsNoList (.dict kvs) (names p)) (value : Str → Doc) :
    ∃ l d, pstepPaths F σ s none = .ok l ∧ SetEach value (.dict kvs) l d ∧
      (∀ x ∈ l, resolveJsonPointer d x none = .ok (value x)) ∧
      ∀ p, Maximal paths p → pathText ("".toList :: names p) ∈ l ∧ Walk d ((names p).map Step.key) (value (pathText ("".toList :: names p))) := by
  obtain ⟨l, h3, h4, h5⟩ := C24_step_paths_are_mapped_paths F E h r pm σ0 σ s paths hden hpm hdepth hstep hread hnames halias hF
  have hptr : ∀ p, Maximal paths p → pathText ("".toList :: names p) = pointerOf (names p) := fun p hp => text_pointer _ (hplain p hp).2
  have hin : ∀ p, Maximal paths p → pathText ("".toList :: names p) ∈ l := fun p hp => (h5 _).2 ⟨p, hp, hmap p hp⟩
  obtain ⟨ps, hps, hmax⟩ : ∃ ps : List (List Str), l = ps.map (fun p => pathText ("".toList :: names p)) ∧ ∀ p ∈ ps, Maximal paths p := by
    have key : ∀ (l : List Str), (∀ x ∈ l, ∃ p, Maximal paths p ∧ pm.mapPath E (pathText ("".toList :: p)) = .ok x) →
        ∃ ps : List (List Str), l = ps.map (fun p => pathText ("".toList :: names p)) ∧ ∀ p ∈ ps, Maximal paths p := by
      intro l
      induction l with
      | nil => intro _; exact ⟨[], rfl, fun p hp => by cases hp⟩
      | cons x t ih =>
        intro h
        obtain ⟨ps, h1, h2⟩ := ih (fun y hy => h y (List.mem_cons_of_mem _ hy))
        obtain ⟨p, hp, hx⟩ := h x (List.mem_cons_self ..)
        have e : x = pathText ("".toList :: names p) := by
          have := (hmap p hp).symm.trans hx
          injection this with this
          exact this.symm
        refine ⟨p :: ps, by rw [h1, e]; rfl, ?_⟩
        intro q hq
        rcases List.mem_cons.1 hq with rfl | hq
        · exact hp
        · exact h2 q hq
    exact key l (fun x hx => (h5 x).1 hx)
  let sets : List (List Str × Doc) := ps.map (fun p => (names p, value (pathText ("".toList :: names p))))
  have mem : ∀ t ∈ sets, ∃ p, Maximal paths p ∧ t.1 = names p := by
    intro t ht
    obtain ⟨p, hp, rfl⟩ := List.mem_map.1 ht
    exact ⟨p, hmax p hp, rfl⟩
  have hne : ∀ t ∈ sets, t.1 ≠ [] := by
    intro t ht
    obtain ⟨p, hp, e⟩ := mem t ht
    rw [e]
    exact (hplain p hp).1
  have hl' : ∀ t ∈ sets, MeetsNoList (.dict kvs) t.1 := by
    intro t ht
    obtain ⟨p, hp, e⟩ := mem t ht
    rw [e]
    exact hl p hp
  have hpw : sets.Pairwise (fun a b => Unrelated a.1 b.1) := by
    rw [List.pairwise_map]
    have h4' : (ps.map (fun p => pathText ("".toList :: names p))).Pairwise TextBefore := hps ▸ h4
    rw [List.pairwise_map] at h4'
    refine h4'.imp_of_mem (fun {a b} ha hb hab => ?_)
    rcases hun a b (hmax a ha) (hmax b hb) with e | e
    · exact absurd (by rw [e]) (before_ne hab)
    · exact e
  obtain ⟨d, g1, g2⟩ := C137_all kvs sets hne hl' hpw
  have g3 := C137_keys kvs sets hne hl' hpw d g1
  refine ⟨l, d, h3, ?_, ?_, ?_⟩
  · have key : ∀ (ps : List (List Str)), (∀ p ∈ ps, Maximal paths p) → ∀ d0 d,
        SetAll d0 (ps.map (fun p => (names p, value (pathText ("".toList :: names p))))) d →
        SetEach value d0 (ps.map (fun p => pathText ("".toList :: names p))) d := by
      intro ps
      induction ps with
      | nil => intro _ d0 d h; cases h; exact .nil _
      | cons p ps ih =>
        intro hm d0 d h
        cases h with
        | cons _ d1 _ _ _ _ e rest =>
          refine .cons _ d1 _ _ _ ?_ (ih (fun q hq => hm q (List.mem_cons_of_mem _ hq)) _ _ rest)
          have := hptr p (hm p (List.mem_cons_self ..))
          rw [← this] at e
          exact e
    rw [hps]
    exact key ps hmax _ _ g1
  · intro x hx
    rw [hps] at hx
    obtain ⟨p, hp, rfl⟩ := List.mem_map.1 hx
    have := g2 _ (List.mem_map.2 ⟨p, hp, rfl⟩)
    simp only [← hptr p (hmax p hp)] at this
    exact this
  · intro p hp
    refine ⟨hin p hp, ?_⟩
    have hx : pathText ("".toList :: names p) ∈ ps.map (fun p => pathText ("".toList :: names p)) := hps ▸ hin p hp
    obtain ⟨q, hq, e⟩ := List.mem_map.1 hx
    have hqp : names q = names p := by
      have e' : pointerOf (names q) = pointerOf (names p) := by rw [← hptr q (hmax q hq), ← hptr p hp]; exact e
      have := congrArg iterParts e'
      rw [iterParts_pointerOf, iterParts_pointerOf] at this
      injection this
    rw [← hqp]
    exact g3 _ (List.mem_map.2 ⟨q, hq, rfl⟩)

/-- What the chains of the mappings beside C24 are mapped to meets the hypotheses about `names` there. -/
example : ∃ names : List Str → List Str,
    (∀ p, Maximal [["a".toList, "b".toList], ["c".toList]] p →
      treeAB.mapPath Tests.toy (pathText ("".toList :: p)) = .ok (pathText ("".toList :: names p)) ∧
      (names p ≠ [] ∧ ∀ k ∈ names p, Plain k) ∧ MeetsNoList (.dict []) (names p)) ∧
    ∀ p q, Maximal [["a".toList, "b".toList], ["c".toList]] p → Maximal [["a".toList, "b".toList], ["c".toList]] q →
      names p = names q ∨ Unrelated (names p) (names q) := by
  have hmax : ∀ p, Maximal [["a".toList, "b".toList], ["c".toList]] p → p = ["a".toList, "b".toList] ∨ p = ["c".toList] := by
    rintro p ⟨h1, h2⟩
    simp only [List.mem_cons, List.not_mem_nil, or_false] at h1
    rcases h1 with rfl | h1
    · exact absurd (h2 ["c".toList] (by simp) (List.nil_prefix)) (by simp)
    · exact h1
  refine ⟨fun p => if p = ["c".toList] then ["c".toList] else ["A".toList, "x".toList, "B".toList], ?_, ?_⟩
  · have hd : ∀ p : List Str, MeetsNoList (.dict []) p := by
      intro p pre post xs e hr
      generalize hd : (Doc.dict []) = d at hr
      cases hr with
      | key before after k d ps v hk hr =>
        injection hd with hd
        cases before <;> cases hd
      | _ => cases hd
    intro p hp
    refine ⟨?_, ?_, hd _⟩
    · rcases hmax p hp with rfl | rfl <;> rfl
    · rcases hmax p hp with rfl | rfl <;> (refine ⟨by decide, ?_⟩; unfold Plain; decide)
  · intro p q hp hq
    rcases hmax p hp with rfl | rfl <;> rcases hmax q hq with rfl | rfl
    · exact .inl rfl
    · right; unfold Unrelated; decide
    · right; unfold Unrelated; decide
    · exact .inl rfl

/-- C146, violated for paths of which one leads through the other: with `/a` mapped to `x` and `/b` to `x/y`, setting `/x/y` replaces the value
that was set at `/x`. -/
theorem C146_through_refuted :
    let h : List PmodObj := [⟨none, [("".toList, 1)], []⟩, ⟨none, [("a".toList, 2), ("b".toList, 3)], []⟩, ⟨some "x".toList, [], []⟩,
      ⟨some "x/y".toList, [], []⟩]
    (match readPaths 9 Tests.toy (newStep 9 Tests.toy ⟨h, [], []⟩ "".toList (.pmod 0) none []).1 0 [["a".toList], ["b".toList]] with
      | .ok σ => (match pstepPaths 9 σ 0 none with
        | .ok l => l == ["/x".toList, "/x/y".toList]
        | .error _ => false)
      | .error _ => false) = true ∧
    ∀ d, SetEach (fun _ => .int 7) (.dict []) ["/x".toList, "/x/y".toList] d →
      resolveJsonPointer d "/x".toList none = .ok (.dict [("y".toList, .int 7)]) := by
  refine ⟨by decide +kernel, ?_⟩
  intro d h
  cases h with
  | cons _ d1 _ _ _ h1 h =>
    have e : d1 = .dict [("x".toList, .int 7)] := by
      have h2 : setJsonPointer (.dict []) "/x".toList (.int 7) = .ok (.dict [("x".toList, .int 7)]) := rfl
      have := h1.symm.trans h2
      injection this
    subst e
    cases h with
    | cons _ d2 _ _ _ h1 h =>
      have e : d2 = .dict [("x".toList, .dict [("y".toList, .int 7)])] := by
        have h2 : setJsonPointer (.dict [("x".toList, .int 7)]) "/x/y".toList (.int 7) =
            .ok (.dict [("x".toList, .dict [("y".toList, .int 7)])]) := rfl
        have := h1.symm.trans h2
        injection this
      subst e
      cases h
      rfl

/-- Two chains, in a document with a list elsewhere. -/
example : (∀ p ∈ [["a".toList, "b".toList], ["c".toList]], ∀ k ∈ p, StepName k ∧ Ordinary k ∧ Plain k) ∧
    (∀ p ∈ [["a".toList, "b".toList], ["c".toList]], MeetsNoList (.dict [("q".toList, .list [])]) p) := by
  constructor
  · unfold StepName Ordinary Plain; decide +kernel
  · intro p hp pre post xs e hr
    generalize hd : (Doc.dict [("q".toList, .list [])]) = d at hr
    cases pre with
    | nil => cases hr; cases hd
    | cons k ks =>
      cases hr with
      | key before after k d ps v hk hr =>
        injection hd with hd
        cases before with
        | nil =>
          injection hd with e' _; injection e' with e' _
          subst e'
          simp only [List.mem_cons, List.not_mem_nil, or_false] at hp
          rcases hp with rfl | rfl <;> (injection e with e _; exact absurd e (by decide))
        | cons b bs =>
          injection hd with _ e
          cases bs <;> cases e
      | _ => cases hd

end Props
