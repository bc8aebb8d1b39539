import Verif.Lemmas.PstepTree
/-
Tagging steps of a tree.
-/
set_option linter.unusedSimpArgs false
namespace Lemmas
open Py Model Spec

theorem mem_addTag' {t x : Str} {ts : List Str} : x ∈ addTag ts t ↔ x ∈ ts ∨ x = t := by
  unfold addTag
  split
  · next h => constructor
              · exact .inl
              · rintro (h1 | rfl)
                · exact h1
                · exact h
  · simp

theorem mem_foldl_addTag {x : Str} (l : List Str) : ∀ ts, x ∈ l.foldl addTag ts ↔ x ∈ ts ∨ x ∈ l := by
  induction l with
  | nil => intro ts; simp
  | cons y l ih =>
    intro ts
    rw [List.foldl_cons, ih, mem_addTag', List.mem_cons]
    constructor
    · rintro ((h | h) | h) <;> simp [h]
    · rintro (h | h | h) <;> simp [h]

/-- The same tree but for tags, original names and locks. -/
structure SameTree (σ σ' : PsState) : Prop where
  pmods : σ'.pmods = σ.pmods
  dicts : σ'.dicts = σ.dicts
  length : σ'.steps.length = σ.steps.length
  steps : ∀ (i : Nat) (o : StepObj), σ.steps[i]? = some o → ∃ o', σ'.steps[i]? = some o' ∧ o'.pmod = o.pmod ∧
    o'.csteps = o.csteps ∧ o'.name = o.name

theorem SameTree.symm {σ σ' : PsState} (h : SameTree σ σ') : SameTree σ' σ := by
  refine ⟨h.pmods.symm, h.dicts.symm, h.length.symm, fun i o' hi => ?_⟩
  have hlt := (List.getElem?_eq_some_iff.1 hi).1
  rw [h.length] at hlt
  have hx := List.getElem?_eq_getElem hlt
  obtain ⟨o2, h1, h2, h3, h4⟩ := h.steps i _ hx
  rw [hi] at h1; injection h1 with h1; subst h1
  exact ⟨_, hx, h2.symm, h3.symm, h4.symm⟩

theorem SameTree.kids {σ σ' : PsState} (h : SameTree σ σ') {o o' : StepObj} (e : o'.csteps = o.csteps) :
    σ'.kids o' = σ.kids o := by
  unfold PsState.kids; rw [e, h.dicts]

theorem SameTree.edge {σ σ' : PsState} (h : SameTree σ σ') {s : Nat} {k : Str} {c : Nat} (he : Edge σ s k c) :
    Edge σ' s k c := by
  obtain ⟨o, h1, h2⟩ := he
  obtain ⟨o', g1, _, g3, _⟩ := h.steps s o h1
  exact ⟨o', g1, by rw [h.kids g3]; exact h2⟩

theorem SameTree.walk {σ σ' : PsState} (h : SameTree σ σ') {s : Nat} {ks : List Str} {rs : List Nat} (hw : Walk σ s ks rs) :
    Walk σ' s ks rs := by
  induction hw with
  | nil s => exact .nil s
  | cons s k c ks rs he _ ih => exact .cons s k c ks rs (h.edge he) ih

theorem SameTree.tidy {D : Nat} {E : RegexLib} {σ σ' : PsState} (h : SameTree σ σ') (ht : Tidy D E σ) : Tidy D E σ' := by
  have hb := h.symm
  constructor
  · intro i j oi oj d hi hj h1 h2
    obtain ⟨a, a1, _, a3, _⟩ := hb.steps i oi hi
    obtain ⟨b, b1, _, b3, _⟩ := hb.steps j oj hj
    exact ht.unshared i j a b d a1 b1 (a3.trans h1) (b3.trans h2)
  · intro i o d hi h1
    obtain ⟨a, a1, _, a3, _⟩ := hb.steps i o hi
    rw [h.dicts]; exact ht.valid i a d a1 (a3.trans h1)
  · intro i o hi
    obtain ⟨a, a1, _, a3, _⟩ := hb.steps i o hi
    rw [← hb.kids a3]; exact ht.keys i a a1
  · intro s k c he; rw [h.length]; exact ht.up s k c (hb.edge he)
  · intro s k s' k' c he he'; exact ht.parent s k s' k' c (hb.edge he) (hb.edge he')
  · intro i o hi
    obtain ⟨a, a1, a2, _⟩ := hb.steps i o hi
    rw [h.pmods, ← a2]; exact ht.den i a a1
  · intro s k c os he hs
    obtain ⟨a, a1, a2, _⟩ := hb.steps s os hs
    obtain ⟨oc, t, t', al, h1, h2, h3, h4, h5, h6⟩ := ht.link s k c a (hb.edge he) a1
    obtain ⟨oc', c1, c2, _, c4⟩ := h.steps c oc h1
    exact ⟨oc', t, t', al, c1, by rw [h.pmods, ← a2]; exact h2, h3, by rw [h.pmods, c2]; exact h4,
      by rw [c4]; exact h5, by rw [c4]; exact h6⟩

theorem sameTree_set {σ : PsState} {s : Nat} {o o' : StepObj} (hs : σ.steps[s]? = some o) (h1 : o'.pmod = o.pmod)
    (h2 : o'.csteps = o.csteps) (h3 : o'.name = o.name) : SameTree σ { σ with steps := σ.steps.set s o' } := by
  refine ⟨rfl, rfl, by simp, fun i oi hi => ?_⟩
  by_cases e : s = i
  · subst e
    rw [hs] at hi; injection hi with hi; subst hi
    exact ⟨o', by simp only; rw [List.getElem?_set_self (List.getElem?_eq_some_iff.1 hs).1], h1, h2, h3⟩
  · exact ⟨oi, by simp only; rw [List.getElem?_set_ne e]; exact hi, rfl, rfl, rfl⟩

theorem SameTree.refl (σ : PsState) : SameTree σ σ := ⟨rfl, rfl, rfl, fun _ o h => ⟨o, h, rfl, rfl, rfl⟩⟩

/-- Tagging a step. -/
theorem tagStep_spec {σ : PsState} {s : Nat} {o : StepObj} (hs : σ.steps[s]? = some o) (tags : List Str) :
    SameTree σ (tagStep σ s tags) ∧
    (∃ o', (tagStep σ s tags).steps[s]? = some o' ∧ ∀ t, t ∈ o'.tags ↔ t ∈ o.tags ∨ t ∈ tags) ∧
    ∀ i, i ≠ s → (tagStep σ s tags).steps[i]? = σ.steps[i]? := by
  have hlt := (List.getElem?_eq_some_iff.1 hs).1
  unfold tagStep
  simp only [hs]
  split
  · next he =>
    rw [List.isEmpty_iff] at he
    split
    · next he' =>
      rw [List.isEmpty_iff] at he'
      exact ⟨SameTree.refl σ, ⟨o, hs, by simp [he']⟩, fun _ _ => rfl⟩
    · refine ⟨sameTree_set hs rfl rfl rfl, ⟨_, by simp only; rw [List.getElem?_set_self hlt], fun t => ?_⟩, fun i hi => ?_⟩
      · simp only [mem_foldl_addTag, he]
      · simp only; rw [List.getElem?_set_ne (Ne.symm hi)]
  · refine ⟨sameTree_set hs rfl rfl rfl, ⟨_, by simp only; rw [List.getElem?_set_self hlt], fun t => ?_⟩, fun i hi => ?_⟩
    · simp only [mem_foldl_addTag]
    · simp only; rw [List.getElem?_set_ne (Ne.symm hi)]

/-- The tags of the steps below `r`, given which were put where. -/
def TagsAre (σ : PsState) (r : Nat) (put : List Str → Str → Prop) : Prop :=
  ∀ ks rs, Walk σ r ks rs → ∃ o, σ.steps[lastOf r rs]? = some o ∧ ∀ t, t ∈ o.tags ↔ put ks t

theorem tagPaths_tidy {D F : Nat} {E : RegexLib} (hF : D ≤ F) {r : Nat} (ops : List (List Str × List Str)) :
    ∀ {σ : PsState} {o : StepObj} {t : Option Pmod} {put : List Str → Str → Prop}, Tidy D E σ →
    (∀ op ∈ ops, ReadNames op.1) → σ.steps[r]? = some o → DenOpt σ.pmods o.pmod t → TagsAre σ r put →
    (∀ ks tg, put ks tg → Walkable σ r ks) →
    ((∀ op ∈ ops, ∃ as u, Along E t op.1 as u) → ∃ σ', tagPaths F E σ r ops = .ok σ') ∧
    ∀ {σ' : PsState}, tagPaths F E σ r ops = .ok σ' →
      Tidy D E σ' ∧ (∃ o', σ'.steps[r]? = some o' ∧ DenOpt σ'.pmods o'.pmod t ∧ o'.name = o.name) ∧
      (∀ qs, Walkable σ' r qs ↔ Walkable σ r qs ∨ ∃ op ∈ ops, qs <+: op.1) ∧
      TagsAre σ' r (fun ks tg => put ks tg ∨ ∃ op ∈ ops, op.1 = ks ∧ tg ∈ op.2) := by
  induction ops with
  | nil =>
    intro σ o t put h _ hs hd htag hput
    refine ⟨fun _ => ⟨σ, rfl⟩, fun {σ'} e => ?_⟩
    cases e
    exact ⟨h, ⟨o, hs, hd, rfl⟩, fun qs => by simp, by simpa using htag⟩
  | cons op ops ih =>
    intro σ o t put h hn hs hd htag hput
    obtain ⟨p, tags⟩ := op
    obtain ⟨g1, g2⟩ := getPath_tidy (F := F) (E := E) hF (r := r) p h (hn (p, tags) (by simp)) hs hd (.nil r) rfl
    have step : ∀ {σ1 : PsState} {refs : List Nat}, getPath F E σ r p = (σ1, .ok refs) →
        Tidy D E (tagStep σ1 (lastOf r refs) tags) ∧
        (∃ o', (tagStep σ1 (lastOf r refs) tags).steps[r]? = some o' ∧ DenOpt (tagStep σ1 (lastOf r refs) tags).pmods o'.pmod t ∧ o'.name = o.name) ∧
        (∀ qs, Walkable (tagStep σ1 (lastOf r refs) tags) r qs ↔ Walkable σ r qs ∨ qs <+: p) ∧
        TagsAre (tagStep σ1 (lastOf r refs) tags) r (fun ks tg => put ks tg ∨ (p = ks ∧ tg ∈ tags)) := by
      intro σ1 refs hg
      obtain ⟨j1, j2, j3, jn, je, jw, jk, _, j4⟩ := g2 hg
      simp only [List.nil_append] at jw j4
      obtain ⟨o1, a1, a2, a3, _⟩ := j3 r o hs
      have hrlt := (List.getElem?_eq_some_iff.1 a1).1
      have hl := walk_lt j1 jw hrlt
      have hol := List.getElem?_eq_getElem hl
      generalize σ1.steps[lastOf r refs] = ol at hol
      obtain ⟨b1, ⟨ol', b2, b3⟩, b4⟩ := tagStep_spec hol tags
      refine ⟨b1.tidy j1, ?_, fun qs => ?_, ?_⟩
      · obtain ⟨o2, c1, c2, _, c4⟩ := b1.steps r o1 a1
        exact ⟨o2, c1, by rw [b1.pmods, c2, a2]; exact denOpt_ext j2 hd, c4.trans a3⟩
      · have : Walkable (tagStep σ1 (lastOf r refs) tags) r qs ↔ Walkable σ1 r qs :=
          ⟨fun ⟨rs, hw⟩ => ⟨rs, b1.symm.walk hw⟩, fun ⟨rs, hw⟩ => ⟨rs, b1.walk hw⟩⟩
        rw [this, j4 qs]
        constructor
        · rintro (hq | ⟨p', hp, rfl⟩)
          · exact .inl hq
          · exact .inr hp
        · rintro (hq | hq)
          · exact .inl hq
          · exact .inr ⟨qs, hq, rfl⟩
      · intro ks rs hw
        have hw1 := b1.symm.walk hw
        -- the tags after reading
        have htag1 : ∃ ox, σ1.steps[lastOf r rs]? = some ox ∧ ∀ t, t ∈ ox.tags ↔ put ks t := by
          by_cases hwk : Walkable σ r ks
          · obtain ⟨rs', hw'⟩ := hwk
            have := walk_unique hw1 (jk _ ks rs' hw')
            subst this
            obtain ⟨ox, e1, e2⟩ := htag ks rs hw'
            obtain ⟨ox', f1, _, _, f4⟩ := j3 _ ox e1
            exact ⟨ox', f1, fun t => by rw [f4]; exact e2 t⟩
          · have hlx := walk_lt j1 hw1 hrlt
            have hox := List.getElem?_eq_getElem hlx
            refine ⟨_, hox, fun tg => ?_⟩
            have hge : σ.steps.length ≤ lastOf r rs := by
              rcases Nat.lt_or_ge (lastOf r rs) σ.steps.length with hlt | hge
              · exfalso
                -- a walk in the new tree that ends at an old step is old
                have : ∀ ks : List Str, ∀ rs, Walk σ1 r ks rs → lastOf r rs < σ.steps.length → Walkable σ r ks := by
                  refine Lemmas.snocInd (fun _ _ _ => ⟨[], .nil r⟩) ?_
                  intro ks k ihk rs hw hlt
                  obtain ⟨rs0, c, rfl, k1, k2⟩ := walk_snoc_inv hw
                  rw [lastOf_snoc] at hlt
                  have hup := (j1.up _ _ _ k2).1
                  obtain ⟨rs', hw'⟩ := ihk rs0 k1 (by omega)
                  have := walk_unique k1 (jk _ ks rs' hw')
                  subst this
                  exact ⟨_, walk_snoc hw' (je _ _ _ k2 hlt)⟩
                exact hwk (this ks rs hw1 hlt)
              · exact hge
            rw [jn _ _ hge hox]
            simp only [List.not_mem_nil, false_iff]
            intro hpt
            exact hwk (hput ks tg hpt)
        obtain ⟨ox, e1, e2⟩ := htag1
        by_cases e : lastOf r rs = lastOf r refs
        · rw [e] at e1 ⊢
          rw [hol] at e1; injection e1 with e1; subst e1
          have hks := walk_path_unique j1 ks hw1 jw e
          refine ⟨ol', b2, fun tg => ?_⟩
          rw [b3 tg, e2 tg, hks]; simp
        · refine ⟨ox, by rw [b4 _ e]; exact e1, fun tg => ?_⟩
          rw [e2 tg]
          constructor
          · exact .inl
          · rintro (h | ⟨rfl, _⟩)
            · exact h
            · exact absurd (by rw [walk_unique hw1 jw]) e
    have hput' : ∀ {σ1 : PsState} {refs : List Nat}, getPath F E σ r p = (σ1, .ok refs) →
        ∀ ks tg, (put ks tg ∨ (p = ks ∧ tg ∈ tags)) → Walkable (tagStep σ1 (lastOf r refs) tags) r ks := by
      intro σ1 refs hg ks tg hk
      rw [(step hg).2.2.1 ks]
      rcases hk with hk | ⟨rfl, _⟩
      · exact .inl (hput ks tg hk)
      · exact .inr (List.prefix_refl _)
    constructor
    · intro hall
      obtain ⟨σ1, refs, hg⟩ := g1 (hall (p, tags) (by simp))
      obtain ⟨s1, ⟨o1, s2, s3, _⟩, s4, s5⟩ := step hg
      obtain ⟨i1, _⟩ := ih s1 (fun q hq => hn q (by simp [hq])) s2 s3 s5 (hput' hg)
      obtain ⟨σ', h'⟩ := i1 (fun q hq => hall q (by simp [hq]))
      exact ⟨σ', by simp only [tagPaths, hg]; exact h'⟩
    · intro σ' e
      simp only [tagPaths] at e
      cases hg : getPath F E σ r p with
      | mk σ1 res =>
        rw [hg] at e
        cases res with
        | error e' => cases e
        | ok refs =>
          simp only at e
          obtain ⟨s1, ⟨o1, s2, s3, s3'⟩, s4, s5⟩ := step hg
          obtain ⟨_, i2⟩ := ih s1 (fun q hq => hn q (by simp [hq])) s2 s3 s5 (hput' hg)
          obtain ⟨k1, ⟨o2, b1, b2, b3⟩, k3, k4⟩ := i2 e
          refine ⟨k1, ⟨o2, b1, b2, b3.trans s3'⟩, fun qs => ?_, ?_⟩
          · rw [k3 qs, s4 qs]
            constructor
            · rintro ((hq | hq) | ⟨q, hq, hp⟩)
              · exact .inl hq
              · exact .inr ⟨(p, tags), by simp, hq⟩
              · exact .inr ⟨q, by simp [hq], hp⟩
            · rintro (hq | ⟨q, hq, hp⟩)
              · exact .inl (.inl hq)
              · rcases List.mem_cons.1 hq with rfl | hq
                · exact .inl (.inr hp)
                · exact .inr ⟨q, hq, hp⟩
          · intro ks rs hw
            obtain ⟨ox, x1, x2⟩ := k4 ks rs hw
            refine ⟨ox, x1, fun tg => ?_⟩
            rw [x2 tg]
            constructor
            · rintro ((hq | ⟨e1, e2⟩) | ⟨q, hq, e1, e2⟩)
              · exact .inl hq
              · exact .inr ⟨(p, tags), by simp, e1, e2⟩
              · exact .inr ⟨q, by simp [hq], e1, e2⟩
            · rintro (hq | ⟨q, hq, e1, e2⟩)
              · exact .inl (.inl hq)
              · rcases List.mem_cons.1 hq with rfl | hq
                · exact .inl (.inr ⟨e1, e2⟩)
                · exact .inr ⟨q, hq, e1, e2⟩

/-- The paths reported for a tag. -/
theorem paths_tagged {D F : Nat} {E : RegexLib} (hF : D ≤ F) {r : Nat} {ops : List (List Str × List Str)} {σ σ' : PsState}
    {o : StepObj} {t : Option Pmod} (h : Tidy D E σ) (hn : ∀ op ∈ ops, ReadNames op.1) (hs : σ.steps[r]? = some o)
    (hd : DenOpt σ.pmods o.pmod t) (hfresh : ∀ ks, Walkable σ r ks → ks = []) (htags : o.tags = [])
    (hlen : ∀ op ∈ ([], []) :: ops, op.1.length < F) (e : tagPaths F E σ r ops = .ok σ') (tag : Str) (htag : tag ≠ []) :
    ∃ l, pstepPaths F σ' r (some tag) = .ok l ∧ StrictlySorted l ∧
      (∀ x, x ∈ l ↔ ∃ p tags as u, (p, tags) ∈ ops ∧ tag ∈ tags ∧ Along E t p as u ∧ x = joinPaths (o.name :: namesFor p as)) ∧
      ∀ op ∈ ops, ∃ as u, Along E t op.1 as u := by
  have hput : TagsAre σ r (fun _ _ => False) := by
    intro ks rs hw
    have := hfresh ks ⟨rs, hw⟩
    subst this
    cases hw
    exact ⟨o, hs, fun t => by simp [htags]⟩
  obtain ⟨_, h2⟩ := tagPaths_tidy hF ops h hn hs hd hput (fun _ _ h => h.elim)
  obtain ⟨hT, ⟨o', ho', hd', hname⟩, hW, hTags⟩ := h2 e
  have hlt := (List.getElem?_eq_some_iff.1 ho').1
  obtain ⟨bs, hb1, hb2⟩ := iterHier_walks hT F [] r hlt (by
    intro ks rs hw
    rcases (hW ks).1 ⟨rs, hw⟩ with hk | ⟨p, hp, hpre⟩
    · rw [hfresh ks hk]; exact hlen ([], []) (by simp)
    · have := hlen p (by simp [hp])
      have := hpre.length_le
      omega)
  obtain ⟨hsort, hmem⟩ := sortedSet_spec ((bs.filter (reported σ' (some tag))).map (fun b => joinPaths (σ'.names b)))
  have hrep : ∀ ks rs, Walk σ' r ks rs → (reported σ' (some tag) (r :: rs) = true ↔ ∃ tags, (ks, tags) ∈ ops ∧ tag ∈ tags) := by
    intro ks rs hw
    have hgl : (r :: rs).getLast? = some (lastOf r rs) := List.getLast?_eq_some_getLast (by simp)
    obtain ⟨ol, hol, hot⟩ := hTags ks rs hw
    have h1 : reported σ' (some tag) (r :: rs) = decide (tag ∈ ol.tags) := by
      simp only [reported, hgl, Option.bind_some, hol, if_neg htag]
    rw [h1, decide_eq_true_eq, hot tag]
    simp only [false_or]
    constructor
    · rintro ⟨⟨p, tags⟩, h1, rfl, h3⟩; exact ⟨tags, h1, h3⟩
    · rintro ⟨tags, h1, h3⟩; exact ⟨_, h1, rfl, h3⟩
  have htext : ∀ ks rs, Walk σ' r ks rs → ∃ as u, Along E t ks as u ∧ σ'.names (r :: rs) = o.name :: namesFor ks as := by
    intro ks rs hw
    obtain ⟨as, u, h1, h2⟩ := walk_names hT hw ho' hd'
    refine ⟨as, u, h1, ?_⟩
    rw [← h2, ← hname]
    simp only [PsState.names, List.map_cons, ho']
  have hwk : ∀ op ∈ ops, Walkable σ' r op.1 := fun op hop => (hW op.1).2 (.inr ⟨op, hop, List.prefix_refl _⟩)
  refine ⟨_, by simp only [pstepPaths, hb1], hsort, fun x => ?_, ?_⟩
  · rw [hmem x, List.mem_map]
    constructor
    · rintro ⟨b, hb, rfl⟩
      rw [List.mem_filter] at hb
      obtain ⟨ks, rs, hw, rfl⟩ := (hb2 b).1 hb.1
      rw [List.nil_append] at hb ⊢
      obtain ⟨as, u, h1, h2⟩ := htext ks rs hw
      obtain ⟨tags, g1, g2⟩ := (hrep ks rs hw).1 hb.2
      exact ⟨ks, tags, as, u, g1, g2, h1, by rw [h2]⟩
    · rintro ⟨p, tags, as, u, g1, g2, hal, rfl⟩
      obtain ⟨rs, hw⟩ := hwk _ g1
      obtain ⟨as', u', h1, h2⟩ := htext p rs hw
      obtain ⟨e1, _⟩ := along_unique hal h1
      subst e1
      refine ⟨r :: rs, List.mem_filter.2 ⟨(hb2 _).2 ⟨p, rs, hw, by simp⟩, (hrep p rs hw).2 ⟨tags, g1, g2⟩⟩, by rw [h2]⟩
  · intro op hop
    obtain ⟨rs, hw⟩ := hwk op hop
    obtain ⟨as, u, h1, _⟩ := htext op.1 rs hw
    exact ⟨as, u, h1⟩

end Lemmas
