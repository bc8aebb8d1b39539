import Verif.Lemmas.PstepTuples
import Verif.Props.PstepPaths
import Verif.Props.Pmod
/-
C99: the mapping pairs derived from a tree of steps, and mappings rebuilt from them.
-/
set_option linter.unusedSimpArgs false
namespace Props
open Py Model Spec Lemmas

/-- C99. For any tree of steps (whatever was read from it, assigned to it, or shared in it), the pairs derived are, in order of
their paths, those of its branches: the path made of the original names on the branch, and the text of its last step. -/
theorem C99_every_branch (F : Nat) (σ : PsState) (s : Nat) (l : List (Str × Str)) (hk : DistinctKids σ)
    (hs : s < σ.steps.length) (hv : ∀ a k c, Edge σ a k c → c < σ.steps.length) (h : deriveTuples F σ s = .ok l) :
    SortedByFirst l ∧ ∀ x y, (x, y) ∈ l ↔ ∃ (b : List Nat) (os : List Str), StepBranch σ s b ∧ b.map (origOf σ) = os.map some ∧
      x = (os.foldl Loc.move (.rel 0 [])).text ∧ b.getLast?.bind (textOf σ) = some y := by
  unfold deriveTuples at h
  cases hi : iterHier σ F [] s with
  | none => rw [hi] at h; cases h
  | some bs =>
    rw [hi] at h
    cases h
    have hb := iterHier_branches hk F [] s bs hi
    refine ⟨sortPairs_sorted _, fun x y => ?_⟩
    rw [(sortPairs_perm _).mem_iff, List.mem_map]
    have hval : ∀ b, StepBranch σ s b → (∀ r ∈ b, r < σ.steps.length) ∧ b ≠ [] := by
      intro b hb
      have : ∀ s b, StepBranch σ s b → s < σ.steps.length → ∀ r ∈ b, r < σ.steps.length := by
        intro s b hb
        induction hb with
        | here s => intro h r hr; rw [List.mem_singleton] at hr; subst hr; exact h
        | down s k c b he _ ih =>
          intro h r hr
          rcases List.mem_cons.1 hr with rfl | hr
          · exact h
          · exact ih (hv _ _ _ he) r hr
      exact ⟨this s b hb hs, by cases hb <;> simp⟩
    have horig : ∀ b, (∀ r ∈ b, r < σ.steps.length) → b.map (origOf σ) = (σ.origs b).map some := by
      intro b hb
      induction b with
      | nil => rfl
      | cons r b ih =>
        have h1 := List.getElem?_eq_getElem (hb r (by simp))
        have h2 := ih (fun r hr => hb r (by simp [hr]))
        simp only [PsState.origs, List.map_cons, List.map_map] at h2 ⊢
        rw [h2]
        simp only [origOf, h1, Option.map_some]
    have hlast : ∀ b, (∀ r ∈ b, r < σ.steps.length) → b ≠ [] → b.getLast?.bind (textOf σ) = some (σ.lastText b) := by
      intro b hb hne
      have h0 := List.getLast?_eq_some_getLast hne
      have h1 := List.getElem?_eq_getElem (hb _ (List.getLast_mem hne))
      unfold PsState.lastText
      rw [h0]
      simp only [Option.bind_some, textOf, h1, Option.map_some]
    have inj : ∀ (a b : List Str), a.map some = b.map some → a = b := by
      intro a
      induction a with
      | nil => intro b h; cases b with | nil => rfl | cons _ _ => cases h
      | cons x a ih =>
        intro b h
        cases b with
        | nil => cases h
        | cons y b =>
          simp only [List.map_cons, List.cons.injEq, Option.some.injEq] at h
          rw [h.1, ih b h.2]
    constructor
    · rintro ⟨b, hm, e⟩
      obtain ⟨b', hb', rfl⟩ := (hb b).1 hm
      cases e
      obtain ⟨v1, v2⟩ := hval b hb'
      exact ⟨b, _, hb', horig b v1, joinPaths_eq_text _, hlast b v1 v2⟩
    · rintro ⟨b, os, hb', h1, rfl, h2⟩
      obtain ⟨v1, v2⟩ := hval b hb'
      refine ⟨b, (hb b).2 ⟨b, hb', rfl⟩, ?_⟩
      rw [horig b v1] at h1
      rw [hlast b v1 v2] at h2
      injection h2 with h2
      rw [h2, inj _ _ h1, joinPaths_eq_text]

/-- What is there after making a step from mappings and reading chains from it. -/
private theorem read_tree {F : Nat} {E : RegexLib} {h : List PmodObj} {r : Nat} {pm : Pmod}
    {σ0 σ : PsState} {s : Nat} {paths : List (List Str)}
    (hden : Den h r pm) (hdepth : depth pm ≤ F)
    (hstep : newStep F E ⟨h, [], []⟩ "".toList (.pmod r) none [] = (σ0, .ok s))
    (hread : readPaths F E σ0 s paths = .ok σ)
    (hn : ∀ p ∈ paths, ReadNames p) :
    ∃ t a o, pm.descend E "".toList = .ok (t, a) ∧ Tidy (depth pm) E σ ∧ OrigKeys σ ∧ σ.steps[s]? = some o ∧
      DenOpt σ.pmods o.pmod t ∧ o.name = nameFor "".toList a ∧ o.orig = "".toList ∧ ∀ qs, Walkable σ s qs ↔ Accessed paths qs := by
  obtain ⟨dE, dO⟩ := descendH_den (F := F) (E := E) hden (within_depth pm) hdepth "".toList
  cases hdesc : pm.descend E "".toList with
  | error e =>
    exfalso
    have := dE e hdesc
    simp only [newStep, this] at hstep
    cases hstep
  | ok ta =>
    obtain ⟨t, a⟩ := ta
    obtain ⟨h', p', e1, e2, e3, e4⟩ := dO t a hdesc
    have hstep2 : newStep F E ⟨h, [], []⟩ "".toList (.pmod r) none [] =
        (⟨h', [⟨nameFor "".toList a, "".toList, p', none, canRelocate, []⟩], []⟩, .ok 0) := by
      simp only [newStep, e1]
      cases a with
      | none => rfl
      | some m => rfl
    rw [hstep] at hstep2
    injection hstep2 with hs1 hs2
    injection hs2 with hs2
    subst hs1; subst hs2
    have hT0 := tidy_root (E := E) (D := depth pm) (o := ⟨nameFor "".toList a, "".toList, p', none, canRelocate, []⟩) rfl e3 e4
    obtain ⟨_, h2⟩ := readPaths_tidy hdepth paths (r := 0) hT0 hn rfl e3
    obtain ⟨hT, ⟨o', ho', hd', hname⟩, hW⟩ := h2 hread
    have hO0 : OrigKeys ⟨h', [⟨nameFor "".toList a, "".toList, p', none, canRelocate, []⟩], []⟩ := by
      rintro x l c oc ⟨ox, hx, hg⟩ _
      have := (List.getElem?_eq_some_iff.1 hx).1
      simp only [List.length_cons, List.length_nil] at this
      have : x = 0 := by omega
      subst this
      simp at hx
      subst hx
      simp [PsState.kids] at hg
    obtain ⟨hO, hK⟩ := readPaths_origs hdepth paths (r := 0) hT0 hO0 hn (by simp) hread
    obtain ⟨o2, k1, k2⟩ := hK 0 _ rfl
    rw [ho'] at k1; injection k1 with k1; subst k1
    refine ⟨t, a, o', rfl, hT, hO, ho', hd', hname, k2, fun qs => ?_⟩
    rw [hW qs]
    constructor
    · rintro (hq | hq)
      · exact .inl (root_fresh rfl qs hq)
      · exact .inr hq
    · rintro (rfl | hq)
      · exact .inl ⟨[], .nil 0⟩
      · exact .inr hq

private theorem accessed_names {paths : List (List Str)} {q : List Str} (hq : Accessed paths q) {P : Str → Prop}
    (hnames : ∀ p ∈ paths, ∀ k ∈ p, P k) : ∀ k ∈ q, P k := by
  intro k hk
  rcases hq with rfl | ⟨p, hp, hpre⟩
  · cases hk
  · exact hnames p hp k (hpre.subset hk)

theorem plain_root {q : List Str} (h : ∀ k ∈ q, Plain k) : ∀ k ∈ "".toList :: q, Plain k := by
  intro k hk
  rcases List.mem_cons.1 hk with rfl | hk
  · exact ⟨by decide, by decide⟩
  · exact h k hk

private theorem pathText_inj {q q' : List Str} (h : ∀ k ∈ q, Plain k) (h' : ∀ k ∈ q', Plain k)
    (e : pathText ("".toList :: q) = pathText ("".toList :: q')) : q = q' := by
  have := splitOn_pathText (ps := "".toList :: q) (by simp) (plain_root h)
  rw [e, splitOn_pathText (by simp) (plain_root h')] at this
  injection this with _ this
  exact this.symm

private theorem along_length {E : RegexLib} {t u : Option Pmod} {p : List Str} {as : List (Option Str)} (h : Along E t p as u) :
    p.length = as.length := by
  induction h with
  | nil => rfl
  | cons _ _ _ _ _ _ _ _ _ ih => simp [ih]

private theorem namesFor_last : ∀ (ks : List Str) (as : List (Option Str)) (a : Option Str), ks.length = as.length → as.getLast? = some a →
    ∃ k, ks.getLast? = some k ∧ (namesFor ks as).getLast? = some (nameFor k a)
  | [], [], _, _, h => by cases h
  | [k], [b], a, _, h => by
    simp only [List.getLast?_singleton, Option.some.injEq] at h
    subst h
    exact ⟨k, rfl, rfl⟩
  | k :: k' :: ks, b :: b' :: as, a, hl, h => by
    rw [List.getLast?_cons_cons] at h
    obtain ⟨x, h1, h2⟩ := namesFor_last (k' :: ks) (b' :: as) a (by simpa using hl) h
    refine ⟨x, by rw [List.getLast?_cons_cons]; exact h1, ?_⟩
    have : namesFor (k :: k' :: ks) (b :: b' :: as) = nameFor k b :: nameFor k' b' :: namesFor ks as := rfl
    rw [this, List.getLast?_cons_cons]
    exact h2

/-- C99. Take mappings that stand for the hierarchy `pm`, make a step from them, and read any chains of attributes from it (of
plain, ordinary names, shorter than the recursion limit). The pairs derived from the step are, in order of paths and without
repetition, one for every chain read and every beginning of one (so one for the step itself): its path from the root, and
the text of its last step, which is the alias in force there, or else its name. -/
theorem C99_pairs (F : Nat) (E : RegexLib) (h : List PmodObj) (r : Nat) (pm : Pmod) (σ0 σ : PsState) (s : Nat) (paths : List (List Str))
    (hden : Den h r pm) (hdepth : depth pm ≤ F)
    (hstep : newStep F E ⟨h, [], []⟩ "".toList (.pmod r) none [] = (σ0, .ok s))
    (hread : readPaths F E σ0 s paths = .ok σ)
    (hnames : ∀ p ∈ paths, ∀ k ∈ p, StepName k ∧ Ordinary k ∧ Plain k)
    (hF : ∀ p ∈ [] :: paths, p.length < F) :
    ∃ l, deriveTuples F σ s = .ok l ∧ StrictlySorted (l.map (·.1)) ∧
      ∀ x y, (x, y) ∈ l ↔ ∃ q as k a, Accessed paths q ∧ AliasesAlong E (some pm) ("".toList :: q) as ∧
        ("".toList :: q).getLast? = some k ∧ as.getLast? = some a ∧ x = pathText ("".toList :: q) ∧ y = nameFor k a := by
  have hn : ∀ p ∈ paths, ReadNames p := fun p hp k hk => ⟨(hnames p hp k hk).1, (hnames p hp k hk).2.1.1⟩
  obtain ⟨t, a, o, hdesc, hT, hO, ho, hd, hname, horig, hW⟩ := read_tree hden hdepth hstep hread hn
  have hlt := (List.getElem?_eq_some_iff.1 ho).1
  obtain ⟨bs, hb1, hb2⟩ := iterHier_walks hT F [] s hlt (by
    intro ks rs hw
    rcases (hW ks).1 ⟨rs, hw⟩ with rfl | ⟨p, hp, hpre⟩
    · exact hF [] (by simp)
    · have := hF p (by simp [hp])
      have := hpre.length_le
      omega)
  have hplain : ∀ q, Accessed paths q → ∀ k ∈ q, Plain k := fun q hq => accessed_names hq (fun p hp k hk => (hnames p hp k hk).2.2)
  have hord : ∀ q, Accessed paths q → ∀ k ∈ q, Ordinary k := fun q hq => accessed_names hq (fun p hp k hk => (hnames p hp k hk).2.1)
  -- the pair of a walk
  have hpath : ∀ ks rs, Walk σ s ks rs → joinPaths (σ.origs (s :: rs)) = pathText ("".toList :: ks) := by
    intro ks rs hw
    have h1 := walk_origs hT hO hw
    have h2 : σ.origs (s :: rs) = "".toList :: ks := by
      simp only [PsState.origs, List.map_cons, ho, horig] at h1 ⊢
      rw [h1]
    rw [h2, joinPaths_eq_text]
    exact join_ordinary (.inl rfl) (hord ks ((hW ks).1 ⟨rs, hw⟩))
  have htext : ∀ ks rs, Walk σ s ks rs → ∃ as k al u, Along E t ks as u ∧ ("".toList :: ks).getLast? = some k ∧
      (a :: as).getLast? = some al ∧ σ.lastText (s :: rs) = nameFor k al := by
    intro ks rs hw
    obtain ⟨as, u, h1, h2⟩ := walk_names hT hw ho hd
    have h3 : σ.names (s :: rs) = namesFor ("".toList :: ks) (a :: as) := by
      simp only [PsState.names, List.map_cons, ho, hname, namesFor] at h2 ⊢
      rw [h2]
    obtain ⟨k, k1, k2⟩ := namesFor_last ("".toList :: ks) (a :: as) ((a :: as).getLast (by simp))
      (by simp [along_length h1]) (List.getLast?_eq_some_getLast (by simp))
    refine ⟨as, k, _, u, h1, k1, List.getLast?_eq_some_getLast (by simp), ?_⟩
    rw [← h3] at k2
    simp only [PsState.names, List.getLast?_map] at k2
    unfold PsState.lastText
    have h0 := List.getLast?_eq_some_getLast (l := s :: rs) (by simp)
    have hl := walk_lt hT hw hlt
    have hg := List.getElem?_eq_getElem hl
    have hl' : (s :: rs).getLast (by simp) = lastOf s rs := rfl
    rw [h0, hl'] at k2 ⊢
    simp only [Option.map_some, hg, Option.some.injEq, Option.bind_some] at k2 ⊢
    exact k2
  refine ⟨sortPairs (bs.map (fun b => (joinPaths (σ.origs b), σ.lastText b))), by simp only [deriveTuples, hb1], strict_of_nodup (sortPairs_sorted _) ?_, fun x y => ?_⟩
  · rw [((sortPairs_perm _).map _).nodup_iff, List.map_map]
    have hnd := (iterHier_nodup (tidy_kids_nodup hT) F [] s bs hb1).1
    refine List.pairwise_map.2 ?_
    refine List.Pairwise.imp_of_mem ?_ hnd
    intro b b' hb hb' hne e
    obtain ⟨ks, rs, hw, rfl⟩ := (hb2 b).1 hb
    obtain ⟨ks', rs', hw', rfl⟩ := (hb2 b').1 hb'
    simp only [Function.comp, List.nil_append] at e hne
    rw [hpath ks rs hw, hpath ks' rs' hw'] at e
    have := pathText_inj (hplain _ ((hW _).1 ⟨rs, hw⟩)) (hplain _ ((hW _).1 ⟨rs', hw'⟩)) e
    subst this
    rw [walk_unique hw hw'] at hne
    exact hne rfl
  · rw [(sortPairs_perm _).mem_iff, List.mem_map]
    constructor
    · rintro ⟨b, hb, e⟩
      obtain ⟨ks, rs, hw, rfl⟩ := (hb2 b).1 hb
      rw [List.nil_append] at e
      obtain ⟨as, k, al, u, h1, h2, h3, h4⟩ := htext ks rs hw
      injection e with e1 e2
      exact ⟨ks, a :: as, k, al, (hW ks).1 ⟨rs, hw⟩, along_iff.2 ⟨u, .cons (some pm) t _ a ks as u hdesc h1⟩, h2, h3,
        by rw [← e1, hpath ks rs hw], by rw [← e2, h4]⟩
    · rintro ⟨q, as, k, al, hq, hal, h1, h2, rfl, rfl⟩
      obtain ⟨rs, hw⟩ := (hW q).2 hq
      obtain ⟨as', k', al', u', g1, g2, g3, g4⟩ := htext q rs hw
      obtain ⟨u, hal⟩ := along_iff.1 hal
      have hal' : Along E (some pm) ("".toList :: q) (a :: as') u' := .cons (some pm) t _ a q as' u' hdesc g1
      obtain ⟨e1, _⟩ := along_unique hal hal'
      subst e1
      rw [g2] at h1; injection h1 with h1; subst h1
      rw [g3] at h2; injection h2 with h2; subst h2
      exact ⟨s :: rs, (hb2 _).2 ⟨q, rs, hw, rfl⟩, by rw [hpath q rs hw, g4]⟩

/-! ### Rebuilding mappings -/

theorem nodeAt_append (pm : Pmod) : ∀ (ks ks' : List Key), nodeAt pm (ks ++ ks') = (nodeAt pm ks).bind (fun c => nodeAt c ks')
  | [], ks' => rfl
  | .name s :: ks, ks' => by
    rw [List.cons_append, nodeAt, nodeAt]
    cases dget pm.steps s with
    | none => rfl
    | some c => exact nodeAt_append c ks ks'
  | .regx s :: ks, ks' => by
    rw [List.cons_append, nodeAt, nodeAt]
    cases dget pm.regxs s with
    | none => rfl
    | some c => exact nodeAt_append c ks ks'

/-- Descending where there are no regexes. -/
theorem descend_plain (E : RegexLib) (t : Option Pmod) (h : ∀ x, t = some x → x.regxs = []) (k : Str) :
    descOpt E t k = .ok (t.bind (fun p => dget p.steps k), (t.bind (fun p => dget p.steps k)).bind Pmod.alias) := by
  cases t with
  | none => rfl
  | some x =>
    have hr := h x rfl
    have hm : x.matchRegxs E k = [] := by simp [Pmod.matchRegxs, hr]
    simp only [descOpt, Pmod.descend, hm, List.reverse_nil, List.map_nil, List.nil_append, Option.bind_some]
    cases hg : dget x.steps k with
    | none => simp [Pmod.lastAlias, Pmod.reduceMerge]
    | some c =>
      simp only [Option.bind_some, Option.toList_some]
      cases c.alias <;> simp [Pmod.lastAlias, Pmod.reduceMerge]

/-- The aliases along a chain in mappings without regexes. -/
private theorem along_rebuilt {E : RegexLib} {pm' : Pmod} (hreg : ∀ ks, regxsAt pm' ks = []) {t u : Option Pmod} {rest : List Str}
    {as : List (Option Str)} (h : Along E t rest as u) : ∀ (pre : List Str),
    (∀ mid k asm al v, mid ++ [k] <+: rest → Along E t (mid ++ [k]) (asm ++ [al]) v →
      aliasAt pm' ((pre ++ mid ++ [k]).map Key.name) = some (nameFor k al)) →
    ∃ u', Along E (nodeAt pm' (pre.map Key.name)) rest ((namesFor rest as).map some) u' := by
  induction h with
  | nil t => intro pre _; exact ⟨_, .nil _⟩
  | cons t t' k al ks as u hd _ ih =>
    intro pre hH
    have h0 := hH [] k [] al t' (by simp) (.cons t t' k al [] [] t' hd (.nil t'))
    obtain ⟨u', hu⟩ := ih (pre ++ [k]) (by
      intro mid k' asm al' v hpre hal
      have := hH (k :: mid) k' (al :: asm) al' v (by rw [List.cons_append, List.cons_prefix_cons]; exact ⟨rfl, hpre⟩)
        (.cons t t' k al _ _ v hd hal)
      simpa using this)
    have hchild : (nodeAt pm' (pre.map Key.name)).bind (fun p => dget p.steps k) = nodeAt pm' ((pre ++ [k]).map Key.name) := by
      rw [List.map_append, nodeAt_append]
      congr 1
      funext c
      simp only [List.map_cons, List.map_nil, nodeAt]
      cases dget c.steps k <;> rfl
    refine ⟨u', ?_⟩
    rw [namesFor, List.map_cons]
    refine .cons _ (nodeAt pm' ((pre ++ [k]).map Key.name)) _ _ _ _ _ ?_ hu
    rw [descend_plain E _ (by
      intro x hx
      have := hreg (pre.map Key.name)
      unfold regxsAt at this
      rw [hx] at this
      simpa using this), hchild]
    simp only [List.append_nil] at h0
    unfold aliasAt at h0
    rw [h0]

theorem lastSome_only {α β : Type} (f : α → Option β) (b : β) : ∀ (xs : List α) (x : α), x ∈ xs → f x = some b →
    (∀ y ∈ xs, ∀ c, f y = some c → c = b) → lastSome f xs = some b := by
  intro xs x hx hf hall
  unfold lastSome
  cases hr : xs.reverse.findSome? f with
  | none =>
    rw [List.findSome?_eq_none_iff] at hr
    have := hr x (List.mem_reverse.2 hx)
    rw [hf] at this; cases this
  | some c =>
    obtain ⟨y, hy, hc⟩ := List.exists_of_findSome?_eq_some hr
    rw [hall y (List.mem_reverse.1 hy) c hc]

theorem keysOf_plain {q : List Str} (h : ∀ k ∈ q, Plain k) :
    keysOf (pathText ("".toList :: q)) = ("".toList :: q).map Key.name := by
  unfold keysOf
  rw [splitOn_pathText (by simp) (plain_root h), List.map_map]
  apply List.map_congr_left
  intro k hk
  have ht := (plain_root h k hk).2
  simp only [Function.comp, unescapePart_plain ht]
  split
  · next pat => simp at ht
  · rfl

private theorem relative_facts {x : Str} (h : RelativeAlias x) : x ≠ "".toList ∧ '~' ∉ x := by
  obtain ⟨n, ns, rfl, _, hx⟩ := h
  have hp : ∀ y ∈ n :: ns, Plain y := fun y hy => (hx y hy).1
  refine ⟨fun e => ?_, tilde_not_mem_pathText hp⟩
  have := splitOn_pathText (ps := n :: ns) (by simp) hp
  rw [e] at this
  have h2 : splitOn '/' "".toList = ["".toList] := rfl
  rw [h2] at this
  injection this with this _
  exact (hx n (by simp)).2.1 this.symm

private theorem root_facts {x : Str} (h : RootAlias x) : x ≠ "".toList ∧ '~' ∉ x := by
  rcases h with h | ⟨n, ns, rfl, hx⟩
  · exact relative_facts h
  · have hp : ∀ y ∈ "".toList :: n :: ns, Plain y := plain_root (fun y hy => (hx y hy).1)
    refine ⟨fun e => ?_, tilde_not_mem_pathText hp⟩
    have := splitOn_pathText (ps := "".toList :: n :: ns) (by simp) hp
    rw [e] at this
    have h2 : splitOn '/' "".toList = ["".toList] := rfl
    rw [h2] at this
    injection this with _ this
    cases this

private theorem nameFor_relative {k : Str} {al : Option Str} (hk : k.head? ≠ some '.' ∧ Plain k ∧ Ordinary k)
    (ha : ∀ x, al = some x → RelativeAlias x) : RelativeAlias (nameFor k al) := by
  cases al with
  | none => exact ⟨k, [], by simp [pathText, join, nameFor], hk.1, by intro y hy; rw [List.mem_singleton] at hy; subst hy; exact hk.2⟩
  | some x =>
    have hx := ha x rfl
    obtain ⟨h1, h2⟩ := relative_facts hx
    simp only [nameFor, if_neg h1, unescapePart_plain h2]
    exact hx

private theorem namesFor_idem : ∀ (ks : List Str) (as : List (Option Str)),
    (∀ x ∈ namesFor ks as, RelativeAlias x) → namesFor ks ((namesFor ks as).map some) = namesFor ks as
  | [], _, _ => by simp [namesFor]
  | _ :: _, [], _ => by simp [namesFor]
  | k :: ks, a :: as, h => by
    rw [namesFor] at h
    obtain ⟨h1, h2⟩ := relative_facts (h _ (List.mem_cons_self ..))
    rw [namesFor, List.map_cons, namesFor, namesFor_idem ks as (fun x hx => h x (List.mem_cons_of_mem _ hx))]
    rw [show nameFor k (some (nameFor k a)) = nameFor k a from by
      generalize nameFor k a = n at h1 h2
      simp only [nameFor, if_neg h1, unescapePart_plain h2]]

private theorem valid_pairs (l : List (Str × Str)) : validTuples (l.map (fun xy => (some xy.1, some xy.2))) =
    l.filter (fun xy => !(decide (xy.1 = [] ∧ xy.2 = []))) := by
  induction l with
  | nil => rfl
  | cons x l ih =>
    simp only [validTuples, List.map_cons, List.filterMap_cons, List.filter_cons] at ih ⊢
    by_cases e : x.1 = [] ∧ x.2 = []
    · simp only [e, and_self, if_true, decide_true, Bool.not_true, Bool.false_eq_true, if_false]; exact ih
    · simp only [if_neg e, decide_eq_false e, Bool.not_false, if_true]; rw [ih]

private theorem along_relative {E : RegexLib} {t u : Option Pmod} {p : List Str} {as : List (Option Str)} (h : Along E t p as u) :
    (∀ x, some x ∈ as → RelativeAlias x) → (∀ k ∈ p, k.head? ≠ some '.' ∧ Plain k ∧ Ordinary k) →
    ∀ x ∈ namesFor p as, RelativeAlias x := by
  induction h with
  | nil t => intro _ _ x hx; simp [namesFor] at hx
  | cons t t' k al ks as u _ _ ih =>
    intro q2 hall x hx
    rw [namesFor] at hx
    rcases List.mem_cons.1 hx with rfl | hx
    · exact nameFor_relative (hall k (by simp)) (fun x hx => q2 x (by simp [hx]))
    · exact ih (fun x hx => q2 x (by simp [hx])) (fun k hk => hall k (by simp [hk])) x hx

/-- C99 (partial: no name read starts with a dot, and the aliases are plain and relative, see `C99_dots_refuted`). Mappings can be
rebuilt from the pairs derived from a step, and they map the path of every chain that was read, and of every beginning of one, to
the same path as the mappings the step was made from. -/
theorem C99_rebuilt_partial (F : Nat) (E : RegexLib) (h : List PmodObj) (r : Nat) (pm : Pmod) (σ0 σ : PsState) (s : Nat)
    (paths : List (List Str)) (hden : Den h r pm) (hpm : pm.alias = none) (hdepth : depth pm ≤ F)
    (hstep : newStep F E ⟨h, [], []⟩ "".toList (.pmod r) none [] = (σ0, .ok s))
    (hread : readPaths F E σ0 s paths = .ok σ)
    (hnames : ∀ p ∈ paths, ∀ k ∈ p, StepName k ∧ Ordinary k ∧ Plain k ∧ k.head? ≠ some '.')
    (halias : ∀ q, Accessed paths q → ∀ a as, AliasesAlong E (some pm) ("".toList :: q) (a :: as) →
      (∀ x, a = some x → RootAlias x) ∧ ∀ x, some x ∈ as → RelativeAlias x)
    (hF : ∀ p ∈ [] :: paths, p.length < F) :
    ∃ l pm', deriveTuples F σ s = .ok l ∧ pmodsFromTuples E (l.map (fun xy => (some xy.1, some xy.2))) = .ok pm' ∧
      ∀ q, Accessed paths q → ∃ x, pm.mapPath E (pathText ("".toList :: q)) = .ok x ∧
        pm'.mapPath E (pathText ("".toList :: q)) = .ok x := by
  have hn : ∀ p ∈ paths, ReadNames p := fun p hp k hk => ⟨(hnames p hp k hk).1, (hnames p hp k hk).2.1.1⟩
  obtain ⟨t, a, o, hdesc, hT, _, ho, hd, _, _, hW⟩ := read_tree hden hdepth hstep hread hn
  obtain ⟨l, hl, _, hmem⟩ := C99_pairs F E h r pm σ0 σ s paths hden hdepth hstep hread
    (fun p hp k hk => ⟨(hnames p hp k hk).1, (hnames p hp k hk).2.1, (hnames p hp k hk).2.2.1⟩) hF
  have hplain : ∀ q, Accessed paths q → ∀ k ∈ q, Plain k := fun q hq => accessed_names hq (fun p hp k hk => (hnames p hp k hk).2.2.1)
  have hord : ∀ q, Accessed paths q → ∀ k ∈ q, Ordinary k := fun q hq => accessed_names hq (fun p hp k hk => (hnames p hp k hk).2.1)
  have hdot : ∀ q, Accessed paths q → ∀ k ∈ q, k.head? ≠ some '.' := fun q hq => accessed_names hq (fun p hp k hk => (hnames p hp k hk).2.2.2)
  have hvt : validTuples (l.map (fun xy => (some xy.1, some xy.2))) = l.filter (fun xy => !(decide (xy.1 = [] ∧ xy.2 = []))) := valid_pairs l
  have hkeys : ∀ ft ∈ l, ∃ q, Accessed paths q ∧ ft.1 = pathText ("".toList :: q) ∧ keysOf ft.1 = ("".toList :: q).map Key.name := by
    rintro ⟨x, y⟩ hxy
    obtain ⟨q, as, k, al, hq, _, _, _, rfl, _⟩ := (hmem x y).1 hxy
    exact ⟨q, hq, rfl, keysOf_plain (hplain q hq)⟩
  have hsub : ∀ ft ∈ validTuples (l.map (fun xy => (some xy.1, some xy.2))), ft ∈ l := by
    intro ft hft; rw [hvt] at hft; exact (List.mem_filter.1 hft).1
  obtain ⟨pm', hpm'⟩ := C14_total E (l.map (fun xy => (some xy.1, some xy.2))) (by
    intro ft hft p hp
    obtain ⟨q, _, _, e⟩ := hkeys ft (hsub ft hft)
    rw [e] at hp
    obtain ⟨k, _, hk⟩ := List.mem_map.1 hp
    cases hk)
  refine ⟨l, pm', hl, hpm', fun q hq => ?_⟩
  have hC14 := C14_alias_is_last_tuple E _ pm' hpm'
  have hreg : ∀ ks, regxsAt pm' ks = [] := by
    intro ks
    rw [C15_regex_order E _ pm' hpm' ks]
    have : (validTuples (l.map (fun xy => (some xy.1, some xy.2)))).filterMap (fun ft => nextRegx ks (keysOf ft.1)) = [] := by
      rw [List.filterMap_eq_nil_iff]
      intro ft hft
      obtain ⟨q, _, _, e⟩ := hkeys ft (hsub ft hft)
      rw [e]
      generalize "".toList :: q = p
      clear e hft hC14 hpm'
      induction p generalizing ks with
      | nil => cases ks <;> rfl
      | cons k p ih =>
        cases ks with
        | nil => rfl
        | cons k' ks =>
          rw [List.map_cons, nextRegx]
          split
          · exact ih ks
          · rfl
    rw [this]; rfl
  have hpre : ∀ q q', Accessed paths q → q' <+: q → Accessed paths q' := by
    rintro q q' (rfl | ⟨p, hp, h1⟩) h2
    · rw [List.prefix_nil] at h2; exact .inl h2
    · exact .inr ⟨p, hp, h2.trans h1⟩
  -- what the rebuilt mappings have at the path of a chain
  have hat : ∀ q, Accessed paths q → ∀ as k al u, Along E t q as u → ("".toList :: q).getLast? = some k →
      (a :: as).getLast? = some al → pathText ("".toList :: q) ≠ "".toList ∨ nameFor k al ≠ "".toList →
      aliasAt pm' (("".toList :: q).map Key.name) = some (nameFor k al) := by
    intro q hq as k al u hal h1 h2 hne
    rw [hC14]
    have hA : Along E (some pm) ("".toList :: q) (a :: as) u := .cons (some pm) t _ a q as u hdesc hal
    refine lastSome_only _ _ _ (pathText ("".toList :: q), nameFor k al) ?_ ?_ ?_
    · rw [hvt, List.mem_filter]
      refine ⟨(hmem _ _).2 ⟨q, a :: as, k, al, hq, along_iff.2 ⟨u, hA⟩, h1, h2, rfl, rfl⟩, ?_⟩
      rw [Bool.not_eq_true', decide_eq_false_iff_not]
      rintro ⟨e1, e2⟩
      rcases hne with hne | hne
      · exact hne e1
      · exact hne e2
    · rw [keysOf_plain (hplain q hq), if_pos rfl]
    · intro y hy c hc
      have hyl := hsub y hy
      obtain ⟨y1, y2⟩ := y
      obtain ⟨q', as', k', al', hq', hal', g1, g2, rfl, rfl⟩ := (hmem y1 y2).1 hyl
      simp only at hc
      rw [keysOf_plain (hplain q' hq')] at hc
      split at hc
      · next e =>
        have e' : ∀ (a b : List Str), a.map Key.name = b.map Key.name → a = b := by
          intro a
          induction a with
          | nil => intro b h; cases b with | nil => rfl | cons _ _ => cases h
          | cons x a ih =>
            intro b h
            cases b with
            | nil => cases h
            | cons y b =>
              simp only [List.map_cons, List.cons.injEq, Key.name.injEq] at h
              rw [h.1, ih b h.2]
        have := e' _ _ e
        injection this with _ this
        subst this
        obtain ⟨u', hal'⟩ := along_iff.1 hal'
        obtain ⟨e1, _⟩ := along_unique hal' hA
        subst e1
        rw [g1] at h1; injection h1 with h1; subst h1
        rw [g2] at h2; injection h2 with h2; subst h2
        injection hc with hc
        exact hc.symm
      · cases hc
  obtain ⟨rs, hw⟩ := (hW q).2 hq
  obtain ⟨as, u, hal, _⟩ := walk_names hT hw ho hd
  have hA : AliasesAlong E (some pm) ("".toList :: q) (a :: as) := along_iff.2 ⟨u, .cons (some pm) t _ a q as u hdesc hal⟩
  obtain ⟨q1, q2⟩ := halias q hq a as hA
  have hpn : ∀ k ∈ q, Plain k ∧ Ordinary k := fun k hk => ⟨hplain q hq k hk, hord q hq k hk⟩
  have m1 := mapped_text hpm hdesc hal q1 q2 hpn
  refine ⟨_, m1, ?_⟩
  -- the alias of the root
  have hroot : aliasAt pm' [Key.name "".toList] = a := by
    cases a with
    | none =>
      rw [show [Key.name "".toList] = ("".toList :: []).map Key.name from rfl, hC14]
      unfold lastSome
      rw [List.findSome?_eq_none_iff]
      intro y hy
      have hy := List.mem_reverse.1 hy
      have hyl := hsub y hy
      rw [hvt, List.mem_filter] at hy
      obtain ⟨y1, y2⟩ := y
      obtain ⟨q', as', k', al', hq', hal', g1, g2, rfl, rfl⟩ := (hmem y1 y2).1 hyl
      simp only
      rw [keysOf_plain (hplain q' hq')]
      split
      · next e =>
        exfalso
        cases q' with
        | cons k q' => simp at e
        | nil =>
          obtain ⟨u', hal'⟩ := along_iff.1 hal'
          obtain ⟨e1, _⟩ := along_unique hal' (.cons (some pm) t _ none [] [] t hdesc (.nil t))
          subst e1
          simp only [List.getLast?_singleton, Option.some.injEq] at g1 g2
          subst g1; subst g2
          have h2 := hy.2
          simp [pathText, join, nameFor] at h2
      · rfl
    | some x =>
      obtain ⟨f1, f2⟩ := root_facts (q1 x rfl)
      have hnx : nameFor "".toList (some x) = x := by simp only [nameFor, if_neg f1, unescapePart_plain f2]
      have := hat [] (.inl rfl) [] "".toList (some x) t (.nil t) rfl rfl (.inr (by rw [hnx]; exact f1))
      rw [hnx] at this
      exact this
  have hpm0 : pm'.alias = none := by
    have := hC14 []
    have h2 : aliasAt pm' [] = pm'.alias := rfl
    rw [h2] at this
    rw [this]
    unfold lastSome
    rw [List.findSome?_eq_none_iff]
    intro y hy
    obtain ⟨q', _, _, e⟩ := hkeys y (hsub y (List.mem_reverse.1 hy))
    rw [e, if_neg (by simp)]
  have hdesc' : pm'.descend E "".toList = .ok (nodeAt pm' [Key.name "".toList], a) := by
    have h1 := descend_plain E (some pm') (by
      intro x hx
      injection hx with hx
      subst hx
      have := hreg []
      simpa [regxsAt, nodeAt] using this) "".toList
    have h2 : (some pm').bind (fun p => dget p.steps "".toList) = nodeAt pm' [Key.name "".toList] := by
      simp only [Option.bind_some, nodeAt]
      cases dget pm'.steps "".toList <;> rfl
    rw [h2] at h1
    rw [show (nodeAt pm' [Key.name "".toList]).bind Pmod.alias = a from hroot] at h1
    exact h1
  obtain ⟨u', hal'⟩ := along_rebuilt hreg hal ["".toList] (by
    intro mid k asm al v hp hal2
    have hq' := hpre q _ hq hp
    have := hat (mid ++ [k]) hq' (asm ++ [al]) k al v hal2 (by simp [List.getLast?_cons]) (by simp [List.getLast?_cons]) (.inl ?_)
    · simpa using this
    · intro e
      have := splitOn_pathText (ps := "".toList :: (mid ++ [k])) (by simp) (plain_root (hplain _ hq'))
      rw [e] at this
      have h2 : splitOn '/' "".toList = ["".toList] := rfl
      rw [h2] at this
      simp at this)
  have hrel : ∀ x ∈ namesFor q as, RelativeAlias x :=
    along_relative hal q2 (fun k hk => ⟨hdot q hq k hk, hpn k hk⟩)
  have m2 := mapped_text hpm0 hdesc' hal' q1 (by
    intro x hx
    obtain ⟨y, hy, e⟩ := List.mem_map.1 hx
    injection e with e
    subst e
    exact hrel y hy) hpn
  rw [m2, namesFor_idem q as hrel]

/-- The pairs of the mappings of C24, after reading `a.b` and `c`. -/
example : (∃ σ0 s σ, newStep 9 Tests.toy ⟨mapsAB, [], []⟩ "".toList (.pmod 0) none [] = (σ0, .ok s) ∧
      readPaths 9 Tests.toy σ0 s [["a".toList, "b".toList], ["c".toList]] = .ok σ ∧
      deriveTuples 9 σ s = .ok [("".toList, "".toList), ("/a".toList, "A/x".toList), ("/a/b".toList, "B".toList),
        ("/c".toList, "c".toList)]) := ⟨_, _, _, rfl, rfl, rfl⟩

/-- C99 fails for names that start with a dot: their text is then a relative alias, so that the rebuilt mappings
take `/.a` to `/.a/.a`. -/
theorem C99_dots_refuted : ∃ (σ0 : PsState) (s : Nat) (σ : PsState) (l : List (Str × Str)) (pm' : Pmod),
    Den [⟨none, [], []⟩] 0 (.mk none [] []) ∧
    newStep 9 Tests.toy ⟨[⟨none, [], []⟩], [], []⟩ "".toList (.pmod 0) none [] = (σ0, .ok s) ∧
    readPaths 9 Tests.toy σ0 s [[".a".toList]] = .ok σ ∧ deriveTuples 9 σ s = .ok l ∧
    pmodsFromTuples Tests.toy (l.map (fun xy => (some xy.1, some xy.2))) = .ok pm' ∧
    (Pmod.mk none [] []).mapPath Tests.toy "/.a".toList = .ok "/.a".toList ∧
    pm'.mapPath Tests.toy "/.a".toList = .ok "/.a/.a".toList :=
  ⟨_, _, _, _, _, .mk 0 ⟨none, [], []⟩ [] [] rfl .nil .nil, rfl, rfl, rfl, rfl, rfl, rfl⟩

/-- C99 fails for steps assigned to other attributes, which keep their original name: after `p.a; p.b = p.a`, whose paths
are `/a` and `/b`, both pairs have the path `/a`, and the rebuilt mappings take it to `/b`. -/
theorem C99_assigned_refuted : ∃ (σ0 : PsState) (s : Nat) (σ1 σ2 : PsState) (c : Nat) (l : List (Str × Str)) (pm' : Pmod),
    newStep 9 Tests.toy ⟨[], [], []⟩ "".toList .none none [] = (σ0, .ok s) ∧
    getAttr 9 Tests.toy σ0 s "a".toList = (σ1, .ok (some c)) ∧
    setAttr 9 Tests.toy σ1 s "b".toList (.step c) = (σ2, .ok ()) ∧
    pstepPaths 9 σ2 s none = .ok ["/a".toList, "/b".toList] ∧
    deriveTuples 9 σ2 s = .ok l ∧ l = [("".toList, "".toList), ("/a".toList, "a".toList), ("/a".toList, "b".toList)] ∧
    pmodsFromTuples Tests.toy (l.map (fun xy => (some xy.1, some xy.2))) = .ok pm' ∧
    pm'.mapPath Tests.toy "/a".toList = .ok "/b".toList ∧ pm'.mapPath Tests.toy "/b".toList = .ok "/b".toList :=
  ⟨_, _, _, _, _, _, _, rfl, rfl, rfl, rfl, rfl, rfl, rfl, rfl, rfl⟩

end Props
