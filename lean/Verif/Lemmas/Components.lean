import Verif.Spec.Components
import Verif.Lemmas.PstepTree
/-
Building components: what is there before does not matter.
-/
set_option linter.unusedSimpArgs false
namespace Lemmas
open Py Model Spec

/-- A step that is the child of none. -/
def NoParent (σ : PsState) (r : Nat) : Prop := ∀ s k, ¬ Edge σ s k r

theorem withDict_tidy {D : Nat} {E : RegexLib} {σ : PsState} {s : Nat} {o : StepObj} (h : Tidy D E σ)
    (hs : σ.steps[s]? = some o) : Tidy D E (withDict σ s o).1 := by
  have hl := withDict_length σ s o
  have hp := withDict_pmods σ s o
  obtain ⟨o', ho', hcs, hpm, hss, hoth⟩ := withDict_steps hs
  obtain ⟨hlt, hned⟩ := withDict_snd h hs
  have hkk := withDict_kids σ s o
  have hx := withDict_ext σ s o
  have hstep : ∀ (i : Nat) (oi : StepObj), (withDict σ s o).1.steps[i]? = some oi →
      ∃ oi0, σ.steps[i]? = some oi0 ∧ oi.pmod = oi0.pmod ∧ oi.name = oi0.name ∧
        (withDict σ s o).1.kids oi = σ.kids oi0 ∧
        ∀ d, oi.csteps = some d → (i = s ∧ d = (withDict σ s o).2) ∨ (i ≠ s ∧ oi0.csteps = some d) := by
    intro i oi hi
    by_cases e : i = s
    · subst e
      rw [ho'] at hi; injection hi with hi; subst hi
      refine ⟨o, hs, hpm, hss.name, ?_, fun d hd => .inl ⟨rfl, ?_⟩⟩
      · show (match o'.csteps with | none => [] | some d => _) = _
        rw [hcs]; exact hkk
      · rw [hcs] at hd; injection hd with hd; exact hd.symm
    · rw [hoth i e] at hi
      refine ⟨oi, hi, rfl, rfl, ?_, fun d hd => .inr ⟨e, hd⟩⟩
      unfold PsState.kids
      cases hc : oi.csteps with
      | none => rfl
      | some d =>
        have hv := h.valid i oi d hi hc
        simp only
        rw [hx.get (List.getElem?_eq_getElem hv), List.getElem?_eq_getElem hv]
  have hedge : ∀ a l c, Edge (withDict σ s o).1 a l c → Edge σ a l c := by
    rintro a l c ⟨oa, h1, h2⟩
    obtain ⟨oa0, g1, _, _, g4, _⟩ := hstep a oa h1
    exact ⟨oa0, g1, by rw [← g4]; exact h2⟩
  constructor
  · intro i j oi oj d hi hj h1 h2
    obtain ⟨oi0, a1, _, _, _, a5⟩ := hstep i oi hi
    obtain ⟨oj0, b1, _, _, _, b5⟩ := hstep j oj hj
    rcases a5 d h1 with ⟨e1, e2⟩ | ⟨e1, e2⟩
    · rcases b5 d h2 with ⟨f1, f2⟩ | ⟨f1, f2⟩
      · rw [e1, f1]
      · exact absurd e2 (hned j oj0 d f1 b1 f2)
    · rcases b5 d h2 with ⟨f1, f2⟩ | ⟨f1, f2⟩
      · exact absurd f2 (hned i oi0 d e1 a1 e2)
      · exact h.unshared i j oi0 oj0 d a1 b1 e2 f2
  · intro i oi d hi h1
    obtain ⟨oi0, a1, _, _, _, a5⟩ := hstep i oi hi
    rcases a5 d h1 with ⟨e1, e2⟩ | ⟨e1, e2⟩
    · rw [e2]; exact hlt
    · have := h.valid i oi0 d a1 e2
      obtain ⟨e, he⟩ := hx
      rw [he, List.length_append]; omega
  · intro i oi hi
    obtain ⟨oi0, a1, _, _, a4, _⟩ := hstep i oi hi
    rw [a4]; exact h.keys i oi0 a1
  · intro a l c he; rw [hl]; exact h.up a l c (hedge a l c he)
  · intro a l a' l' c he he'; exact h.parent a l a' l' c (hedge _ _ _ he) (hedge _ _ _ he')
  · intro i oi hi
    obtain ⟨oi0, a1, a2, _⟩ := hstep i oi hi
    rw [hp, a2]; exact h.den i oi0 a1
  · intro a l c oa he ha
    obtain ⟨oa0, a1, a2, _⟩ := hstep a oa ha
    obtain ⟨oc, t, t', al, h1, h2, h3, h4, h5, h6⟩ := h.link a l c oa0 (hedge _ _ _ he) a1
    have hlt' := (List.getElem?_eq_some_iff.1 h1).1
    rw [← hl] at hlt'
    have hoc := List.getElem?_eq_getElem hlt'
    obtain ⟨oc0, c1, c2, c3, _⟩ := hstep c _ hoc
    rw [h1] at c1; injection c1 with c1; subst c1
    exact ⟨_, t, t', al, hoc, by rw [hp, a2]; exact h2, h3, by rw [hp, c2]; exact h4, by rw [c3]; exact h5, by rw [c3]; exact h6⟩

/-- Whatever happens when reading an attribute, the tree stays tidy. -/
theorem getAttr_tidy_any {D F : Nat} {E : RegexLib} {σ : PsState} (h : Tidy D E σ) (hF : D ≤ F) (s : Nat) {k : Str}
    (hk0 : k ≠ []) : Tidy D E (getAttr F E σ s k).1 ∧ Ext σ.pmods (getAttr F E σ s k).1.pmods := by
  by_cases hk : StepName k
  case neg => rcases getAttr_not_step F E σ s k hk with e | e <;> (rw [e]; exact ⟨h, Ext.refl _⟩)
  cases hs : σ.steps[s]? with
  | none =>
    have : (getAttr F E σ s k).1 = σ := by
      unfold getAttr
      simp only [hs]
      split
      · rfl
      · split <;> rfl
    rw [this]; exact ⟨h, Ext.refl _⟩
  | some o =>
    obtain ⟨t, hd, _⟩ := h.den s o hs
    obtain ⟨_, hO⟩ := getAttr_tidy h hF hk hk0 hs hd
    cases hdesc : descOpt E t k with
    | ok ta =>
      obtain ⟨σ', c, e, hT, hx, _⟩ := hO ta.1 ta.2 hdesc
      rw [e]; exact ⟨hT, hx⟩
    | error er =>
      obtain ⟨hE, _⟩ := getAttr_tidy h hF hk hk0 hs hd
      obtain ⟨σ', e⟩ := hE er hdesc
      rcases getAttr_cases (F := F) (E := E) hk hs with ⟨c, co, _, _, _, e2⟩ | ⟨_, ⟨e1, _, e2⟩ | ⟨_, _, _, _, e2⟩⟩
      · rw [e2]; exact ⟨h, Ext.refl _⟩
      · rw [e2]; exact ⟨withDict_tidy h hs, by simp only; rw [withDict_pmods]; exact Ext.refl _⟩
      · rw [e] at e2; cases e2

theorem getPath_tidy_any {D F : Nat} {E : RegexLib} (hF : D ≤ F) (p : List Str) : ∀ {σ : PsState} (s : Nat),
    Tidy D E σ → (∀ k ∈ p, k ≠ []) →
    Tidy D E (getPath F E σ s p).1 ∧ Ext σ.pmods (getPath F E σ s p).1.pmods := by
  induction p with
  | nil => intro σ s h _; exact ⟨h, Ext.refl _⟩
  | cons k p ih =>
    intro σ s h hn
    obtain ⟨h1, h2⟩ := getAttr_tidy_any h hF s (hn k (by simp))
    rw [getPath]
    generalize getAttr F E σ s k = g at h1 h2
    obtain ⟨σ1, r⟩ := g
    cases r with
    | error e => exact ⟨h1, h2⟩
    | ok o =>
      cases o with
      | none => exact ⟨h1, h2⟩
      | some c =>
        simp only at h1 h2 ⊢
        obtain ⟨i1, i2⟩ := ih c h1 (fun k hk => hn k (by simp [hk]))
        generalize getPath F E σ1 c p = g at i1 i2
        obtain ⟨σ2, r⟩ := g
        cases r <;> exact ⟨i1, h2.trans i2⟩

/-- The names of a chain that was read are names of steps. -/
theorem getPath_names {F : Nat} {E : RegexLib} (p : List Str) : ∀ {σ σ' : PsState} {s : Nat} {refs : List Nat},
    getPath F E σ s p = (σ', .ok refs) → ∀ k ∈ p, StepName k := by
  induction p with
  | nil => intro σ σ' s refs _ k hk; cases hk
  | cons k p ih =>
    intro σ σ' s refs h k' hk'
    rw [getPath] at h
    have hk : StepName k := by
      apply Classical.byContradiction
      intro hk
      rcases getAttr_not_step F E σ s k hk with e | e <;> (rw [e] at h; simp only at h; cases h)
    rcases List.mem_cons.1 hk' with rfl | hk'
    · exact hk
    · cases hg : getAttr F E σ s k with
      | mk σ1 r =>
        rw [hg] at h
        cases r with
        | error e => cases h
        | ok o =>
          cases o with
          | none => cases h
          | some c =>
            simp only at h
            cases hg2 : getPath F E σ1 c p with
            | mk σ2 r2 =>
              rw [hg2] at h
              cases r2 with
              | error e => cases h
              | ok rs => exact ih hg2 k' hk'

/-- A new root in a tidy tree. -/
theorem newRoot_tidy {D : Nat} {E : RegexLib} {σ : PsState} {h' : List PmodObj} {o : StepObj} (h : Tidy D E σ)
    (hx : Ext σ.pmods h') (hc : o.csteps = none) {t : Option Pmod} (hd : DenOpt h' o.pmod t)
    (hw : ∀ x, t = some x → Within D x) :
    Tidy D E ⟨h', σ.steps ++ [o], σ.dicts⟩ ∧
    (∀ a l c, Edge ⟨h', σ.steps ++ [o], σ.dicts⟩ a l c ↔ Edge σ a l c) ∧
    NoParent ⟨h', σ.steps ++ [o], σ.dicts⟩ σ.steps.length := by
  have hstep : ∀ (i : Nat) (oi : StepObj), (σ.steps ++ [o])[i]? = some oi →
      (i = σ.steps.length ∧ oi = o) ∨ σ.steps[i]? = some oi := by
    intro i oi hi
    rcases Nat.lt_or_ge i σ.steps.length with hlt | hge
    · rw [List.getElem?_append_left hlt] at hi; exact .inr hi
    · left
      rw [List.getElem?_append_right hge] at hi
      have : i - σ.steps.length = 0 := by
        have := (List.getElem?_eq_some_iff.1 hi).1
        simp only [List.length_cons, List.length_nil] at this
        omega
      rw [this] at hi
      simp only [List.getElem?_cons_zero, Option.some.injEq] at hi
      exact ⟨by omega, hi.symm⟩
  have hedge : ∀ a l c, Edge ⟨h', σ.steps ++ [o], σ.dicts⟩ a l c ↔ Edge σ a l c := by
    intro a l c
    constructor
    · rintro ⟨oa, h1, h2⟩
      rcases hstep a oa h1 with ⟨_, rfl⟩ | h1
      · simp [PsState.kids, hc] at h2
      · exact ⟨oa, h1, h2⟩
    · rintro ⟨oa, h1, h2⟩
      exact ⟨oa, (Ext.snoc _ _).get h1, h2⟩
  refine ⟨?_, hedge, fun s k he => ?_⟩
  · constructor
    · intro i j oi oj d hi hj h1 h2
      rcases hstep i oi hi with ⟨_, rfl⟩ | hi
      · rw [hc] at h1; cases h1
      · rcases hstep j oj hj with ⟨_, rfl⟩ | hj
        · rw [hc] at h2; cases h2
        · exact h.unshared i j oi oj d hi hj h1 h2
    · intro i oi d hi h1
      rcases hstep i oi hi with ⟨_, rfl⟩ | hi
      · rw [hc] at h1; cases h1
      · exact h.valid i oi d hi h1
    · intro i oi hi
      rcases hstep i oi hi with ⟨_, rfl⟩ | hi
      · simp only [PsState.kids, hc]; exact List.nodup_nil
      · exact h.keys i oi hi
    · intro a l c he
      have := h.up a l c ((hedge a l c).1 he)
      simp only [List.length_append]; omega
    · intro a l a' l' c he he'; exact h.parent a l a' l' c ((hedge _ _ _).1 he) ((hedge _ _ _).1 he')
    · intro i oi hi
      rcases hstep i oi hi with ⟨_, rfl⟩ | hi
      · exact ⟨t, hd, hw⟩
      · obtain ⟨u, h1, h2⟩ := h.den i oi hi
        exact ⟨u, denOpt_ext hx h1, h2⟩
    · intro a l c oa he ha
      have he' := (hedge _ _ _).1 he
      obtain ⟨oa', ha', _⟩ := id he'
      have := (Ext.snoc σ.steps o).get ha'
      rw [ha] at this; injection this with this; subst this
      obtain ⟨oc, t, t', al, h1, h2, h3, h4, h5, h6⟩ := h.link a l c oa he' ha'
      exact ⟨oc, t, t', al, (Ext.snoc _ _).get h1, denOpt_ext hx h2, h3, denOpt_ext hx h4, h5, h6⟩
  · have := (h.up _ _ _ ((hedge _ _ _).1 he)).2
    omega

/-- Two walks from roots to the same step are from the same root. -/
theorem walk_root_unique {D : Nat} {E : RegexLib} {σ : PsState} (ht : Tidy D E σ) {r1 r2 : Nat} (n1 : NoParent σ r1)
    (n2 : NoParent σ r2) (ks : List Str) : ∀ {ks' : List Str} {rs rs' : List Nat}, Walk σ r1 ks rs → Walk σ r2 ks' rs' →
    lastOf r1 rs = lastOf r2 rs' → r1 = r2 := by
  refine Lemmas.snocInd (P := fun ks => ∀ {ks' : List Str} {rs rs' : List Nat}, Walk σ r1 ks rs → Walk σ r2 ks' rs' →
    lastOf r1 rs = lastOf r2 rs' → r1 = r2) ?_ ?_ ks
  · intro ks' rs rs' h h' he
    cases h
    rcases List.eq_nil_or_concat ks' with e | ⟨qs, q, e⟩
    · subst e; cases h'; simpa [lastOf] using he
    · rw [List.concat_eq_append] at e; subst e
      obtain ⟨rs1, c', rfl, _, h2'⟩ := walk_snoc_inv h'
      rw [lastOf_snoc] at he
      simp only [lastOf, List.getLast_singleton] at he
      subst he
      exact absurd h2' (n1 _ _)
  · intro ks k ih ks' rs rs' h h' he
    obtain ⟨rs0, c, rfl, h1, h2⟩ := walk_snoc_inv h
    rw [lastOf_snoc] at he
    rcases List.eq_nil_or_concat ks' with e | ⟨qs, q, e⟩
    · subst e; cases h'
      simp only [lastOf, List.getLast_singleton] at he
      subst he
      exact absurd h2 (n2 _ _)
    · rw [List.concat_eq_append] at e; subst e
      obtain ⟨rs1, c', rfl, h1', h2'⟩ := walk_snoc_inv h'
      rw [lastOf_snoc] at he
      subst he
      obtain ⟨e1, _⟩ := ht.parent _ _ _ _ _ h2 h2'
      exact ih h1 h1' e1

/-- A root from which the chains `chains` have been read, with its text and mappings. -/
structure Rooted (σ : PsState) (r : Nat) (n0 : Str) (t : Option Pmod) (chains : List (List Str)) : Prop where
  root : ∃ o, σ.steps[r]? = some o ∧ o.name = n0 ∧ DenOpt σ.pmods o.pmod t
  noParent : NoParent σ r
  walks : ∀ qs, Walkable σ r qs ↔ qs = [] ∨ ∃ p ∈ chains, qs <+: p

/-- Reading a chain from a root: whether it succeeds, and what is read from it and from another root then. -/
theorem read_rooted {D F : Nat} {E : RegexLib} (hF : D ≤ F) {σ : PsState} (h : Tidy D E σ) {r : Nat} {n0 : Str}
    {t : Option Pmod} {chains : List (List Str)} (hr : Rooted σ r n0 t chains) {p : List Str} (hp : ReadNames p) :
    ((∃ as u, Along E t p as u) → ∃ σ' refs, getPath F E σ r p = (σ', .ok refs)) ∧
    ∀ {σ' : PsState} {refs : List Nat}, getPath F E σ r p = (σ', .ok refs) →
      Tidy D E σ' ∧ Ext σ.pmods σ'.pmods ∧ Rooted σ' r n0 t (chains ++ [p]) ∧ (∃ as u, Along E t p as u) ∧
      ∀ {r2 : Nat} {n2 : Str} {t2 : Option Pmod} {c2 : List (List Str)}, r2 ≠ r → Rooted σ r2 n2 t2 c2 →
        Rooted σ' r2 n2 t2 c2 := by
  obtain ⟨o, ho, hname, hd⟩ := hr.root
  obtain ⟨g1, g2⟩ := getPath_tidy (F := F) (E := E) hF (r := r) p h hp ho hd (.nil r) rfl
  refine ⟨g1, fun {σ' refs} hg => ?_⟩
  obtain ⟨j1, j2, j3, _, je, jw, jk, jx, j4⟩ := g2 hg
  have hkeep : ∀ {x : Nat} {n : Str} {u : Option Pmod}, (∃ o, σ.steps[x]? = some o ∧ o.name = n ∧ DenOpt σ.pmods o.pmod u) →
      ∃ o, σ'.steps[x]? = some o ∧ o.name = n ∧ DenOpt σ'.pmods o.pmod u := by
    rintro x n u ⟨ox, h1, h2, h3⟩
    obtain ⟨ox', k1, k2, k3, _⟩ := j3 x ox h1
    exact ⟨ox', k1, k3.trans h2, by rw [k2]; exact denOpt_ext j2 h3⟩
  have hno : ∀ {x : Nat}, x < σ.steps.length → NoParent σ x → NoParent σ' x := by
    intro x hx hn s k he
    exact hn s k (je s k x he hx)
  have hlt : ∀ {x : Nat} {n : Str} {u : Option Pmod}, (∃ o, σ.steps[x]? = some o ∧ o.name = n ∧ DenOpt σ.pmods o.pmod u) →
      x < σ.steps.length := by
    rintro x n u ⟨ox, h1, _⟩; exact (List.getElem?_eq_some_iff.1 h1).1
  refine ⟨j1, j2, ⟨hkeep hr.root, hno (hlt hr.root) hr.noParent, fun qs => ?_⟩, ?_, ?_⟩
  · rw [j4 qs, hr.walks qs]
    constructor
    · rintro ((hq | ⟨q, hq, hpre⟩) | ⟨p', hp', rfl⟩)
      · exact .inl hq
      · exact .inr ⟨q, by simp [hq], hpre⟩
      · exact .inr ⟨p, by simp, hp'⟩
    · rintro (hq | ⟨q, hq, hpre⟩)
      · exact .inl (.inl hq)
      · rcases List.mem_append.1 hq with hq | hq
        · exact .inl (.inr ⟨q, hq, hpre⟩)
        · rw [List.mem_singleton] at hq; subst hq
          exact .inr ⟨qs, hpre, rfl⟩
  · obtain ⟨o', h1, _, h3⟩ := hkeep hr.root
    obtain ⟨as, u, hal, _⟩ := walk_names j1 jw h1 h3
    exact ⟨as, u, by simpa using hal⟩
  · intro r2 n2 t2 c2 hne hr2
    have hlt2 := hlt hr2.root
    have hnp1 := hno (hlt hr.root) hr.noParent
    have hnp2 := hno hlt2 hr2.noParent
    refine ⟨hkeep hr2.root, hnp2, fun qs => ?_⟩
    rw [← hr2.walks qs]
    constructor
    · refine Lemmas.snocInd (P := fun qs => Walkable σ' r2 qs → Walkable σ r2 qs) (fun _ => ⟨[], .nil r2⟩) ?_ qs
      rintro qs q ih ⟨rs, hw⟩
      obtain ⟨rs0, c, rfl, k1, k2⟩ := walk_snoc_inv hw
      rcases Nat.lt_or_ge c σ.steps.length with hc | hc
      · obtain ⟨rs1, hw1⟩ := ih ⟨rs0, k1⟩
        have := walk_unique k1 (jk _ _ _ hw1)
        subst this
        exact ⟨_, walk_snoc hw1 (je _ _ _ k2 hc)⟩
      · exfalso
        obtain ⟨ks1, rs1, hw1, hl1⟩ := jx _ _ _ k2 hc
        exact hne (walk_root_unique j1 hnp2 hnp1 _ hw hw1 (by rw [lastOf_snoc, hl1]))
    · rintro ⟨rs, hw⟩; exact ⟨rs, jk _ _ _ hw⟩

/-- Mappings given by reference, or none. -/
def mapsOf (pmod : Option Nat) : Maps := match pmod with | some p => .pmod p | none => .none

/-- Making a root. -/
theorem root_made {D F : Nat} {E : RegexLib} (hF : D ≤ F) {σ : PsState} (h : Tidy D E σ) {pmod : Option Nat}
    {t : Option Pmod} (hd : DenOpt σ.pmods pmod t) (hw : ∀ x, t = some x → Within D x) (pname : Str) :
    (∀ e, descOpt E t pname = .error e → newStep F E σ pname (mapsOf pmod) none [] = (σ, .error e)) ∧
    ∀ t' a, descOpt E t pname = .ok (t', a) →
      ∃ σ' r, newStep F E σ pname (mapsOf pmod) none [] = (σ', .ok r) ∧ Tidy D E σ' ∧ Ext σ.pmods σ'.pmods ∧
        Rooted σ' r (nameFor pname a) t' [] ∧ r = σ.steps.length ∧
        ∀ {r2 : Nat} {n2 : Str} {t2 : Option Pmod} {c2 : List (List Str)}, Rooted σ r2 n2 t2 c2 → Rooted σ' r2 n2 t2 c2 := by
  have fresh : ∀ (h' : List PmodObj) (o : StepObj) t', Ext σ.pmods h' → o.csteps = none → DenOpt h' o.pmod t' →
      (∀ x, t' = some x → Within D x) →
      Tidy D E ⟨h', σ.steps ++ [o], σ.dicts⟩ ∧ Rooted ⟨h', σ.steps ++ [o], σ.dicts⟩ σ.steps.length o.name t' [] ∧
        ∀ {r2 : Nat} {n2 : Str} {t2 : Option Pmod} {c2 : List (List Str)}, Rooted σ r2 n2 t2 c2 →
          Rooted ⟨h', σ.steps ++ [o], σ.dicts⟩ r2 n2 t2 c2 := by
    intro h' o t' hx hc hd' hw'
    obtain ⟨k1, k2, k3⟩ := newRoot_tidy h hx hc hd' hw'
    refine ⟨k1, ⟨⟨o, List.getElem?_concat_length, rfl, hd'⟩, k3, fun qs => ?_⟩, ?_⟩
    · constructor
      · rintro ⟨rs, hw⟩
        cases hw with
        | nil => exact .inl rfl
        | cons _ k c ks rs he _ =>
          exfalso
          have he' := (k2 _ _ _).1 he
          obtain ⟨ox, h1, _⟩ := he'
          have := (List.getElem?_eq_some_iff.1 h1).1
          omega
      · rintro (rfl | ⟨p, hp, _⟩)
        · exact ⟨[], .nil _⟩
        · cases hp
    · intro r2 n2 t2 c2 hr2
      obtain ⟨o2, g1, g2, g3⟩ := hr2.root
      refine ⟨⟨o2, (Ext.snoc _ _).get g1, g2, denOpt_ext hx g3⟩, fun s k he => hr2.noParent s k ((k2 _ _ _).1 he), fun qs => ?_⟩
      rw [← hr2.walks qs]
      have hwalk : ∀ s ks rs, Walk ⟨h', σ.steps ++ [o], σ.dicts⟩ s ks rs ↔ Walk σ s ks rs := by
        intro s ks rs
        constructor
        · intro hw
          induction hw with
          | nil s => exact .nil s
          | cons s k c ks rs he _ ih => exact .cons s k c ks rs ((k2 _ _ _).1 he) ih
        · intro hw
          induction hw with
          | nil s => exact .nil s
          | cons s k c ks rs he _ ih => exact .cons s k c ks rs ((k2 _ _ _).2 he) ih
      exact ⟨fun ⟨rs, h⟩ => ⟨rs, (hwalk _ _ _).1 h⟩, fun ⟨rs, h⟩ => ⟨rs, (hwalk _ _ _).2 h⟩⟩
  cases pmod with
  | none =>
    have ht : t = none := by cases t with | none => rfl | some x => exact hd.elim
    subst ht
    refine ⟨fun e he => (by cases he), fun t' a he => ?_⟩
    cases he
    obtain ⟨k1, k2, k3⟩ := fresh σ.pmods ⟨pname, pname, none, none, canRelocate, []⟩ none (Ext.refl _) rfl trivial
      (fun x hx => by cases hx)
    exact ⟨_, _, rfl, k1, Ext.refl _, k2, rfl, k3⟩
  | some p =>
    obtain ⟨tt, rfl⟩ : ∃ tt, t = some tt := by
      cases t with
      | none => exact hd.elim
      | some tt => exact ⟨tt, rfl⟩
    obtain ⟨hA, hB⟩ := descendH_den (F := F) (E := E) hd (hw tt rfl) hF pname
    refine ⟨fun e he => ?_, fun t' a he => ?_⟩
    · have := hA e he
      simp only [mapsOf, newStep, this]
    · obtain ⟨h', p2, b1, b2, b3, b4⟩ := hB t' a he
      obtain ⟨k1, k2, k3⟩ := fresh h' ⟨nameFor pname a, pname, p2, none, canRelocate, []⟩ t' b2 rfl b3 b4
      refine ⟨_, _, ?_, k1, b2, k2, rfl, k3⟩
      simp only [mapsOf, newStep, b1]
      cases a <;> rfl

/-! ### Building -/

/-- The uses `asks` of a step can be made, where the mappings are `t` and the component has the name `name`. -/
def Askable (E : RegexLib) (t : Option Pmod) (name : Str) : List (Option Str × List Str) → Prop
  | [] => True
  | (p, ch) :: rest => ∃ t' a, descOpt E t (pathOrName p name) = .ok (t', a) ∧
      ∀ q ∈ ch :: rest.map Prod.snd, ReadNames q ∧ ∃ as u, Along E t' q as u

/-- The paths `l` that come from the uses `asks` of a step. -/
def AskedPaths (E : RegexLib) (t : Option Pmod) (name : Str) : List (Option Str × List Str) → List Str → Prop
  | [], l => l = []
  | (p, ch) :: rest, l => ∃ t' a, descOpt E t (pathOrName p name) = .ok (t', a) ∧
      (nameFor (pathOrName p name) a = [] → l = []) ∧
      (nameFor (pathOrName p name) a ≠ [] → StrictlySorted l ∧ ∀ x, x ∈ l ↔ ∃ q as u,
        Maximal (ch :: rest.map Prod.snd) q ∧ Along E t' q as u ∧ x = joinPaths (nameFor (pathOrName p name) a :: namesFor q as))

/-- The step in use is the one of the uses so far. -/
def InUse (σ : PsState) (E : RegexLib) (t : Option Pmod) (name : Str) : List (Option Str × List Str) → Option Nat → Prop
  | [], cur => cur = none
  | (p, ch) :: rest, cur => ∃ r t' a, cur = some r ∧ descOpt E t (pathOrName p name) = .ok (t', a) ∧
      Rooted σ r (nameFor (pathOrName p name) a) t' (ch :: rest.map Prod.snd)

/-- All is kept: whatever was rooted still is. -/
def RootsKept (σ σ' : PsState) (except : Option Nat) : Prop :=
  ∀ {r2 : Nat} {n2 : Str} {t2 : Option Pmod} {c2 : List (List Str)}, (except ≠ some r2) → Rooted σ r2 n2 t2 c2 → Rooted σ' r2 n2 t2 c2

theorem inUse_kept {σ σ' : PsState} {E : RegexLib} {t : Option Pmod} {name : Str} {asks : List (Option Str × List Str)}
    {cur ex : Option Nat} (h : RootsKept σ σ' ex) (hne : ∀ r, cur = some r → ex ≠ some r) (hu : InUse σ E t name asks cur) :
    InUse σ' E t name asks cur := by
  cases asks with
  | nil => exact hu
  | cons a rest =>
    obtain ⟨p, ch⟩ := a
    obtain ⟨r, t', al, h1, h2, h3⟩ := hu
    exact ⟨r, t', al, h1, h2, h (hne r h1) h3⟩

/-- One use of a step: whether it succeeds, and what holds then. -/
theorem use_step {D F : Nat} {E : RegexLib} (hF : D ≤ F) {σ : PsState} (h : Tidy D E σ) {pmod : Option Nat}
    {t : Option Pmod} (hd : DenOpt σ.pmods pmod t) (hw : ∀ x, t = some x → Within D x) {name : Str}
    {asks : List (Option Str × List Str)} {cur : Option Nat} (hask : Askable E t name asks) (hu : InUse σ E t name asks cur)
    (path : Option Str) {ch : List Str} (hch : ∀ k ∈ ch, k ≠ []) :
    (∃ σ1 e, compStep F E σ cur (pathOrName path name) pmod = (σ1, .error e) ∧ Tidy D E σ1 ∧ Ext σ.pmods σ1.pmods ∧
      ¬ Askable E t name (asks ++ [(path, ch)])) ∨
    ∃ σ1 r, compStep F E σ cur (pathOrName path name) pmod = (σ1, .ok r) ∧
      ((∃ σ2 e, getPath F E σ1 r ch = (σ2, .error e) ∧ Tidy D E σ2 ∧ Ext σ.pmods σ2.pmods ∧
        ¬ Askable E t name (asks ++ [(path, ch)])) ∨
      ∃ σ2 refs, getPath F E σ1 r ch = (σ2, .ok refs) ∧ Tidy D E σ2 ∧ Ext σ.pmods σ2.pmods ∧
        Askable E t name (asks ++ [(path, ch)]) ∧ InUse σ2 E t name (asks ++ [(path, ch)]) (some r) ∧
        RootsKept σ σ2 (some r) ∧ (cur = none → r = σ.steps.length) ∧ (∀ r', cur = some r' → r = r')) := by
  -- the reading, once there is a step
  have rd : ∀ (σ1 : PsState) (r : Nat) (n0 : Str) (t' : Option Pmod) (chains : List (List Str)), Tidy D E σ1 →
      Rooted σ1 r n0 t' chains →
      (∃ σ2 e, getPath F E σ1 r ch = (σ2, .error e) ∧ Tidy D E σ2 ∧ Ext σ1.pmods σ2.pmods ∧
        ¬ (ReadNames ch ∧ ∃ as u, Along E t' ch as u)) ∨
      ∃ σ2 refs, getPath F E σ1 r ch = (σ2, .ok refs) ∧ Tidy D E σ2 ∧ Ext σ1.pmods σ2.pmods ∧
        (ReadNames ch ∧ ∃ as u, Along E t' ch as u) ∧ Rooted σ2 r n0 t' (chains ++ [ch]) ∧ RootsKept σ1 σ2 (some r) := by
    intro σ1 r n0 t' chains hT hr
    obtain ⟨g1, g2⟩ := getPath_tidy_any (F := F) (E := E) hF ch r hT hch
    cases hg : getPath F E σ1 r ch with
    | mk σ2 res =>
      rw [hg] at g1 g2
      cases res with
      | error e =>
        refine .inl ⟨σ2, e, rfl, g1, g2, ?_⟩
        rintro ⟨hn, hal⟩
        obtain ⟨σ', refs, h'⟩ := (read_rooted hF hT hr hn).1 hal
        rw [hg] at h'; cases h'
      | ok refs =>
        have hn : ReadNames ch := fun k hk => ⟨getPath_names ch hg k hk, hch k hk⟩
        obtain ⟨_, k2⟩ := read_rooted hF hT hr hn
        obtain ⟨_, _, k3, k4, k5⟩ := k2 hg
        exact .inr ⟨σ2, refs, rfl, g1, g2, ⟨hn, k4⟩, k3, fun hne hr2 => k5 (fun e => hne (by rw [e])) hr2⟩
  cases asks with
  | nil =>
    have hcur : cur = none := hu
    subst hcur
    obtain ⟨m1, m2⟩ := root_made (F := F) hF h hd hw (pathOrName path name)
    have hcs : compStep F E σ none (pathOrName path name) pmod = newStep F E σ (pathOrName path name) (mapsOf pmod) none [] := by
      cases pmod <;> rfl
    rw [hcs]
    cases hdesc : descOpt E t (pathOrName path name) with
    | error e =>
      refine .inl ⟨σ, e, m1 e hdesc, h, Ext.refl _, ?_⟩
      rintro ⟨t', a, h1, _⟩
      rw [hdesc] at h1; cases h1
    | ok ta =>
      obtain ⟨t', a⟩ := ta
      obtain ⟨σ1, r, e1, hT, hx, hR, hr, hk⟩ := m2 t' a hdesc
      refine .inr ⟨σ1, r, e1, ?_⟩
      rcases rd σ1 r _ t' [] hT hR with ⟨σ2, e, a1, a2, a3, a4⟩ | ⟨σ2, refs, a1, a2, a3, a4, a5, a6⟩
      · refine .inl ⟨σ2, e, a1, a2, hx.trans a3, ?_⟩
        rintro ⟨t'', a', h1, h2⟩
        rw [hdesc] at h1; cases h1
        exact a4 (h2 ch (by simp))
      · refine .inr ⟨σ2, refs, a1, a2, hx.trans a3, ⟨t', a, hdesc, ?_⟩, ⟨r, t', a, rfl, hdesc, a5⟩, ?_, fun _ => hr, ?_⟩
        · intro q hq
          simp at hq
          subst hq
          exact a4
        · intro r2 n2 t2 c2 hne hr2; exact a6 hne (hk hr2)
        · intro r' h'; cases h'
  | cons ask rest =>
    obtain ⟨p, ch0⟩ := ask
    obtain ⟨r, t', a, hcur, hdesc, hR⟩ := hu
    subst hcur
    refine .inr ⟨σ, r, rfl, ?_⟩
    obtain ⟨t'', a', hdesc', hall⟩ := hask
    rw [hdesc] at hdesc'; cases hdesc'
    have hmap : ch0 :: (rest ++ [(path, ch)]).map Prod.snd = (ch0 :: rest.map Prod.snd) ++ [ch] := by simp
    rcases rd σ r _ t' _ h hR with ⟨σ2, e, a1, a2, a3, a4⟩ | ⟨σ2, refs, a1, a2, a3, a4, a5, a6⟩
    · refine .inl ⟨σ2, e, a1, a2, a3, ?_⟩
      rintro ⟨t'', a', h1, h2⟩
      rw [hdesc] at h1; cases h1
      exact a4 (h2 ch (by simp))
    · refine .inr ⟨σ2, refs, a1, a2, a3, ⟨t', a, hdesc, ?_⟩, ⟨r, t', a, rfl, hdesc, ?_⟩, a6, (fun h => by cases h), (fun r' h => by cases h; rfl)⟩
      · intro q hq
        change q ∈ ch0 :: (rest ++ [(path, ch)]).map Prod.snd at hq
        rw [hmap] at hq
        rcases List.mem_append.1 hq with hq | hq
        · exact hall q hq
        · rw [List.mem_singleton] at hq; subst hq; exact a4
      · show Rooted _ _ _ _ (ch0 :: (rest ++ [(path, ch)]).map Prod.snd)
        rw [hmap]; exact a5

theorem askable_prefix {E : RegexLib} {t : Option Pmod} {name : Str} {xs ys : List (Option Str × List Str)}
    (h : Askable E t name (xs ++ ys)) : Askable E t name xs := by
  cases xs with
  | nil => trivial
  | cons x xs =>
    obtain ⟨p, ch⟩ := x
    obtain ⟨t', a, h1, h2⟩ := h
    exact ⟨t', a, h1, fun q hq => h2 q (by simp at hq ⊢; rcases hq with h | h <;> simp [h])⟩

/-- What holds while a component function runs. -/
structure Running (D : Nat) (E : RegexLib) (t : Option Pmod) (σ : PsState) (c : Comp) (ai ao : List (Option Str × List Str)) : Prop where
  tidy : Tidy D E σ
  den : DenOpt σ.pmods c.pmod t
  inp : Askable E t c.name ai ∧ InUse σ E t c.name ai c.pinp
  out : Askable E t c.name ao ∧ InUse σ E t c.name ao c.pout
  apart : ∀ r, c.pinp = some r → c.pout ≠ some r

theorem inUse_lt {σ : PsState} {E : RegexLib} {t : Option Pmod} {name : Str} {asks : List (Option Str × List Str)}
    {cur : Option Nat} (hu : InUse σ E t name asks cur) : ∀ r, cur = some r → r < σ.steps.length := by
  intro r hr
  cases asks with
  | nil => rw [show cur = none from hu] at hr; cases hr
  | cons a rest =>
    obtain ⟨p, ch⟩ := a
    obtain ⟨r', t', al, h1, h2, h3⟩ := hu
    rw [hr] at h1; injection h1 with h1; subst h1
    obtain ⟨o, ho, _⟩ := h3.root
    exact (List.getElem?_eq_some_iff.1 ho).1

theorem runAct_running {D F : Nat} {E : RegexLib} (hF : D ≤ F) {t : Option Pmod} (hw : ∀ x, t = some x → Within D x)
    {σ : PsState} {c : Comp} {ai ao : List (Option Str × List Str)} (h : Running D E t σ c ai ao) {a : Act} (ha : SoundAct F a) :
    (∃ σ' c' e, runAct F E σ c a = ((σ', c'), .error e) ∧ Tidy D E σ' ∧ Ext σ.pmods σ'.pmods ∧
      ¬ (Askable E t c.name (ai ++ inpAsks [a]) ∧ Askable E t c.name (ao ++ outAsks [a]))) ∨
    ∃ σ' c', runAct F E σ c a = ((σ', c'), .ok ()) ∧ Running D E t σ' c' (ai ++ inpAsks [a]) (ao ++ outAsks [a]) ∧
      Ext σ.pmods σ'.pmods ∧ c'.name = c.name ∧ c'.cfunc = c.cfunc ∧ c'.pmod = c.pmod ∧
      c'.inp = c.inp ++ fixedInp [a] ∧ c'.out = c.out ++ fixedOut [a] := by
  cases a with
  | fixInp p =>
    refine .inr ⟨σ, { c with inp := c.inp ++ [p] }, rfl, ?_, Ext.refl _, rfl, rfl, rfl, rfl, by simp [fixedOut]⟩
    simpa [inpAsks, outAsks] using (⟨h.tidy, h.den, h.inp, h.out, h.apart⟩ : Running D E t σ { c with inp := c.inp ++ [p] } ai ao)
  | fixOut p =>
    refine .inr ⟨σ, { c with out := c.out ++ [p] }, rfl, ?_, Ext.refl _, rfl, rfl, rfl, by simp [fixedInp], rfl⟩
    simpa [inpAsks, outAsks] using (⟨h.tidy, h.den, h.inp, h.out, h.apart⟩ : Running D E t σ { c with out := c.out ++ [p] } ai ao)
  | inp path ch =>
    have e1 : inpAsks [Act.inp path ch] = [(path, ch)] := rfl
    have e2 : outAsks [Act.inp path ch] = [] := rfl
    rw [e1, e2, List.append_nil]
    rcases use_step hF h.tidy h.den hw h.inp.1 h.inp.2 path ha.1 with
      ⟨σ1, e, a1, a2, a3, a4⟩ | ⟨σ1, r, a1, ⟨σ2, e, b1, b2, b3, b4⟩ | ⟨σ2, refs, b1, b2, b3, b4, b5, b6, b7, b8⟩⟩
    · exact .inl ⟨σ1, c, e, by simp only [runAct, a1], a2, a3, fun x => a4 x.1⟩
    · exact .inl ⟨σ2, { c with pinp := some r }, e, by simp only [runAct, a1, b1], b2, b3, fun x => b4 x.1⟩
    · have hap : ∀ r2, c.pout = some r2 → some r ≠ some r2 := by
        intro r2 hr2 he
        injection he with he; subst he
        cases hp : c.pinp with
        | none => have := b7 hp; have := inUse_lt h.out.2 r hr2; omega
        | some r' => have := b8 r' hp; subst this; exact h.apart r hp hr2
      refine .inr ⟨σ2, { c with pinp := some r }, by simp only [runAct, a1, b1], ⟨b2, denOpt_ext b3 h.den, ⟨b4, b5⟩,
        ⟨h.out.1, inUse_kept b6 hap h.out.2⟩, ?_⟩, b3, rfl, rfl, rfl, by simp [fixedInp], by simp [fixedOut]⟩
      intro r' hr' hpo
      injection hr' with hr'
      subst hr'
      exact hap r hpo rfl
  | out path ch =>
    have e1 : inpAsks [Act.out path ch] = [] := rfl
    have e2 : outAsks [Act.out path ch] = [(path, ch)] := rfl
    rw [e1, e2, List.append_nil]
    rcases use_step hF h.tidy h.den hw h.out.1 h.out.2 path ha.1 with
      ⟨σ1, e, a1, a2, a3, a4⟩ | ⟨σ1, r, a1, ⟨σ2, e, b1, b2, b3, b4⟩ | ⟨σ2, refs, b1, b2, b3, b4, b5, b6, b7, b8⟩⟩
    · exact .inl ⟨σ1, c, e, by simp only [runAct, a1], a2, a3, fun x => a4 x.2⟩
    · exact .inl ⟨σ2, { c with pout := some r }, e, by simp only [runAct, a1, b1], b2, b3, fun x => b4 x.2⟩
    · have hap : ∀ r2, c.pinp = some r2 → some r ≠ some r2 := by
        intro r2 hr2 he
        injection he with he; subst he
        cases hp : c.pout with
        | none => have := b7 hp; have := inUse_lt h.inp.2 r hr2; omega
        | some r' => have := b8 r' hp; subst this; exact h.apart r hr2 hp
      refine .inr ⟨σ2, { c with pout := some r }, by simp only [runAct, a1, b1], ⟨b2, denOpt_ext b3 h.den,
        ⟨h.inp.1, inUse_kept b6 hap h.inp.2⟩, ⟨b4, b5⟩, ?_⟩, b3, rfl, rfl, rfl, by simp [fixedInp], by simp [fixedOut]⟩
      intro r' hr' hpo
      injection hpo with hpo
      subst hpo
      exact hap r hr' rfl

theorem asks_cons (a : Act) (acts : List Act) : inpAsks (a :: acts) = inpAsks [a] ++ inpAsks acts ∧
    outAsks (a :: acts) = outAsks [a] ++ outAsks acts ∧ fixedInp (a :: acts) = fixedInp [a] ++ fixedInp acts ∧
    fixedOut (a :: acts) = fixedOut [a] ++ fixedOut acts := by
  cases a <;> exact ⟨rfl, rfl, rfl, rfl⟩

theorem runActs_running {D F : Nat} {E : RegexLib} (hF : D ≤ F) {t : Option Pmod} (hw : ∀ x, t = some x → Within D x)
    (acts : List Act) : ∀ {σ : PsState} {c : Comp} {ai ao : List (Option Str × List Str)}, Running D E t σ c ai ao →
    (∀ a ∈ acts, SoundAct F a) →
    (∃ σ' c' e, runActs F E σ c acts = ((σ', c'), .error e) ∧ Tidy D E σ' ∧ Ext σ.pmods σ'.pmods ∧
      ¬ (Askable E t c.name (ai ++ inpAsks acts) ∧ Askable E t c.name (ao ++ outAsks acts))) ∨
    ∃ σ' c', runActs F E σ c acts = ((σ', c'), .ok ()) ∧ Running D E t σ' c' (ai ++ inpAsks acts) (ao ++ outAsks acts) ∧
      Ext σ.pmods σ'.pmods ∧ c'.name = c.name ∧ c'.cfunc = c.cfunc ∧ c'.pmod = c.pmod ∧
      c'.inp = c.inp ++ fixedInp acts ∧ c'.out = c.out ++ fixedOut acts := by
  induction acts with
  | nil =>
    intro σ c ai ao h _
    refine .inr ⟨σ, c, rfl, ?_, Ext.refl _, rfl, rfl, rfl, by simp [fixedInp], by simp [fixedOut]⟩
    simpa [inpAsks, outAsks] using h
  | cons a acts ih =>
    intro σ c ai ao h hs
    obtain ⟨c1, c2, c3, c4⟩ := asks_cons a acts
    rw [c1, c2, c3, c4, ← List.append_assoc, ← List.append_assoc, ← List.append_assoc, ← List.append_assoc]
    rcases runAct_running hF hw h (hs a (by simp)) with ⟨σ', c', e, a1, a2, a3, a4⟩ | ⟨σ', c', a1, a2, a3, a4, a5, a6, a7, a8⟩
    · exact .inl ⟨σ', c', e, by simp only [runActs, a1], a2, a3, fun x => a4 ⟨askable_prefix x.1, askable_prefix x.2⟩⟩
    · rcases ih a2 (fun b hb => hs b (by simp [hb])) with ⟨σ2, d, e, b1, b2, b3, b4⟩ | ⟨σ2, d, b1, b2, b3, b4, b5, b6, b7, b8⟩
      · refine .inl ⟨σ2, d, e, by simp only [runActs, a1, b1], b2, a3.trans b3, ?_⟩
        rw [← a4]; exact b4
      · exact .inr ⟨σ2, d, by simp only [runActs, a1, b1], b2, a3.trans b3, b4.trans a4, b5.trans a5, b6.trans a6,
          by rw [b7, a7], by rw [b8, a8]⟩

theorem askedPaths_fetch {D F : Nat} {E : RegexLib} {t : Option Pmod} {σ : PsState} {name : Str}
    {asks : List (Option Str × List Str)} {cur : Option Nat} (hT : Tidy D E σ) (hu : InUse σ E t name asks cur)
    (hlen : ∀ a ∈ asks, a.2.length < F) : ∃ l, fetchAllPaths F σ cur = .ok l ∧ AskedPaths E t name asks l := by
  cases asks with
  | nil => rw [show cur = none from hu]; exact ⟨[], rfl, rfl⟩
  | cons a rest =>
    obtain ⟨p, ch⟩ := a
    obtain ⟨r, t', al, h1, h2, h3⟩ := hu
    subst h1
    obtain ⟨o, ho, hn, hd⟩ := h3.root
    by_cases h0 : o.name = []
    · refine ⟨[], by simp only [fetchAllPaths, ho, if_pos h0], t', al, h2, fun _ => rfl, fun h => ?_⟩
      rw [hn] at h0; exact absurd h0 h
    · have hF0 : ch.length < F := hlen (p, ch) (by simp)
      obtain ⟨l, l1, l2, l3, _⟩ := paths_walked (F := F) hT ho hd hn h3.walks (by
        intro q hq
        simp only [List.mem_cons, List.mem_map] at hq
        rcases hq with rfl | rfl | ⟨b, hb, rfl⟩
        · simp only [List.length_nil]; omega
        · exact hF0
        · exact hlen b (by simp [hb]))
      refine ⟨l, by simp only [fetchAllPaths, ho, if_neg h0, l1], t', al, h2, fun h => ?_, fun _ => ⟨l2, l3⟩⟩
      rw [hn] at h0; exact absurd h h0

/-- What building does. -/
theorem build_spec {D F : Nat} {E : RegexLib} (hF : D ≤ F) {t : Option Pmod} (hw : ∀ x, t = some x → Within D x)
    {σ : PsState} (hT : Tidy D E σ) {pmod : Option Nat} (hd : DenOpt σ.pmods pmod t) (c : Comp)
    (hs : ∀ a ∈ c.cfunc, SoundAct F a) :
    (∃ σ' c' e, c.build F E σ pmod = ((σ', c'), .error e) ∧ Tidy D E σ' ∧ Ext σ.pmods σ'.pmods ∧
      ¬ (Askable E t c.name (inpAsks c.cfunc) ∧ Askable E t c.name (outAsks c.cfunc))) ∨
    ∃ σ' c' li lo, c.build F E σ pmod = ((σ', c'), .ok ()) ∧ Tidy D E σ' ∧ Ext σ.pmods σ'.pmods ∧
      (Askable E t c.name (inpAsks c.cfunc) ∧ Askable E t c.name (outAsks c.cfunc)) ∧
      c'.name = c.name ∧ c'.cfunc = c.cfunc ∧ c'.inp = fixedInp c.cfunc ++ li ∧ c'.out = fixedOut c.cfunc ++ lo ∧
      AskedPaths E t c.name (inpAsks c.cfunc) li ∧ AskedPaths E t c.name (outAsks c.cfunc) lo := by
  have h0 : Running D E t σ { c with inp := [], out := [], pinp := none, pout := none, pmod := pmod } [] [] :=
    ⟨hT, hd, ⟨trivial, rfl⟩, ⟨trivial, rfl⟩, fun r hr => by cases hr⟩
  rcases runActs_running hF hw c.cfunc h0 hs with ⟨σ', c', e, a1, a2, a3, a4⟩ | ⟨σ', c', a1, a2, a3, a4, a5, a6, a7, a8⟩
  · refine .inl ⟨σ', c', e, ?_, a2, a3, by simpa using a4⟩
    simp only [Comp.build, a1]
  · rw [List.nil_append, List.nil_append] at a2
    have hname : c'.name = c.name := a4
    have hi := a2.inp
    have ho := a2.out
    rw [hname] at hi ho
    have hlen : ∀ a ∈ inpAsks c.cfunc, a.2.length < F := by
      intro a ha
      obtain ⟨b, hb, hb2⟩ := List.mem_filterMap.1 ha
      cases b with
      | inp p ch => cases hb2; exact (hs _ hb).2
      | _ => cases hb2
    have hlen2 : ∀ a ∈ outAsks c.cfunc, a.2.length < F := by
      intro a ha
      obtain ⟨b, hb, hb2⟩ := List.mem_filterMap.1 ha
      cases b with
      | out p ch => cases hb2; exact (hs _ hb).2
      | _ => cases hb2
    obtain ⟨li, l1, l2⟩ := askedPaths_fetch (F := F) a2.tidy hi.2 hlen
    obtain ⟨lo, o1, o2⟩ := askedPaths_fetch (F := F) a2.tidy ho.2 hlen2
    have hinp : c'.inp = fixedInp c.cfunc := by simpa using a7
    have hout : c'.out = fixedOut c.cfunc := by simpa using a8
    refine .inr ⟨σ', { c' with inp := c'.inp ++ li, out := c'.out ++ lo }, li, lo, ?_, a2.tidy, a3, ⟨hi.1, ho.1⟩, hname, a5,
      (by show c'.inp ++ li = _; rw [hinp]), (by show c'.out ++ lo = _; rw [hout]), l2, o2⟩
    simp only [Comp.build, a1, l1, o1]

theorem strLt_asymm {a b : Str} (h : strLt a b = true) : strLt b a = false := by
  cases h' : strLt b a with
  | false => rfl
  | true => have := strLt_trans h h'; rw [strLt_irrefl] at this; cases this

/-- Strictly sorted lists with the same members are the same. -/
theorem sorted_unique' : ∀ {l l' : List Str}, l.Pairwise (fun x y => strLt x y = true) →
    l'.Pairwise (fun x y => strLt x y = true) → (∀ x, x ∈ l ↔ x ∈ l') → l = l'
  | [], [], _, _, _ => rfl
  | [], y :: l', _, _, h => by have := (h y).2 (by simp); cases this
  | x :: l, [], _, _, h => by have := (h x).1 (by simp); cases this
  | x :: l, y :: l', hs, hs', h => by
    have hs1 := List.pairwise_cons.1 hs
    have hs2 := List.pairwise_cons.1 hs'
    have hxy : x = y := by
      rcases List.mem_cons.1 ((h x).1 (by simp)) with e | hx
      · exact e
      · rcases List.mem_cons.1 ((h y).2 (by simp)) with e | hy
        · exact e.symm
        · have a := hs1.1 y hy
          have b := hs2.1 x hx
          rw [strLt_asymm a] at b; cases b
    subst hxy
    congr 1
    refine sorted_unique' hs1.2 hs2.2 (fun z => ?_)
    constructor
    · intro hz
      rcases List.mem_cons.1 ((h z).1 (by simp [hz])) with e | h'
      · subst e; have := hs1.1 z hz; rw [strLt_irrefl] at this; cases this
      · exact h'
    · intro hz
      rcases List.mem_cons.1 ((h z).2 (by simp [hz])) with e | h'
      · subst e; have := hs2.1 z hz; rw [strLt_irrefl] at this; cases this
      · exact h'

theorem sorted_unique {l l' : List Str} (h : StrictlySorted l) (h' : StrictlySorted l') (hm : ∀ x, x ∈ l ↔ x ∈ l') : l = l' :=
  sorted_unique' (strictlySorted_iff.1 h) (strictlySorted_iff.1 h') hm

theorem askedPaths_unique {E : RegexLib} {t : Option Pmod} {name : Str} {asks : List (Option Str × List Str)} {l l' : List Str}
    (h : AskedPaths E t name asks l) (h' : AskedPaths E t name asks l') : l = l' := by
  cases asks with
  | nil => exact h.trans h'.symm
  | cons a rest =>
    obtain ⟨p, ch⟩ := a
    obtain ⟨t', a, h1, h2, h3⟩ := h
    obtain ⟨t'', a', g1, g2, g3⟩ := h'
    rw [h1] at g1; cases g1
    by_cases h0 : nameFor (pathOrName p name) a = []
    · rw [h2 h0, g2 h0]
    · obtain ⟨s1, m1⟩ := h3 h0
      obtain ⟨s2, m2⟩ := g3 h0
      exact sorted_unique s1 s2 (fun x => by rw [m1, m2])

end Lemmas
