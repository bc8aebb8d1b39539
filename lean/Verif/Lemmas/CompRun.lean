import Verif.Spec.CompRun
import Verif.Lemmas.Components
/-
Histories of building and calling components.
-/
set_option linter.unusedSimpArgs false
namespace Lemmas
open Py Model Spec

/-! ### What reading from one root does to the rest -/

/-- All is as before, but for new steps below the root `r`. -/
structure Grown (σ σ' : PsState) (r : Nat) : Prop where
  ext : Ext σ.pmods σ'.pmods
  len : σ.steps.length ≤ σ'.steps.length
  old : ∀ (i : Nat) (oi : StepObj), σ.steps[i]? = some oi → ∃ oi', σ'.steps[i]? = some oi' ∧ oi'.pmod = oi.pmod ∧ oi'.name = oi.name
  edges : ∀ a l c, Edge σ' a l c → c < σ.steps.length → Edge σ a l c
  walks : ∀ a ks rs, Walk σ a ks rs → Walk σ' a ks rs
  new : ∀ a l c, Edge σ' a l c → σ.steps.length ≤ c → ∃ ks rs, Walk σ' r ks rs ∧ lastOf r rs = c

theorem Grown.refl {D : Nat} {E : RegexLib} {σ : PsState} (h : Tidy D E σ) (r : Nat) : Grown σ σ r :=
  ⟨Ext.refl _, Nat.le_refl _, fun _ oi h => ⟨oi, h, rfl, rfl⟩, fun _ _ _ h _ => h, fun _ _ _ h => h,
    fun a l c he hc => by have := (h.up a l c he).2; omega⟩

theorem Grown.trans {σ σ1 σ2 : PsState} {r : Nat} (h1 : Grown σ σ1 r) (h2 : Grown σ1 σ2 r) : Grown σ σ2 r := by
  refine ⟨h1.ext.trans h2.ext, Nat.le_trans h1.len h2.len, ?_, ?_, fun a ks rs h => h2.walks _ _ _ (h1.walks _ _ _ h), ?_⟩
  · intro i oi hi
    obtain ⟨o1, a1, a2, a3⟩ := h1.old i oi hi
    obtain ⟨o2, b1, b2, b3⟩ := h2.old i o1 a1
    exact ⟨o2, b1, b2.trans a2, b3.trans a3⟩
  · intro a l c he hc
    exact h1.edges a l c (h2.edges a l c he (Nat.lt_of_lt_of_le hc h1.len)) hc
  · intro a l c he hc
    rcases Nat.lt_or_ge c σ1.steps.length with hlt | hge
    · obtain ⟨ks, rs, k1, k2⟩ := h1.new a l c (h2.edges a l c he hlt) hc
      exact ⟨ks, rs, h2.walks _ _ _ k1, k2⟩
    · exact h2.new a l c he hge

/-- A step there is that is the child of none. -/
def IsRoot (σ : PsState) (r : Nat) : Prop := r < σ.steps.length ∧ NoParent σ r

theorem Grown.isRoot {σ σ' : PsState} {r : Nat} (h : Grown σ σ' r) {x : Nat} (hx : IsRoot σ x) : IsRoot σ' x :=
  ⟨Nat.lt_of_lt_of_le hx.1 h.len, fun s k he => hx.2 s k (h.edges s k x he hx.1)⟩

theorem Grown.rooted {D : Nat} {E : RegexLib} {σ σ' : PsState} {r : Nat} (h : Grown σ σ' r) (hT : Tidy D E σ')
    (hr : IsRoot σ r) {r2 : Nat} {n2 : Str} {t2 : Option Pmod} {c2 : List (List Str)} (hne : r2 ≠ r)
    (hr2 : Rooted σ r2 n2 t2 c2) : Rooted σ' r2 n2 t2 c2 := by
  obtain ⟨o2, g1, g2, g3⟩ := hr2.root
  have hlt2 : r2 < σ.steps.length := (List.getElem?_eq_some_iff.1 g1).1
  have hnp1 := (h.isRoot hr).2
  have hnp2 := (h.isRoot ⟨hlt2, hr2.noParent⟩).2
  obtain ⟨o2', k1, k2, k3⟩ := h.old r2 o2 g1
  refine ⟨⟨o2', k1, k3.trans g2, by rw [k2]; exact denOpt_ext h.ext g3⟩, hnp2, fun qs => ?_⟩
  rw [← hr2.walks qs]
  constructor
  · refine Lemmas.snocInd (P := fun qs => Walkable σ' r2 qs → Walkable σ r2 qs) (fun _ => ⟨[], .nil r2⟩) ?_ qs
    rintro qs q ih ⟨rs, hw⟩
    obtain ⟨rs0, c, rfl, k1, k2⟩ := walk_snoc_inv hw
    rcases Nat.lt_or_ge c σ.steps.length with hc | hc
    · obtain ⟨rs1, hw1⟩ := ih ⟨rs0, k1⟩
      have := walk_unique k1 (h.walks _ _ _ hw1)
      subst this
      exact ⟨_, walk_snoc hw1 (h.edges _ _ _ k2 hc)⟩
    · exfalso
      obtain ⟨ks1, rs1, hw1, hl1⟩ := h.new _ _ _ k2 hc
      exact hne (walk_root_unique hT hnp2 hnp1 _ hw hw1 (by rw [lastOf_snoc, hl1]))
  · rintro ⟨rs, hw⟩; exact ⟨rs, h.walks _ _ _ hw⟩

theorem withDict_grown {D : Nat} {E : RegexLib} {σ : PsState} {s : Nat} {o : StepObj} (h : Tidy D E σ)
    (hs : σ.steps[s]? = some o) (r : Nat) : Grown σ (withDict σ s o).1 r := by
  have hT := withDict_tidy h hs
  have hl := withDict_length σ s o
  obtain ⟨o', ho', hcs, hpm, hss, hoth⟩ := withDict_steps hs
  have hback : ∀ a l c, Edge (withDict σ s o).1 a l c → Edge σ a l c := by
    rintro a l c ⟨oa, h1, h2⟩
    by_cases e : a = s
    · subst e
      rw [ho'] at h1; injection h1 with h1; subst h1
      refine ⟨o, hs, ?_⟩
      rw [← withDict_kids σ a o]
      unfold PsState.kids at h2
      rw [hcs] at h2
      exact h2
    · rw [hoth a e] at h1
      refine ⟨oa, h1, ?_⟩
      unfold PsState.kids at h2 ⊢
      cases hc : oa.csteps with
      | none => rw [hc] at h2; exact h2
      | some d =>
        rw [hc] at h2
        have hv := h.valid a oa d h1 hc
        simp only at h2 ⊢
        rw [(withDict_ext σ s o).get (List.getElem?_eq_getElem hv)] at h2
        rw [List.getElem?_eq_getElem hv]; exact h2
  refine ⟨by rw [withDict_pmods]; exact Ext.refl _, by omega, ?_, fun a l c he _ => hback a l c he, ?_, ?_⟩
  · intro i oi hi
    by_cases e : i = s
    · subst e
      rw [hs] at hi; injection hi with hi; subst hi
      exact ⟨o', ho', hpm, hss.name⟩
    · exact ⟨oi, by rw [hoth i e]; exact hi, rfl, rfl⟩
  · intro a ks rs hw
    induction hw with
    | nil s => exact .nil s
    | cons a k c ks rs he _ ih => exact .cons a k c ks rs (withDict_edge hs he) ih
  · intro a l c he hc
    have := (h.up a l c (hback a l c he)).2
    omega

theorem getAttr_grown {D F : Nat} {E : RegexLib} {σ : PsState} (h : Tidy D E σ) (hF : D ≤ F) {r s : Nat} {k : Str}
    (hk0 : k ≠ []) {pre : List Str} {rs0 : List Nat} (hw : Walk σ r pre rs0) (hl : lastOf r rs0 = s) :
    Grown σ (getAttr F E σ s k).1 r ∧
      ∀ c, (getAttr F E σ s k).2 = .ok (some c) → Edge (getAttr F E σ s k).1 s k c := by
  by_cases hk : StepName k
  case neg =>
    rcases getAttr_not_step F E σ s k hk with e | e <;> (rw [e]; exact ⟨Grown.refl h r, fun c hc => by cases hc⟩)
  cases hs : σ.steps[s]? with
  | none =>
    have : (getAttr F E σ s k).1 = σ ∧ ∀ c, (getAttr F E σ s k).2 ≠ .ok (some c) := by
      unfold getAttr
      simp only [hs]
      split
      · exact ⟨rfl, fun c hc => by cases hc⟩
      · split <;> exact ⟨rfl, fun c hc => by cases hc⟩
    rw [this.1]; exact ⟨Grown.refl h r, fun c hc => absurd hc (this.2 c)⟩
  | some o =>
    obtain ⟨t, hd, _⟩ := h.den s o hs
    obtain ⟨hE, hO⟩ := getAttr_tidy h hF hk hk0 hs hd
    cases hdesc : descOpt E t k with
    | ok ta =>
      obtain ⟨σ', c, e, hT, hx, he, ⟨oc, hoc, _⟩, hold, _, hedge, hedge2, hwalk, _⟩ := hO ta.1 ta.2 hdesc
      rw [e]
      refine ⟨⟨hx, ?_, fun i oi hi => ?_, hedge, hwalk, ?_⟩, fun c' hc' => by cases hc'; exact he⟩
      · simp only
        rcases Nat.lt_or_ge σ'.steps.length σ.steps.length with hlt | hge
        · obtain ⟨oi', h1, _⟩ := hold _ _ (List.getElem?_eq_getElem hlt)
          have := (List.getElem?_eq_some_iff.1 h1).1
          omega
        · exact hge
      · obtain ⟨oi', h1, h2, h3, _⟩ := hold i oi hi
        exact ⟨oi', h1, h2, h3⟩
      · intro a l c' he' hc'
        rcases hedge2 a l c' he' with h1 | ⟨rfl, rfl, rfl⟩
        · have := (h.up _ _ _ h1).2; omega
        · exact ⟨pre ++ [l], rs0 ++ [c'], walk_snoc (hwalk _ _ _ hw) (by rw [hl]; exact he'), lastOf_snoc ..⟩
    | error er =>
      obtain ⟨σ', e⟩ := hE er hdesc
      rcases getAttr_cases (F := F) (E := E) hk hs with ⟨c, co, hg, _, _, e2⟩ | ⟨_, ⟨e1, _, e2⟩ | ⟨_, _, _, _, e2⟩⟩
      · rw [e] at e2; cases e2
      · rw [e2]; exact ⟨withDict_grown h hs r, fun c hc => by cases hc⟩
      · rw [e] at e2; cases e2

theorem getPath_grown {D F : Nat} {E : RegexLib} (hF : D ≤ F) {r : Nat} (p : List Str) : ∀ {σ : PsState} {s : Nat},
    Tidy D E σ → (∀ k ∈ p, k ≠ []) → ∀ {pre : List Str} {rs0 : List Nat}, Walk σ r pre rs0 → lastOf r rs0 = s →
    Grown σ (getPath F E σ s p).1 r := by
  induction p with
  | nil => intro σ s h _ pre rs0 _ _; exact Grown.refl h r
  | cons k p ih =>
    intro σ s h hn pre rs0 hw hl
    obtain ⟨h1, h2⟩ := getAttr_tidy_any (F := F) h hF s (hn k (by simp))
    obtain ⟨g1, g2⟩ := getAttr_grown (F := F) h hF (hn k (by simp)) hw hl
    rw [getPath]
    generalize getAttr F E σ s k = g at h1 h2 g1 g2
    obtain ⟨σ1, res⟩ := g
    cases res with
    | error e => exact g1
    | ok o =>
      cases o with
      | none => exact g1
      | some c =>
        simp only at h1 h2 g1 g2 ⊢
        have := ih (s := c) h1 (fun k hk => hn k (by simp [hk]))
          (walk_snoc (g1.walks _ _ _ hw) (by rw [hl]; exact g2 c rfl)) (lastOf_snoc ..)
        generalize getPath F E σ1 c p = g at this
        obtain ⟨σ2, res⟩ := g
        cases res <;> exact g1.trans this

/-- Reading what has been read alters nothing. -/
theorem getPath_again {D F : Nat} {E : RegexLib} {σ : PsState} (h : Tidy D E σ) (p : List Str) : ∀ {s : Nat} {rs : List Nat},
    Walk σ s p rs → (∀ k ∈ p, StepName k) → getPath F E σ s p = (σ, .ok rs) := by
  induction p with
  | nil => intro s rs hw _; cases hw; rfl
  | cons k p ih =>
    intro s rs hw hn
    cases hw with
    | cons _ _ c _ rs he hw =>
      have hi := ih hw (fun k hk => hn k (by simp [hk]))
      obtain ⟨o, ho, hg⟩ := id he
      obtain ⟨oc, _, _, _, h1, _, _, _, _, h6⟩ := h.link s k c o he ho
      have : getAttr F E σ s k = (σ, .ok (some c)) := by
        rcases getAttr_cases (F := F) (E := E) (hn k (by simp)) ho with ⟨c', co, h1', _, _, e⟩ | ⟨hno, _⟩
        · rw [hg] at h1'; cases h1'; exact e
        · exact absurd (hno c oc hg h1) h6
      rw [getPath, this]
      simp only [hi]

/-! ### What one component does to the rest -/

/-- Making a step without parent. -/
theorem newStep_others {D F : Nat} {E : RegexLib} (hF : D ≤ F) {σ : PsState} (h : Tidy D E σ) {pmod : Option Nat}
    {t : Option Pmod} (hd : DenOpt σ.pmods pmod t) (hw : ∀ x, t = some x → Within D x) (pname : Str) :
    (∃ e, newStep F E σ pname (mapsOf pmod) none [] = (σ, .error e)) ∨
    ∃ σ', newStep F E σ pname (mapsOf pmod) none [] = (σ', .ok σ.steps.length) ∧ Tidy D E σ' ∧ Ext σ.pmods σ'.pmods ∧
      IsRoot σ' σ.steps.length ∧ (∀ x, IsRoot σ x → IsRoot σ' x) ∧
      ∀ {r2 : Nat} {n2 : Str} {t2 : Option Pmod} {c2 : List (List Str)}, Rooted σ r2 n2 t2 c2 → Rooted σ' r2 n2 t2 c2 := by
  obtain ⟨m1, m2⟩ := root_made (F := F) hF h hd hw pname
  cases hdesc : descOpt E t pname with
  | error e => exact .inl ⟨e, m1 e hdesc⟩
  | ok ta =>
    obtain ⟨σ', r, e1, hT, hx, hR, hr, hk⟩ := m2 ta.1 ta.2 hdesc
    subst hr
    refine .inr ⟨σ', e1, hT, hx, ?_, ?_, hk⟩
    · obtain ⟨o, ho, _⟩ := hR.root
      exact ⟨(List.getElem?_eq_some_iff.1 ho).1, hR.noParent⟩
    · have hshape : ∃ o' h', σ' = ⟨h', σ.steps ++ [o'], σ.dicts⟩ ∧ o'.csteps = none := by
        have hn := e1
        unfold newStep at hn
        cases pmod with
        | none =>
          simp only [mapsOf] at hn
          cases hn
          exact ⟨_, _, rfl, rfl⟩
        | some p =>
          simp only [mapsOf] at hn
          cases hde : descendH F E σ.pmods p pname with
          | error e => simp [hde] at hn
          | ok q =>
            obtain ⟨h', p2, a⟩ := q
            simp only [hde, Prod.mk.injEq, Except.ok.injEq] at hn
            exact ⟨_, _, hn.1.symm, rfl⟩
      obtain ⟨o', h', rfl, hcs⟩ := hshape
      rintro x ⟨h1, h2⟩
      refine ⟨by simp only [List.length_append]; omega, ?_⟩
      rintro s k ⟨os, g1, g2⟩
      rcases Nat.lt_or_ge s σ.steps.length with hlt | hge
      · simp only [List.getElem?_append_left hlt] at g1
        exact h2 s k ⟨os, g1, g2⟩
      · simp only [List.getElem?_append_right hge] at g1
        have : s - σ.steps.length = 0 := by
          have := (List.getElem?_eq_some_iff.1 g1).1
          simp only [List.length_cons, List.length_nil] at this
          omega
        rw [this] at g1
        simp only [List.getElem?_cons_zero, Option.some.injEq] at g1
        subst g1
        simp [PsState.kids, hcs] at g2

/-- Between two states of a component and its steps: what is kept of everything else. -/
structure Apart (D : Nat) (E : RegexLib) (σ : PsState) (c : Comp) (σ' : PsState) (c' : Comp) : Prop where
  tidy : Tidy D E σ'
  ext : Ext σ.pmods σ'.pmods
  name : c'.name = c.name
  cfunc : c'.cfunc = c.cfunc
  pmod : c'.pmod = c.pmod
  roots : ∀ x, IsRoot σ x → IsRoot σ' x
  pinp : ∀ r, c'.pinp = some r → IsRoot σ' r ∧ (c.pinp = some r ∨ σ.steps.length ≤ r)
  pout : ∀ r, c'.pout = some r → IsRoot σ' r ∧ (c.pout = some r ∨ σ.steps.length ≤ r)
  others : ∀ {r2 : Nat} {n2 : Str} {t2 : Option Pmod} {c2 : List (List Str)}, c.pinp ≠ some r2 → c.pout ≠ some r2 →
    Rooted σ r2 n2 t2 c2 → Rooted σ' r2 n2 t2 c2

theorem rooted_isRoot {σ : PsState} {r : Nat} {n : Str} {t : Option Pmod} {c : List (List Str)} (h : Rooted σ r n t c) :
    IsRoot σ r := by
  obtain ⟨o, ho, _⟩ := h.root
  exact ⟨(List.getElem?_eq_some_iff.1 ho).1, h.noParent⟩

/-- One of the two steps of a component, used: what happens to it and to the rest. -/
theorem use_others {D F : Nat} {E : RegexLib} (hF : D ≤ F) {σ : PsState} (h : Tidy D E σ) {pmod : Option Nat}
    {t : Option Pmod} (hd : DenOpt σ.pmods pmod t) (hw : ∀ x, t = some x → Within D x) {cur : Option Nat}
    (hcur : ∀ r, cur = some r → IsRoot σ r) (pname : Str) {ch : List Str} (hch : ∀ k ∈ ch, k ≠ []) :
    (∃ e, compStep F E σ cur pname pmod = (σ, .error e)) ∨
    ∃ σ1 r, compStep F E σ cur pname pmod = (σ1, .ok r) ∧ (cur = some r ∨ r = σ.steps.length) ∧
      Tidy D E (getPath F E σ1 r ch).1 ∧ Ext σ.pmods (getPath F E σ1 r ch).1.pmods ∧
      σ.steps.length ≤ (getPath F E σ1 r ch).1.steps.length ∧
      IsRoot (getPath F E σ1 r ch).1 r ∧ (∀ x, IsRoot σ x → IsRoot (getPath F E σ1 r ch).1 x) ∧
      ∀ {r2 : Nat} {n2 : Str} {t2 : Option Pmod} {c2 : List (List Str)}, cur ≠ some r2 → Rooted σ r2 n2 t2 c2 →
        Rooted (getPath F E σ1 r ch).1 r2 n2 t2 c2 := by
  cases cur with
  | some r =>
    refine .inr ⟨σ, r, rfl, .inl rfl, ?_⟩
    obtain ⟨g1, g2⟩ := getPath_tidy_any (F := F) (E := E) hF ch r h hch
    have hg := getPath_grown (F := F) (E := E) (D := D) hF (r := r) ch h hch (.nil r) rfl
    have hr := hcur r rfl
    exact ⟨g1, g2, hg.len, hg.isRoot hr, fun x hx => hg.isRoot hx,
      fun hne hr2 => hg.rooted g1 hr (fun e => hne (by rw [e])) hr2⟩
  | none =>
    have hcs : compStep F E σ none pname pmod = newStep F E σ pname (mapsOf pmod) none [] := by
      cases pmod <;> rfl
    rw [hcs]
    rcases newStep_others hF h hd hw pname with ⟨e, he⟩ | ⟨σ1, e1, hT, hx, hR, hroots, hk⟩
    · exact .inl ⟨e, he⟩
    · refine .inr ⟨σ1, _, e1, .inr rfl, ?_⟩
      obtain ⟨g1, g2⟩ := getPath_tidy_any (F := F) (E := E) hF ch σ.steps.length hT hch
      have hg := getPath_grown (F := F) (E := E) (D := D) hF (r := σ.steps.length) (s := σ.steps.length) ch hT hch (.nil _) rfl
      refine ⟨g1, hx.trans g2, ?_, hg.isRoot hR, fun x hx => hg.isRoot (hroots x hx), ?_⟩
      · have := hg.len; have := hR.1; omega
      · intro r2 n2 t2 c2 _ hr2
        refine hg.rooted g1 hR ?_ (hk hr2)
        have := (rooted_isRoot hr2).1
        omega

/-- What a component has: its mappings mean something, and its steps are roots and apart. -/
structure Sane (D : Nat) (σ : PsState) (c : Comp) : Prop where
  den : ∃ t, DenOpt σ.pmods c.pmod t ∧ ∀ x, t = some x → Within D x
  pinp : ∀ r, c.pinp = some r → IsRoot σ r
  pout : ∀ r, c.pout = some r → IsRoot σ r

theorem Apart.sane {D : Nat} {E : RegexLib} {σ σ' : PsState} {c c' : Comp} (h : Apart D E σ c σ' c') (hs : Sane D σ c) :
    Sane D σ' c' := by
  obtain ⟨t, h1, h2⟩ := hs.den
  exact ⟨⟨t, by rw [h.pmod]; exact denOpt_ext h.ext h1, h2⟩, fun r hr => (h.pinp r hr).1, fun r hr => (h.pout r hr).1⟩

theorem Apart.refl {D : Nat} {E : RegexLib} {σ : PsState} {c : Comp} (h : Tidy D E σ) (hs : Sane D σ c) :
    Apart D E σ c σ c :=
  ⟨h, Ext.refl _, rfl, rfl, rfl, fun _ h => h, fun r hr => ⟨hs.pinp r hr, .inl hr⟩, fun r hr => ⟨hs.pout r hr, .inl hr⟩,
    fun _ _ h => h⟩

theorem runAct_apart {D F : Nat} {E : RegexLib} (hF : D ≤ F) {σ : PsState} {c : Comp} (h : Tidy D E σ) (hs : Sane D σ c)
    {a : Act} (ha : SoundAct F a) : Apart D E σ c (runAct F E σ c a).1.1 (runAct F E σ c a).1.2 ∧
      σ.steps.length ≤ (runAct F E σ c a).1.1.steps.length := by
  obtain ⟨t, hd, hw⟩ := hs.den
  have hrefl := Apart.refl (E := E) h hs
  cases a with
  | fixInp p => exact ⟨⟨h, Ext.refl _, rfl, rfl, rfl, fun _ h => h, hrefl.pinp, hrefl.pout, fun _ _ h => h⟩, Nat.le_refl _⟩
  | fixOut p => exact ⟨⟨h, Ext.refl _, rfl, rfl, rfl, fun _ h => h, hrefl.pinp, hrefl.pout, fun _ _ h => h⟩, Nat.le_refl _⟩
  | inp path ch =>
    rcases use_others (F := F) (E := E) hF h hd hw hs.pinp (pathOrName path c.name) ha.1 with
      ⟨e, he⟩ | ⟨σ1, r, e1, hr, b1, b2, b3, b4, b5, b6⟩
    · simp only [runAct, he]; exact ⟨hrefl, Nat.le_refl _⟩
    · simp only [runAct, e1]
      generalize getPath F E σ1 r ch = g at b1 b2 b3 b4 b5 b6
      obtain ⟨σ2, res⟩ := g
      have : Apart D E σ c σ2 { c with pinp := some r } ∧ σ.steps.length ≤ σ2.steps.length := by
        refine ⟨⟨b1, b2, rfl, rfl, rfl, b5, ?_, fun r' hr' => ⟨b5 _ (hs.pout r' hr'), .inl hr'⟩, fun h1 _ hr2 => b6 h1 hr2⟩, b3⟩
        intro r' hr'
        cases hr'
        exact ⟨b4, hr.imp_right (fun e => by omega)⟩
      cases res <;> exact this
  | out path ch =>
    rcases use_others (F := F) (E := E) hF h hd hw hs.pout (pathOrName path c.name) ha.1 with
      ⟨e, he⟩ | ⟨σ1, r, e1, hr, b1, b2, b3, b4, b5, b6⟩
    · simp only [runAct, he]; exact ⟨hrefl, Nat.le_refl _⟩
    · simp only [runAct, e1]
      generalize getPath F E σ1 r ch = g at b1 b2 b3 b4 b5 b6
      obtain ⟨σ2, res⟩ := g
      have : Apart D E σ c σ2 { c with pout := some r } ∧ σ.steps.length ≤ σ2.steps.length := by
        refine ⟨⟨b1, b2, rfl, rfl, rfl, b5, fun r' hr' => ⟨b5 _ (hs.pinp r' hr'), .inl hr'⟩, ?_, fun _ h2 hr2 => b6 h2 hr2⟩, b3⟩
        intro r' hr'
        cases hr'
        exact ⟨b4, hr.imp_right (fun e => by omega)⟩
      cases res <;> exact this

theorem Apart.trans {D : Nat} {E : RegexLib} {σ σ1 σ2 : PsState} {c c1 c2 : Comp} (h1 : Apart D E σ c σ1 c1)
    (hl : σ.steps.length ≤ σ1.steps.length) (h2 : Apart D E σ1 c1 σ2 c2) : Apart D E σ c σ2 c2 := by
  refine ⟨h2.tidy, h1.ext.trans h2.ext, h2.name.trans h1.name, h2.cfunc.trans h1.cfunc, h2.pmod.trans h1.pmod,
    fun x hx => h2.roots x (h1.roots x hx), ?_, ?_, ?_⟩
  · intro r hr
    obtain ⟨a1, a2⟩ := h2.pinp r hr
    refine ⟨a1, ?_⟩
    rcases a2 with a2 | a2
    · exact (h1.pinp r a2).2
    · exact .inr (Nat.le_trans hl a2)
  · intro r hr
    obtain ⟨a1, a2⟩ := h2.pout r hr
    refine ⟨a1, ?_⟩
    rcases a2 with a2 | a2
    · exact (h1.pout r a2).2
    · exact .inr (Nat.le_trans hl a2)
  · intro r2 n2 t2 c2' hi ho hr2
    have hlt := (rooted_isRoot hr2).1
    refine h2.others ?_ ?_ (h1.others hi ho hr2)
    · intro e
      rcases (h1.pinp r2 e).2 with e' | e'
      · exact hi e'
      · omega
    · intro e
      rcases (h1.pout r2 e).2 with e' | e'
      · exact ho e'
      · omega

theorem runActs_apart {D F : Nat} {E : RegexLib} (hF : D ≤ F) (acts : List Act) : ∀ {σ : PsState} {c : Comp}, Tidy D E σ →
    Sane D σ c → (∀ a ∈ acts, SoundAct F a) → Apart D E σ c (runActs F E σ c acts).1.1 (runActs F E σ c acts).1.2 ∧
      σ.steps.length ≤ (runActs F E σ c acts).1.1.steps.length := by
  induction acts with
  | nil => intro σ c h hs _; exact ⟨Apart.refl h hs, Nat.le_refl _⟩
  | cons a acts ih =>
    intro σ c h hs ha
    obtain ⟨h1, h2⟩ := runAct_apart (F := F) (E := E) hF h hs (ha a (by simp))
    rw [runActs]
    generalize runAct F E σ c a = g at h1 h2
    obtain ⟨⟨σ1, c1⟩, res⟩ := g
    cases res with
    | error e => exact ⟨h1, h2⟩
    | ok u =>
      obtain ⟨i1, i2⟩ := ih h1.tidy (h1.sane hs) (fun b hb => ha b (by simp [hb]))
      exact ⟨h1.trans h2 i1, Nat.le_trans h2 i2⟩

theorem build_apart {D F : Nat} {E : RegexLib} (hF : D ≤ F) {σ : PsState} {c : Comp} (h : Tidy D E σ) {pmod : Option Nat}
    (hd : ∃ t, DenOpt σ.pmods pmod t ∧ ∀ x, t = some x → Within D x) (ha : ∀ a ∈ c.cfunc, SoundAct F a) :
    Apart D E σ { c with inp := [], out := [], pinp := none, pout := none, pmod := pmod } (c.build F E σ pmod).1.1
      (c.build F E σ pmod).1.2 ∧ σ.steps.length ≤ (c.build F E σ pmod).1.1.steps.length := by
  have h0 : Sane D σ { c with inp := [], out := [], pinp := none, pout := none, pmod := pmod } :=
    ⟨hd, fun r hr => (by cases hr), fun r hr => (by cases hr)⟩
  have := runActs_apart (F := F) (E := E) hF c.cfunc h h0 ha
  simp only [Comp.build]
  generalize runActs F E σ _ c.cfunc = g at this
  obtain ⟨⟨σ1, c1⟩, r⟩ := g
  obtain ⟨h1, h2⟩ := this
  have key : ∀ c2 : Comp, c2.name = c1.name → c2.cfunc = c1.cfunc → c2.pmod = c1.pmod → c2.pinp = c1.pinp → c2.pout = c1.pout →
      Apart D E σ { c with inp := [], out := [], pinp := none, pout := none, pmod := pmod } σ1 c2 :=
    fun c2 e1 e2 e3 e4 e5 => ⟨h1.tidy, h1.ext, e1.trans h1.name, e2.trans h1.cfunc, e3.trans h1.pmod, h1.roots,
      by rw [e4]; exact h1.pinp, by rw [e5]; exact h1.pout, h1.others⟩
  cases r with
  | error e => exact ⟨h1, h2⟩
  | ok u =>
    simp only
    split
    · exact ⟨h1, h2⟩
    · split
      · exact ⟨key _ rfl rfl rfl rfl rfl, h2⟩
      · exact ⟨key _ rfl rfl rfl rfl rfl, h2⟩

/-! ### Many components -/

/-- The step is one of those of the component. -/
def Uses (c : Comp) (r : Nat) : Prop := c.pinp = some r ∨ c.pout = some r

structure WorldOk (F : Nat) (E : RegexLib) (h : List PmodObj) (w : CompWorld) : Prop where
  tidy : Tidy F E w.σ
  ext : Ext h w.σ.pmods
  sane : ∀ (i : Nat) (o : CompObj), w.objs[i]? = some o → Sane F w.σ o.comp
  sound : ∀ (i : Nat) (o : CompObj), w.objs[i]? = some o → ∀ a ∈ o.comp.cfunc, SoundAct F a
  apart : ∀ (i j : Nat) (o o' : CompObj), w.objs[i]? = some o → w.objs[j]? = some o' → i ≠ j → ∀ r, Uses o.comp r → ¬ Uses o'.comp r

theorem Sane.lt {D : Nat} {σ : PsState} {c : Comp} (h : Sane D σ c) {r : Nat} (hr : Uses c r) : r < σ.steps.length := by
  rcases hr with hr | hr
  · exact (h.pinp r hr).1
  · exact (h.pout r hr).1

/-- Replacing one component by what it has become. -/
theorem WorldOk.put {F : Nat} {E : RegexLib} {h : List PmodObj} {w : CompWorld} (hw : WorldOk F E h w) {i : Nat} {o : CompObj}
    (ho : w.objs[i]? = some o) {c0 : Comp} (hs0 : Sane F w.σ c0) (hc0 : c0.cfunc = o.comp.cfunc)
    (hu : ∀ r, Uses c0 r → Uses o.comp r) {σ' : PsState} {c' : Comp}
    (ha : Apart F E w.σ c0 σ' c') :
    WorldOk F E h ⟨σ', w.objs.set i ⟨c', true⟩⟩ := by
  have hget : ∀ (j : Nat) (o' : CompObj), (w.objs.set i ⟨c', true⟩)[j]? = some o' →
      (j = i ∧ o' = ⟨c', true⟩) ∨ (j ≠ i ∧ w.objs[j]? = some o') := by
    intro j o' hj
    by_cases e : j = i
    · subst e
      rw [List.getElem?_set_self (List.getElem?_eq_some_iff.1 ho).1] at hj
      injection hj with hj
      exact .inl ⟨rfl, hj.symm⟩
    · rw [List.getElem?_set_ne (Ne.symm e)] at hj
      exact .inr ⟨e, hj⟩
  have hnew : ∀ r, Uses c' r → Uses o.comp r ∨ w.σ.steps.length ≤ r := by
    rintro r (hr | hr)
    · exact (ha.pinp r hr).2.imp_left (fun e => hu r (.inl e))
    · exact (ha.pout r hr).2.imp_left (fun e => hu r (.inr e))
  refine ⟨ha.tidy, hw.ext.trans ha.ext, ?_, ?_, ?_⟩
  · intro j o' hj
    rcases hget j o' hj with ⟨rfl, rfl⟩ | ⟨_, hj'⟩
    · exact ha.sane hs0
    · have hs := hw.sane j o' hj'
      obtain ⟨t, d1, d2⟩ := hs.den
      exact ⟨⟨t, denOpt_ext ha.ext d1, d2⟩, fun r hr => ha.roots r (hs.pinp r hr), fun r hr => ha.roots r (hs.pout r hr)⟩
  · intro j o' hj
    rcases hget j o' hj with ⟨rfl, rfl⟩ | ⟨_, hj'⟩
    · rw [ha.cfunc, hc0]; exact hw.sound _ o ho
    · exact hw.sound j o' hj'
  · intro j k o1 o2 hj hk hne r h1 h2
    rcases hget j o1 hj with ⟨rfl, rfl⟩ | ⟨nj, hj'⟩
    · rcases hget k o2 hk with ⟨rfl, rfl⟩ | ⟨nk, hk'⟩
      · exact hne rfl
      · rcases hnew r h1 with h1 | h1
        · exact hw.apart _ _ _ _ ho hk' hne r h1 h2
        · have := (hw.sane k o2 hk').lt h2; omega
    · rcases hget k o2 hk with ⟨rfl, rfl⟩ | ⟨nk, hk'⟩
      · rcases hnew r h2 with h2 | h2
        · exact hw.apart _ _ _ _ hj' ho hne r h1 h2
        · have := (hw.sane j o1 hj').lt h1; omega
      · exact hw.apart _ _ _ _ hj' hk' hne r h1 h2

/-- The steps of another component are as they were. -/
theorem running_kept {F : Nat} {E : RegexLib} {σ σ' : PsState} {c0 c' c : Comp} {t : Option Pmod}
    {ai ao : List (Option Str × List Str)} (ha : Apart F E σ c0 σ' c') (hr : Running F E t σ c ai ao)
    (hne : ∀ r, Uses c r → ¬ Uses c0 r) : Running F E t σ' c ai ao := by
  have keep : ∀ {asks : List (Option Str × List Str)} {cur : Option Nat}, (∀ r, cur = some r → Uses c r) →
      InUse σ E t c.name asks cur → InUse σ' E t c.name asks cur := by
    intro asks cur hcur hu
    cases asks with
    | nil => exact hu
    | cons a rest =>
      obtain ⟨p, ch⟩ := a
      obtain ⟨r, t', al, e1, e2, e3⟩ := hu
      have := hne r (hcur r e1)
      exact ⟨r, t', al, e1, e2, ha.others (fun e => this (.inl e)) (fun e => this (.inr e)) e3⟩
  exact ⟨ha.tidy, denOpt_ext ha.ext hr.den, ⟨hr.inp.1, keep (fun r e => .inl e) hr.inp.2⟩,
    ⟨hr.out.1, keep (fun r e => .inr e) hr.out.2⟩, hr.apart⟩

theorem usable_den {F : Nat} {h h' : List PmodObj} (hx : Ext h h') {pmod : Option Nat} (hu : Usable F h pmod) :
    ∃ t, DenOpt h' pmod t ∧ ∀ x, t = some x → Within F x := by
  obtain ⟨t, d1, d2⟩ := hu
  exact ⟨t, denOpt_ext hx d1, fun x hx => (within_depth x).mono F (d2 x hx)⟩

/-- The component an operation is on. -/
def opTarget : CompOp → Nat
  | .build j _ => j
  | .call j _ => j

/-- What one operation does, as replacing one component. -/
theorem opOn_put {F : Nat} {E : RegexLib} {h : List PmodObj} {w : CompWorld} (hw : WorldOk F E h w) {op : CompOp}
    (ho : SoundOp F h op) : (opOn F E w op).1 = w ∨
    ∃ (i : Nat) (o : CompObj) (c0 : Comp) (σ' : PsState) (c' : Comp), w.objs[i]? = some o ∧
      opTarget op = i ∧
      (opOn F E w op).1 = ⟨σ', w.objs.set i ⟨c', true⟩⟩ ∧ Sane F w.σ c0 ∧ c0.cfunc = o.comp.cfunc ∧ c0.name = o.comp.name ∧
      (∀ r, Uses c0 r → Uses o.comp r) ∧ Apart F E w.σ c0 σ' c' ∧ w.σ.steps.length ≤ σ'.steps.length := by
  cases op with
  | build i pmod =>
    cases hi : w.objs[i]? with
    | none => left; simp only [opOn, hi]
    | some o =>
      right
      have hd := usable_den hw.ext (show Usable F h pmod from ho)
      obtain ⟨b1, b2⟩ := build_apart (F := F) (E := E) (Nat.le_refl F) (c := o.comp) hw.tidy hd (hw.sound i o hi)
      refine ⟨i, o, { o.comp with inp := [], out := [], pinp := none, pout := none, pmod := pmod }, _, _, hi, rfl, ?_, ⟨hd, fun r hr => (by cases hr), fun r hr => (by cases hr)⟩, rfl, rfl, ?_, b1, b2⟩
      · simp only [opOn, hi]
      · rintro r (hr | hr) <;> cases hr
  | call i acts =>
    cases hi : w.objs[i]? with
    | none => left; simp only [opOn, hi]
    | some o =>
      by_cases hb : o.built = true
      · right
        obtain ⟨b1, b2⟩ := runActs_apart (F := F) (E := E) (Nat.le_refl F) acts hw.tidy (hw.sane i o hi) ho
        refine ⟨i, o, _, _, _, hi, rfl, ?_, hw.sane i o hi, rfl, rfl, fun r h => h, b1, b2⟩
        simp only [opOn, hi, hb, if_true]
      · left
        simp only [opOn, hi, hb]
        cases acts <;> rfl

theorem opOn_ok {F : Nat} {E : RegexLib} {h : List PmodObj} {w : CompWorld} (hw : WorldOk F E h w) {op : CompOp}
    (ho : SoundOp F h op) : WorldOk F E h (opOn F E w op).1 := by
  rcases opOn_put (E := E) hw ho with e | ⟨i, o, c0, σ', c', h1, _, h2, h3, h4, _, h5, h6, h7⟩
  · rw [e]; exact hw
  · rw [h2]; exact hw.put h1 h3 h4 h5 h6

theorem runWorld_ok {F : Nat} {E : RegexLib} {h : List PmodObj} (ops : List CompOp) : ∀ {w : CompWorld}, WorldOk F E h w →
    (∀ op ∈ ops, SoundOp F h op) → WorldOk F E h (runWorld F E w ops) := by
  induction ops with
  | nil => intro w h _; exact h
  | cons op ops ih => intro w hw hs; exact ih (opOn_ok hw (hs op (by simp))) (fun o ho => hs o (by simp [ho]))

/-- A component that has been built, and what has been asked of it since. -/
def Tracked (F : Nat) (E : RegexLib) (t : Option Pmod) (w : CompWorld) (i : Nat) (name : Str) (cfunc : List Act) (acts : List Act)
    (inp out : List Str) : Prop :=
  ∃ c, w.objs[i]? = some ⟨c, true⟩ ∧ c.name = name ∧ c.cfunc = cfunc ∧ c.inp = inp ∧ c.out = out ∧
    Running F E t w.σ c (inpAsks acts) (outAsks acts)

theorem asks_append (xs ys : List Act) : inpAsks (xs ++ ys) = inpAsks xs ++ inpAsks ys ∧
    outAsks (xs ++ ys) = outAsks xs ++ outAsks ys ∧ fixedInp (xs ++ ys) = fixedInp xs ++ fixedInp ys ∧
    fixedOut (xs ++ ys) = fixedOut xs ++ fixedOut ys := by
  simp [inpAsks, outAsks, fixedInp, fixedOut, List.filterMap_append]

theorem tracked_history {F : Nat} {E : RegexLib} {h : List PmodObj} {t : Option Pmod} (htw : ∀ x, t = some x → Within F x)
    {i : Nat} {name : Str} {cfunc : List Act} (ops : List CompOp) : ∀ {w : CompWorld} {acts : List Act} {inp out : List Str},
    WorldOk F E h w → (∀ op ∈ ops, SoundOp F h op) → CallsSucceed F E i w ops → Tracked F E t w i name cfunc acts inp out →
    Tracked F E t (runWorld F E w ops) i name cfunc (acts ++ actsOf i ops) (inp ++ fixedInp (actsOf i ops))
      (out ++ fixedOut (actsOf i ops)) := by
  induction ops with
  | nil => intro w acts inp out _ _ _ ht; simpa [actsOf, fixedInp, fixedOut, runWorld] using ht
  | cons op ops ih =>
    intro w acts inp out hw hs hc ht
    have hok := opOn_ok (E := E) hw (hs op (by simp))
    have hother : opTarget op ≠ i →
        Tracked F E t (opOn F E w op).1 i name cfunc acts inp out := by
      intro hne
      rcases opOn_put (E := E) hw (hs op (by simp)) with e | ⟨j, o, c0, σ', c', h1, hj, h2, h3, h4, _, h5, h6, h7⟩
      · rw [e]; exact ht
      · rw [hj] at hne
        obtain ⟨c, g1, g2, g3, g4, g5, g6⟩ := ht
        refine ⟨c, ?_, g2, g3, g4, g5, ?_⟩
        · rw [h2]; simp only; rw [List.getElem?_set_ne hne]; exact g1
        · rw [h2]
          exact running_kept h6 g6 (fun r hu hu0 => hw.apart j i o _ h1 g1 hne r (h5 r hu0) hu)
    cases op with
    | build j pmod => exact ih hok (fun o ho => hs o (by simp [ho])) hc.2 (hother hc.1)
    | call j acts' =>
      by_cases e : j = i
      · subst e
        have hres := hc.1 rfl
        obtain ⟨c, g1, g2, g3, g4, g5, g6⟩ := ht
        rcases runActs_running (F := F) (D := F) (E := E) (Nat.le_refl F) htw acts' g6 (hs (.call j acts') (by simp)) with
          ⟨σ', c', er, a1, _⟩ | ⟨σ', c', a1, a2, a3, a4, a5, a6, a7, a8⟩
        · exfalso
          simp only [opOn, g1, if_true, a1] at hres
          cases hres
        · have e1 : (opOn F E w (.call j acts')).1 = ⟨σ', w.objs.set j ⟨c', true⟩⟩ := by
            simp only [opOn, g1, if_true, a1]
          have ht' : Tracked F E t (opOn F E w (.call j acts')).1 j name cfunc (acts ++ acts') (inp ++ fixedInp acts')
              (out ++ fixedOut acts') := by
            refine ⟨c', ?_, a4.trans g2, a5.trans g3, by rw [a7, g4], by rw [a8, g5], ?_⟩
            · rw [e1]; exact List.getElem?_set_self (List.getElem?_eq_some_iff.1 g1).1
            · rw [e1, (asks_append acts acts').1, (asks_append acts acts').2.1]; exact a2
          have := ih hok (fun o ho => hs o (by simp [ho])) hc.2 ht'
          rw [show runWorld F E w (.call j acts' :: ops) = runWorld F E (opOn F E w (.call j acts')).1 ops from rfl]
          simpa [actsOf, (asks_append acts' (actsOf j ops)).2.2.1, (asks_append acts' (actsOf j ops)).2.2.2,
            List.append_assoc] using this
      · have := ih hok (fun o ho => hs o (by simp [ho])) hc.2 (hother e)
        rw [show runWorld F E w (.call j acts' :: ops) = runWorld F E (opOn F E w (.call j acts')).1 ops from rfl]
        simpa [actsOf, e] using this

theorem freshWorld_ok {F : Nat} {E : RegexLib} {h : List PmodObj} (hT : Tidy F E ⟨h, [], []⟩) {comps : List (Str × List Act)}
    (hs : ∀ p ∈ comps, ∀ a ∈ p.2, SoundAct F a) : WorldOk F E h (freshWorld h comps) := by
  have hget : ∀ (i : Nat) (o : CompObj), (freshWorld h comps).objs[i]? = some o → ∃ p ∈ comps, o = CompObj.init p.1 p.2 := by
    intro i o ho
    obtain ⟨p, hp, rfl⟩ := List.mem_map.1 (List.mem_of_getElem? ho)
    exact ⟨p, hp, rfl⟩
  refine ⟨hT, Ext.refl _, ?_, ?_, ?_⟩
  · intro i o ho
    obtain ⟨p, _, rfl⟩ := hget i o ho
    exact ⟨⟨none, trivial, fun x hx => by cases hx⟩, fun r hr => (by cases hr), fun r hr => (by cases hr)⟩
  · intro i o ho
    obtain ⟨p, hp, rfl⟩ := hget i o ho
    exact hs p hp
  · intro i j o o' ho _ _ r hr
    obtain ⟨p, _, rfl⟩ := hget i o ho
    rcases hr with hr | hr <;> cases hr

/-- Names and functions of components stay. -/
theorem opOn_same {F : Nat} {E : RegexLib} {h : List PmodObj} {w : CompWorld} (hw : WorldOk F E h w) {op : CompOp}
    (ho : SoundOp F h op) {i : Nat} {o : CompObj} (hi : w.objs[i]? = some o) :
    ∃ o', (opOn F E w op).1.objs[i]? = some o' ∧ o'.comp.name = o.comp.name ∧ o'.comp.cfunc = o.comp.cfunc := by
  rcases opOn_put (E := E) hw ho with e | ⟨j, oj, c0, σ', c', h1, _, h2, h3, h4, h4', h5, h6, h7⟩
  · rw [e]; exact ⟨o, hi, rfl, rfl⟩
  · rw [h2]
    by_cases e : j = i
    · subst e
      rw [hi] at h1; injection h1 with h1; subst h1
      exact ⟨_, List.getElem?_set_self (List.getElem?_eq_some_iff.1 hi).1, h6.name.trans h4', h6.cfunc.trans h4⟩
    · exact ⟨o, by simp only; rw [List.getElem?_set_ne e]; exact hi, rfl, rfl⟩

theorem runWorld_same {F : Nat} {E : RegexLib} {h : List PmodObj} (ops : List CompOp) : ∀ {w : CompWorld}, WorldOk F E h w →
    (∀ op ∈ ops, SoundOp F h op) → ∀ {i : Nat} {o : CompObj}, w.objs[i]? = some o →
    ∃ o', (runWorld F E w ops).objs[i]? = some o' ∧ o'.comp.name = o.comp.name ∧ o'.comp.cfunc = o.comp.cfunc := by
  induction ops with
  | nil => intro w _ _ i o hi; exact ⟨o, hi, rfl, rfl⟩
  | cons op ops ih =>
    intro w hw hs i o hi
    obtain ⟨o1, a1, a2, a3⟩ := opOn_same (E := E) hw (hs op (by simp)) hi
    obtain ⟨o2, b1, b2, b3⟩ := ih (opOn_ok (E := E) hw (hs op (by simp))) (fun o ho => hs o (by simp [ho])) a1
    exact ⟨o2, b1, b2.trans a2, b3.trans a3⟩

/-- A build that succeeds. -/
theorem build_tracked {F : Nat} {E : RegexLib} {h : List PmodObj} {w w1 : CompWorld} (hw : WorldOk F E h w) {i : Nat} {o : CompObj}
    (hi : w.objs[i]? = some o) {pmod : Option Nat} {t : Option Pmod} (hd : DenOpt w.σ.pmods pmod t)
    (htw : ∀ x, t = some x → Within F x) (hb : opOn F E w (.build i pmod) = (w1, .ok ())) :
    ∃ li lo, AskedPaths E t o.comp.name (inpAsks o.comp.cfunc) li ∧ AskedPaths E t o.comp.name (outAsks o.comp.cfunc) lo ∧
      Tracked F E t w1 i o.comp.name o.comp.cfunc o.comp.cfunc (fixedInp o.comp.cfunc ++ li) (fixedOut o.comp.cfunc ++ lo) := by
  have hs := hw.sound i o hi
  have h0 : Running F E t w.σ { o.comp with inp := [], out := [], pinp := none, pout := none, pmod := pmod } [] [] :=
    ⟨hw.tidy, hd, ⟨trivial, rfl⟩, ⟨trivial, rfl⟩, fun r hr => by cases hr⟩
  have hlt := (List.getElem?_eq_some_iff.1 hi).1
  rcases runActs_running (F := F) (D := F) (E := E) (Nat.le_refl F) htw o.comp.cfunc h0 hs with
    ⟨σ', c', e, a1, _⟩ | ⟨σ', c', a1, a2, a3, a4, a5, a6, a7, a8⟩
  · exfalso
    simp only [opOn, hi, Comp.build, a1, Prod.mk.injEq, reduceCtorEq, and_false] at hb
  · rw [List.nil_append, List.nil_append] at a2
    have hlen : ∀ a ∈ inpAsks o.comp.cfunc, a.2.length < F := by
      intro a ha
      obtain ⟨b, hb, hb2⟩ := List.mem_filterMap.1 ha
      cases b with
      | inp p ch => cases hb2; exact (hs _ hb).2
      | _ => cases hb2
    have hlen2 : ∀ a ∈ outAsks o.comp.cfunc, a.2.length < F := by
      intro a ha
      obtain ⟨b, hb, hb2⟩ := List.mem_filterMap.1 ha
      cases b with
      | out p ch => cases hb2; exact (hs _ hb).2
      | _ => cases hb2
    obtain ⟨li, l1, l2⟩ := askedPaths_fetch (F := F) a2.tidy a2.inp.2 hlen
    obtain ⟨lo, o1, o2⟩ := askedPaths_fetch (F := F) a2.tidy a2.out.2 hlen2
    have hname : c'.name = o.comp.name := a4
    rw [hname] at l2 o2
    refine ⟨li, lo, l2, o2, ?_⟩
    simp only [opOn, hi, Comp.build, a1, l1, o1, Prod.mk.injEq, and_true] at hb
    subst hb
    refine ⟨{ c' with inp := c'.inp ++ li, out := c'.out ++ lo }, List.getElem?_set_self hlt, hname, a5, ?_, ?_, ?_⟩
    · show c'.inp ++ li = _
      rw [a7]; rfl
    · show c'.out ++ lo = _
      rw [a8]; rfl
    · exact ⟨a2.tidy, a2.den, a2.inp, a2.out, a2.apart⟩

/-- Doing again what was done alters no steps. -/
theorem runActs_again {F : Nat} {E : RegexLib} {t : Option Pmod} {σ : PsState} {ai ao : List (Option Str × List Str)} (acts : List Act) :
    ∀ {c : Comp}, Running F E t σ c ai ao → (∀ a ∈ inpAsks acts, a ∈ ai) → (∀ a ∈ outAsks acts, a ∈ ao) →
    runActs F E σ c acts = ((σ, { c with inp := c.inp ++ fixedInp acts, out := c.out ++ fixedOut acts }), .ok ()) := by
  have use : ∀ {c : Comp} {asks : List (Option Str × List Str)} {cur : Option Nat} {pname : Str} {p : Option Str} {ch : List Str},
      Tidy F E σ → Askable E t c.name asks → InUse σ E t c.name asks cur → (p, ch) ∈ asks →
      ∃ r rs, cur = some r ∧ compStep F E σ cur pname c.pmod = (σ, .ok r) ∧ getPath F E σ r ch = (σ, .ok rs) := by
    intro c asks cur pname p ch hT hask hu hm
    cases asks with
    | nil => cases hm
    | cons a rest =>
      obtain ⟨p0, ch0⟩ := a
      obtain ⟨r, t', al, e1, e2, e3⟩ := hu
      subst e1
      obtain ⟨t'', al', _, hall⟩ := hask
      have hch : ch ∈ ch0 :: rest.map Prod.snd := by
        rcases List.mem_cons.1 hm with e | e
        · cases e; simp
        · exact List.mem_cons_of_mem _ (List.mem_map.2 ⟨_, e, rfl⟩)
      obtain ⟨rs, hwalk⟩ := (e3.walks ch).2 (.inr ⟨ch, hch, List.prefix_refl _⟩)
      exact ⟨r, rs, rfl, rfl, getPath_again hT ch hwalk (fun k hk => ((hall ch hch).1 k hk).1)⟩
  induction acts with
  | nil => intro c _ _ _; simp [runActs, fixedInp, fixedOut]
  | cons a acts ih =>
    intro c h hi ho
    obtain ⟨c1, c2, c3, c4⟩ := asks_cons a acts
    have hi1 : ∀ a ∈ inpAsks acts, a ∈ ai := fun b hb => hi b (by rw [c1]; exact List.mem_append_right _ hb)
    have ho1 : ∀ a ∈ outAsks acts, a ∈ ao := fun b hb => ho b (by rw [c2]; exact List.mem_append_right _ hb)
    cases a with
    | fixInp p =>
      have := ih (c := { c with inp := c.inp ++ [p] }) ⟨h.tidy, h.den, h.inp, h.out, h.apart⟩ hi1 ho1
      rw [runActs, runAct]
      simp only [this, c3, c4]
      simp [fixedInp, fixedOut]
    | fixOut p =>
      have := ih (c := { c with out := c.out ++ [p] }) ⟨h.tidy, h.den, h.inp, h.out, h.apart⟩ hi1 ho1
      rw [runActs, runAct]
      simp only [this, c3, c4]
      simp [fixedInp, fixedOut]
    | inp path ch =>
      obtain ⟨r, rs, e1, e2, e3⟩ := use (pname := pathOrName path c.name) h.tidy h.inp.1 h.inp.2 (hi (path, ch) (by rw [c1]; exact List.mem_append_left _ (by simp [inpAsks])))
      have hsame : { c with pinp := some r } = c := by rw [← e1]
      rw [runActs, runAct]
      simp only [e2, e3, hsame, ih h hi1 ho1, c3, c4]
      simp [fixedInp, fixedOut]
    | out path ch =>
      obtain ⟨r, rs, e1, e2, e3⟩ := use (pname := pathOrName path c.name) h.tidy h.out.1 h.out.2 (ho (path, ch) (by rw [c2]; exact List.mem_append_left _ (by simp [outAsks])))
      have hsame : { c with pout := some r } = c := by rw [← e1]
      rw [runActs, runAct]
      simp only [e2, e3, hsame, ih h hi1 ho1, c3, c4]
      simp [fixedInp, fixedOut]

end Lemmas
