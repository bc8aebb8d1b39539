import Verif.Lemmas.Components
import Verif.Spec.PstepTuples
/-
The mapping pairs of a tree of steps.
-/
set_option linter.unusedSimpArgs false
namespace Lemmas
open Py Model Spec

theorem insertPair_perm (x : Str × Str) (l : List (Str × Str)) : (insertPair x l).Perm (x :: l) := by
  induction l with
  | nil => exact .refl _
  | cons y t ih =>
    rw [insertPair]
    split
    · exact (List.Perm.cons y ih).trans (List.Perm.swap x y t)
    · exact .refl _

theorem sortPairs_perm (l : List (Str × Str)) : (sortPairs l).Perm l := by
  induction l with
  | nil => exact .refl _
  | cons x l ih => exact (insertPair_perm x (sortPairs l)).trans (List.Perm.cons x ih)

theorem not_strLt {x y : Str} (h : strLt y x = false) : x = y ∨ TextBefore x y := by
  by_cases e : y = x
  · exact .inl e.symm
  · exact .inr (strLt_iff.1 (strLt_total h e))

theorem before_trans {x y z : Str} (h : x = y ∨ TextBefore x y) (h' : y = z ∨ TextBefore y z) : x = z ∨ TextBefore x z := by
  rcases h with rfl | h
  · exact h'
  · rcases h' with rfl | h'
    · exact .inr h
    · exact .inr (strLt_iff.1 (strLt_trans (strLt_iff.2 h) (strLt_iff.2 h')))

theorem insertPair_sorted {x : Str × Str} {l : List (Str × Str)} (h : SortedByFirst l) : SortedByFirst (insertPair x l) := by
  unfold SortedByFirst at *
  induction l with
  | nil => simp [insertPair]
  | cons y t ih =>
    rw [insertPair]
    obtain ⟨h1, h2⟩ := List.pairwise_cons.1 h
    split
    · next hlt =>
      refine List.pairwise_cons.2 ⟨fun z hz => ?_, ih h2⟩
      rcases List.mem_cons.1 ((insertPair_perm x t).mem_iff.1 hz) with rfl | hz
      · exact .inr (strLt_iff.1 hlt)
      · exact h1 z hz
    · next hlt =>
      have hxy := not_strLt (Bool.eq_false_iff.2 hlt)
      refine List.pairwise_cons.2 ⟨fun z hz => ?_, h⟩
      rcases List.mem_cons.1 hz with rfl | hz
      · exact hxy
      · exact before_trans hxy (h1 z hz)

theorem sortPairs_sorted (l : List (Str × Str)) : SortedByFirst (sortPairs l) := by
  induction l with
  | nil => exact List.Pairwise.nil
  | cons x l ih => exact insertPair_sorted ih

theorem strict_of_nodup {l : List (Str × Str)} (h : SortedByFirst l) (hn : (l.map (·.1)).Nodup) : StrictlySorted (l.map (·.1)) := by
  unfold SortedByFirst at h
  unfold StrictlySorted
  induction l with
  | nil => exact List.Pairwise.nil
  | cons x l ih =>
    obtain ⟨h1, h2⟩ := List.pairwise_cons.1 h
    rw [List.map_cons, List.nodup_cons] at hn
    refine List.pairwise_cons.2 ⟨fun z hz => ?_, ih h2 hn.2⟩
    obtain ⟨y, hy, rfl⟩ := List.mem_map.1 hz
    rcases h1 y hy with e | e
    · exact absurd (e ▸ hz) hn.1
    · exact e

/-- The branches gone through, in any state. -/
theorem iterHier_branches {σ : PsState} (hk : DistinctKids σ) : ∀ (F : Nat) (pre : List Nat) (s : Nat) (bs : List (List Nat)),
    iterHier σ F pre s = some bs → ∀ b, b ∈ bs ↔ ∃ b', StepBranch σ s b' ∧ b = pre ++ b' := by
  intro F
  induction F with
  | zero => intro pre s bs h; cases h
  | succ F ih =>
    intro pre s bs h b
    rw [iterHier] at h
    cases hs : σ.steps[s]? with
    | none =>
      rw [hs] at h
      cases h
      simp only [List.mem_singleton]
      constructor
      · rintro rfl; exact ⟨[s], .here s, rfl⟩
      · rintro ⟨b', hb, rfl⟩
        cases hb with
        | here => rfl
        | down _ k c b he _ => obtain ⟨o, ho, _⟩ := he; rw [hs] at ho; cases ho
    | some o =>
      rw [hs] at h
      simp only at h
      have key : ∀ (l : List (Str × Nat)) (r : List (List Nat)), iterKids (iterHier σ F (pre ++ [s])) l = some r →
          ∀ b, b ∈ r ↔ ∃ kc ∈ l, ∃ b', StepBranch σ kc.2 b' ∧ b = pre ++ [s] ++ b' := by
        intro l
        induction l with
        | nil => intro r hr b; cases hr; simp
        | cons kc l ihl =>
          obtain ⟨k, c⟩ := kc
          intro r hr b
          rw [iterKids] at hr
          cases h1 : iterHier σ F (pre ++ [s]) c with
          | none => rw [h1] at hr; cases hr
          | some x =>
            cases h2 : iterKids (iterHier σ F (pre ++ [s])) l with
            | none => rw [h1, h2] at hr; cases hr
            | some y =>
              rw [h1, h2] at hr
              cases hr
              rw [List.mem_append, ih _ _ _ h1 b, ihl y h2 b]
              simp only [List.mem_cons, exists_eq_or_imp]
      cases hr : iterKids (iterHier σ F (pre ++ [s])) (σ.kids o) with
      | none => rw [hr] at h; cases h
      | some r =>
        rw [hr] at h
        cases h
        rw [List.mem_cons, key _ _ hr b]
        constructor
        · rintro (rfl | ⟨⟨k, c⟩, hkc, b', hb, rfl⟩)
          · exact ⟨[s], .here s, rfl⟩
          · refine ⟨s :: b', .down s k c b' ⟨o, hs, dget_of_mem (hk s o hs) hkc⟩ hb, by simp⟩
        · rintro ⟨b', hb, rfl⟩
          cases hb with
          | here => exact .inl rfl
          | down _ k c b he hb =>
            obtain ⟨o', ho, hg⟩ := he
            rw [hs] at ho; injection ho with ho; subst ho
            exact .inr ⟨(k, c), mem_of_dget hg, b, hb, by simp⟩

theorem stepBranch_walk {σ : PsState} {s : Nat} {b : List Nat} (h : StepBranch σ s b) : ∃ ks rs, Walk σ s ks rs ∧ b = s :: rs := by
  induction h with
  | here s => exact ⟨[], [], .nil s, rfl⟩
  | down s k c b he _ ih =>
    obtain ⟨ks, rs, hw, rfl⟩ := ih
    exact ⟨k :: ks, c :: rs, .cons s k c ks rs he hw, rfl⟩

theorem walk_stepBranch {σ : PsState} {s : Nat} {ks : List Str} {rs : List Nat} (h : Walk σ s ks rs) : StepBranch σ s (s :: rs) := by
  induction h with
  | nil s => exact .here s
  | cons s k c ks rs he _ ih => exact .down s k c (c :: rs) he ih

/-- No branch is met twice, when every step is the child of one only. -/
theorem iterHier_nodup {σ : PsState} (hk : ∀ (i : Nat) (o : StepObj), σ.steps[i]? = some o → ((σ.kids o).map (·.2)).Nodup) :
    ∀ (F : Nat) (pre : List Nat) (s : Nat) (bs : List (List Nat)), iterHier σ F pre s = some bs →
      bs.Nodup ∧ ∀ b ∈ bs, (pre ++ [s]) <+: b := by
  intro F
  induction F with
  | zero => intro pre s bs h; cases h
  | succ F ih =>
    intro pre s bs h
    rw [iterHier] at h
    cases hs : σ.steps[s]? with
    | none =>
      rw [hs] at h
      cases h
      exact ⟨by simp, by simp⟩
    | some o =>
      rw [hs] at h
      simp only at h
      have key : ∀ (l : List (Str × Nat)) (r : List (List Nat)), (l.map (·.2)).Nodup →
          iterKids (iterHier σ F (pre ++ [s])) l = some r → r.Nodup ∧ ∀ b ∈ r, ∃ kc ∈ l, (pre ++ [s] ++ [kc.2]) <+: b := by
        intro l
        induction l with
        | nil => intro r _ hr; cases hr; simp
        | cons kc l ihl =>
          obtain ⟨k, c⟩ := kc
          intro r hnd hr
          rw [List.map_cons, List.nodup_cons] at hnd
          rw [iterKids] at hr
          cases h1 : iterHier σ F (pre ++ [s]) c with
          | none => rw [h1] at hr; cases hr
          | some x =>
            cases h2 : iterKids (iterHier σ F (pre ++ [s])) l with
            | none => rw [h1, h2] at hr; cases hr
            | some y =>
              rw [h1, h2] at hr
              cases hr
              obtain ⟨a1, a2⟩ := ih _ _ _ h1
              obtain ⟨b1, b2⟩ := ihl y hnd.2 h2
              refine ⟨List.nodup_append.2 ⟨a1, b1, ?_⟩, ?_⟩
              · intro u hu v hv e
                subst e
                obtain ⟨kc, hkc, e1⟩ := b2 u hv
                have e2 := a2 u hu
                obtain ⟨z, rfl⟩ := e2
                obtain ⟨w, e1⟩ := e1
                simp only [List.append_assoc, List.append_cancel_left_eq, List.cons_append, List.nil_append, List.cons.injEq, true_and] at e1
                apply hnd.1
                rw [← e1.1]
                exact List.mem_map.2 ⟨kc, hkc, rfl⟩
              · intro b hb
                rcases List.mem_append.1 hb with hb | hb
                · exact ⟨(k, c), by simp, a2 b hb⟩
                · obtain ⟨kc, hkc, e⟩ := b2 b hb
                  exact ⟨kc, by simp [hkc], e⟩
      cases hr : iterKids (iterHier σ F (pre ++ [s])) (σ.kids o) with
      | none => rw [hr] at h; cases h
      | some r =>
        rw [hr] at h
        cases h
        obtain ⟨a1, a2⟩ := key _ _ (hk s o hs) hr
        refine ⟨List.nodup_cons.2 ⟨fun hmem => ?_, a1⟩, fun b hb => ?_⟩
        · obtain ⟨kc, _, e⟩ := a2 _ hmem
          have := e.length_le
          simp only [List.length_append, List.length_singleton] at this
          omega
        · rcases List.mem_cons.1 hb with rfl | hb
          · exact List.prefix_refl _
          · obtain ⟨kc, _, e⟩ := a2 b hb
            exact (List.prefix_append _ _).trans e

theorem tidy_kids_nodup {D : Nat} {E : RegexLib} {σ : PsState} (h : Tidy D E σ) (i : Nat) (o : StepObj) (hi : σ.steps[i]? = some o) :
    ((σ.kids o).map (·.2)).Nodup := by
  have hk := h.keys i o hi
  have hp : ∀ kc ∈ σ.kids o, ∀ kc' ∈ σ.kids o, kc.2 = kc'.2 → kc.1 = kc'.1 := by
    intro kc h1 kc' h2 e
    exact (h.parent i kc.1 i kc'.1 kc.2 ⟨o, hi, dget_of_mem hk h1⟩ ⟨o, hi, by rw [e]; exact dget_of_mem hk h2⟩).2
  generalize σ.kids o = l at hk hp
  unfold dkeys at hk
  induction l with
  | nil => exact List.nodup_nil
  | cons x l ih =>
    rw [List.map_cons, List.nodup_cons] at hk ⊢
    refine ⟨fun hm => ?_, ih hk.2 (fun kc h1 kc' h2 => hp kc (by simp [h1]) kc' (by simp [h2]))⟩
    obtain ⟨y, hy, e⟩ := List.mem_map.1 hm
    apply hk.1
    rw [hp x (by simp) y (by simp [hy]) e.symm]
    exact List.mem_map.2 ⟨y, hy, rfl⟩

/-- Children have the attribute they are read with as original name. -/
def OrigKeys (σ : PsState) : Prop := ∀ a l c oc, Edge σ a l c → σ.steps[c]? = some oc → oc.orig = l

theorem made_orig {σ : PsState} {s : Nat} {o : StepObj} {k name : Str} {pm : Option Nat} {h' : List PmodObj}
    (hs : σ.steps[s]? = some o) {i : Nat} {oi' : StepObj}
    (hi : (madeState σ s o k name pm h').steps[i]? = some oi') :
    (i = σ.steps.length ∧ oi'.orig = k) ∨ ∃ oi, σ.steps[i]? = some oi ∧ oi'.orig = oi.orig := by
  have hl := withDict_length σ s o
  obtain ⟨o', ho', _, _, hss, hoth⟩ := withDict_steps hs
  simp only [madeState] at hi
  rcases Nat.lt_or_ge i σ.steps.length with hlt | hge
  · right
    rw [List.getElem?_append_left (by omega)] at hi
    by_cases e : i = s
    · subst e
      rw [ho'] at hi; injection hi with hi; subst hi
      exact ⟨o, hs, hss.orig⟩
    · rw [hoth i e] at hi; exact ⟨oi', hi, rfl⟩
  · left
    rw [List.getElem?_append_right (by omega)] at hi
    have hlt := (List.getElem?_eq_some_iff.1 hi).1
    simp only [List.length_cons, List.length_nil] at hlt
    have : i = σ.steps.length := by omega
    subst this
    rw [hl, Nat.sub_self] at hi
    simp only [List.getElem?_cons_zero, Option.some.injEq] at hi
    subst hi
    exact ⟨rfl, rfl⟩

/-- Original names of the steps there stay. -/
def OrigsKept (σ σ' : PsState) : Prop := ∀ (i : Nat) (oi : StepObj), σ.steps[i]? = some oi →
  ∃ oi', σ'.steps[i]? = some oi' ∧ oi'.orig = oi.orig

theorem getAttr_origs {D F : Nat} {E : RegexLib} {σ σ' : PsState} (h : Tidy D E σ) (ho : OrigKeys σ) {s : Nat} {o : StepObj}
    {k : Str} (hk : StepName k) (hs : σ.steps[s]? = some o) {c : Nat} (e : getAttr F E σ s k = (σ', .ok (some c))) :
    OrigKeys σ' ∧ OrigsKept σ σ' := by
  rcases getAttr_cases (F := F) (E := E) hk hs with ⟨c', co, _, _, _, e2⟩ | ⟨hno, hrest⟩
  · rw [e] at e2; cases e2
    exact ⟨ho, fun i oi hi => ⟨oi, hi, rfl⟩⟩
  · have hnone : dget (σ.kids o) k = none := by
      cases hg : dget (σ.kids o) k with
      | none => rfl
      | some c =>
        obtain ⟨oc, t1, t', al, h1, _, _, _, _, h6⟩ := h.link s k c o ⟨o, hs, hg⟩ hs
        exact absurd (hno c oc hg h1) h6
    rcases hrest with ⟨e1, _, e2⟩ | ⟨name, pm, h', _, e2⟩
    · rw [e] at e2; cases e2
    · have e3 : σ' = madeState σ s o k name pm h' := by
        have := e.symm.trans e2
        exact (Prod.mk.inj this).1
      clear e e2
      subst e3
      constructor
      · intro a l c oc he hc
        rcases (made_edge h hs hnone).1 he with he | ⟨_, rfl, rfl⟩
        · have := (h.up a l c he).2
          rcases made_orig hs hc with ⟨rfl, _⟩ | ⟨oi, h1, h2⟩
          · omega
          · rw [h2]; exact ho a l c oi he h1
        · rcases made_orig hs hc with ⟨_, h2⟩ | ⟨oi, h1, h2⟩
          · exact h2
          · have := (List.getElem?_eq_some_iff.1 h1).1; omega
      · intro i oi hi
        have hlt := (List.getElem?_eq_some_iff.1 hi).1
        have hlt' : i < (madeState σ s o k name pm h').steps.length := by
          simp only [madeState, List.length_append, withDict_length]; omega
        have hi' := List.getElem?_eq_getElem hlt'
        rcases made_orig hs hi' with ⟨rfl, _⟩ | ⟨oi2, h1, h2⟩
        · omega
        · rw [hi] at h1; injection h1 with h1; subst h1
          exact ⟨_, hi', h2⟩

theorem getPath_origs {D F : Nat} {E : RegexLib} (hF : D ≤ F) (p : List Str) : ∀ {σ σ' : PsState} {s : Nat} {refs : List Nat},
    Tidy D E σ → OrigKeys σ → ReadNames p → s < σ.steps.length → getPath F E σ s p = (σ', .ok refs) →
    Tidy D E σ' ∧ OrigKeys σ' ∧ OrigsKept σ σ' := by
  induction p with
  | nil =>
    intro σ σ' s refs h ho _ _ e
    simp only [getPath] at e
    cases e
    exact ⟨h, ho, fun i oi hi => ⟨oi, hi, rfl⟩⟩
  | cons k p ih =>
    intro σ σ' s refs h ho hn hlt e
    have hk := hn k (by simp)
    have hs := List.getElem?_eq_getElem hlt
    rw [getPath] at e
    have hT := (getAttr_tidy_any (F := F) h hF s hk.2).1
    cases hg : getAttr F E σ s k with
    | mk σ1 r =>
      rw [hg] at e hT
      cases r with
      | error e' => cases e
      | ok oc =>
        cases oc with
        | none => cases e
        | some c =>
          simp only at e hT
          obtain ⟨a1, a2⟩ := getAttr_origs h ho hk.1 hs hg
          have hclt : c < σ1.steps.length := by
            obtain ⟨t, hd, _⟩ := h.den s _ hs
            obtain ⟨hE, hO⟩ := getAttr_tidy (F := F) h hF hk.1 hk.2 hs hd
            cases hdesc : descOpt E t k with
            | error er => obtain ⟨σ2, h2⟩ := hE er hdesc; rw [hg] at h2; cases h2
            | ok ta =>
              obtain ⟨σ2, c2, h2, _, _, _, ⟨oc, hoc, _⟩, _⟩ := hO ta.1 ta.2 hdesc
              rw [hg] at h2; cases h2
              exact (List.getElem?_eq_some_iff.1 hoc).1
          cases hg2 : getPath F E σ1 c p with
          | mk σ2 r2 =>
            rw [hg2] at e
            cases r2 with
            | error e' => cases e
            | ok rs =>
              cases e
              obtain ⟨b1, b2, b3⟩ := ih hT a1 (fun k hk => hn k (by simp [hk])) hclt hg2
              refine ⟨b1, b2, fun i oi hi => ?_⟩
              obtain ⟨oi1, c1, c2⟩ := a2 i oi hi
              obtain ⟨oi2, d1, d2⟩ := b3 i oi1 c1
              exact ⟨oi2, d1, d2.trans c2⟩

theorem readPaths_origs {D F : Nat} {E : RegexLib} (hF : D ≤ F) {r : Nat} (paths : List (List Str)) : ∀ {σ σ' : PsState},
    Tidy D E σ → OrigKeys σ → (∀ p ∈ paths, ReadNames p) → r < σ.steps.length → readPaths F E σ r paths = .ok σ' →
    OrigKeys σ' ∧ OrigsKept σ σ' := by
  induction paths with
  | nil => intro σ σ' _ ho _ _ e; cases e; exact ⟨ho, fun i oi hi => ⟨oi, hi, rfl⟩⟩
  | cons p paths ih =>
    intro σ σ' h ho hn hlt e
    simp only [readPaths] at e
    cases hg : getPath F E σ r p with
    | mk σ1 res =>
      rw [hg] at e
      cases res with
      | error e' => cases e
      | ok refs =>
        simp only at e
        obtain ⟨a1, a2, a3⟩ := getPath_origs hF p h ho (hn p (by simp)) hlt hg
        obtain ⟨o1, c1, _⟩ := a3 r _ (List.getElem?_eq_getElem hlt)
        obtain ⟨b1, b2⟩ := ih a1 a2 (fun q hq => hn q (by simp [hq])) (List.getElem?_eq_some_iff.1 c1).1 e
        refine ⟨b1, fun i oi hi => ?_⟩
        obtain ⟨oi1, c1, c2⟩ := a3 i oi hi
        obtain ⟨oi2, d1, d2⟩ := b2 i oi1 c1
        exact ⟨oi2, d1, d2.trans c2⟩

theorem walk_origs {D : Nat} {E : RegexLib} {σ : PsState} (ht : Tidy D E σ) (ho : OrigKeys σ) {s : Nat} {ks : List Str} {rs : List Nat}
    (h : Walk σ s ks rs) : σ.origs rs = ks := by
  induction h with
  | nil s => rfl
  | cons s k c ks rs he _ ih =>
    have hoc := List.getElem?_eq_getElem (ht.up _ _ _ he).2
    have := ho _ _ _ _ he hoc
    simp only [PsState.origs, List.map_cons] at ih ⊢
    rw [ih, hoc]
    simp only [this]

end Lemmas
