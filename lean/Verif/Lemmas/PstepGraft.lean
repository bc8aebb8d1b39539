import Verif.Lemmas.PstepAssign
/-
The paths of steps, whatever was done to them, and after an assignment.
-/
set_option linter.unusedSimpArgs false
namespace Lemmas
open Py Model Spec

theorem endOf_eq (s : Nat) (rs : List Nat) : endOf s rs = lastOf s rs := rfl

theorem endOf_cons (s c : Nat) (rs : List Nat) : endOf s (c :: rs) = endOf c rs := lastOf_cons s c rs

theorem text_some {σ : PsState} {i : Nat} (h : i < σ.steps.length) :
    ∃ o, σ.steps[i]? = some o ∧ textOf σ i = some o.name := by
  refine ⟨_, List.getElem?_eq_getElem h, ?_⟩
  simp only [textOf, List.getElem?_eq_getElem h, Option.map_some]

theorem branch_walk {σ : PsState} {s : Nat} {ks : List Str} {rs : List Nat} {ts : List Str}
    (h : Branch σ s ks rs ts) : Walk σ s ks rs ∧ σ.names rs = ts := by
  induction h with
  | nil s => exact ⟨.nil s, rfl⟩
  | cons s k c t ks rs ts he ht _ ih =>
    refine ⟨.cons s k c ks rs he ih.1, ?_⟩
    have h2 := ih.2
    simp only [PsState.names] at h2
    simp only [PsState.names, List.map_cons, h2]
    simp only [textOf] at ht
    cases hc : σ.steps[c]? with
    | none => rw [hc] at ht; cases ht
    | some o => rw [hc] at ht; injection ht with ht; rw [← ht]

theorem walk_branch {σ : PsState} (hS : Sep σ) {s : Nat} {ks : List Str} {rs : List Nat}
    (h : Walk σ s ks rs) : ∃ ts, Branch σ s ks rs ts := by
  induction h with
  | nil s => exact ⟨[], .nil s⟩
  | cons s k c ks rs he _ ih =>
    obtain ⟨ts, hb⟩ := ih
    obtain ⟨o, _, ht⟩ := text_some (hS.kids s k c he)
    exact ⟨o.name :: ts, .cons s k c o.name ks rs ts he ht hb⟩

theorem branch_end {σ : PsState} (hS : Sep σ) {s : Nat} {ks : List Str} {rs : List Nat} {ts : List Str}
    (h : Branch σ s ks rs ts) (hs : s < σ.steps.length) : endOf s rs < σ.steps.length := by
  induction h with
  | nil s => exact hs
  | cons s k c t ks rs ts he ht _ ih => rw [endOf_cons]; exact ih (hS.kids s k c he)

theorem leaf_iff {σ : PsState} {e : Nat} {o : StepObj} (ho : σ.steps[e]? = some o) :
    (σ.kids o).isEmpty = true ↔ ∀ k c, ¬ Edge σ e k c := by
  constructor
  · rintro h k c ⟨o', h1, h2⟩
    rw [ho] at h1; injection h1 with h1; subst h1
    rw [List.isEmpty_iff.1 h] at h2
    simp [dget] at h2
  · intro h
    rw [List.isEmpty_iff]
    cases hk : σ.kids o with
    | nil => rfl
    | cons kc t =>
      exact absurd ⟨o, ho, by rw [hk]; obtain ⟨a, b⟩ := kc; simp [dget]⟩ (h kc.1 kc.2)

theorem reported_iff {σ : PsState} {s : Nat} {rs : List Nat} {tag : Option Str} (he : endOf s rs < σ.steps.length) :
    reported σ tag (s :: rs) = true ↔ Wanted σ tag (endOf s rs) := by
  obtain ⟨o, ho, _⟩ := text_some he
  have hl : (s :: rs).getLast? = some (endOf s rs) := List.getLast?_eq_some_getLast (by simp)
  unfold reported Wanted
  simp only [hl, Option.bind_some, ho]
  cases tag with
  | none =>
    simp only [leaf_iff ho]
    constructor
    · intro h; exact .inl ⟨by simp, h⟩
    · rintro (⟨_, h⟩ | ⟨_, _, h, _⟩)
      · exact h
      · cases h
  | some t =>
    simp only
    split
    · next e =>
      subst e
      rw [leaf_iff ho]
      constructor
      · intro h; exact .inl ⟨.inr rfl, h⟩
      · rintro (⟨_, h⟩ | ⟨_, _, h, h2, _⟩)
        · exact h
        · injection h with h; exact absurd h.symm h2
    · next e =>
      simp only [decide_eq_true_eq]
      constructor
      · intro h; exact .inr ⟨t, o, rfl, e, rfl, h⟩
      · rintro (⟨h | h, _⟩ | ⟨t', o', h, _, h3, h4⟩)
        · cases h
        · injection h with h; exact absurd h e
        · injection h with h; injection h3 with h3; subst h; subst h3; exact h4

/-- The paths reported by a step. -/
theorem paths_general {F : Nat} {σ : PsState} (hS : Sep σ) {s : Nat} {name : Str} (tag : Option Str)
    (hn : textOf σ s = some name) (hF : ∀ ks rs ts, Branch σ s ks rs ts → ks.length < F) :
    ∃ l, pstepPaths F σ s tag = .ok l ∧ StrictlySorted l ∧
      ∀ x, x ∈ l ↔ ∃ ks rs ts, Branch σ s ks rs ts ∧ Wanted σ tag (endOf s rs) ∧ x = joinPaths (name :: ts) := by
  have hs : s < σ.steps.length := by
    refine Classical.byContradiction (fun h => ?_)
    simp only [textOf] at hn
    rw [List.getElem?_eq_none (by omega)] at hn; cases hn
  obtain ⟨bs, h1, h2⟩ := iterHier_walks' hS.keys hS.kids F [] s hs (fun ks rs hw => by
    obtain ⟨ts, hb⟩ := walk_branch hS hw
    exact hF ks rs ts hb)
  refine ⟨_, by simp only [pstepPaths, h1]; rfl, (sortedSet_spec _).1, fun x => ?_⟩
  rw [(sortedSet_spec _).2]
  have hname : ∀ rs, σ.names (s :: rs) = name :: σ.names rs := by
    intro rs
    simp only [PsState.names, List.map_cons]
    simp only [textOf] at hn
    cases hc : σ.steps[s]? with
    | none => rw [hc] at hn; cases hn
    | some o => rw [hc] at hn; injection hn with hn; simp [hn]
  simp only [List.mem_map, List.mem_filter]
  constructor
  · rintro ⟨b, ⟨hb, hr⟩, rfl⟩
    obtain ⟨ks, rs, hw, rfl⟩ := (h2 b).1 hb
    obtain ⟨ts, hbr⟩ := walk_branch hS hw
    simp only [List.nil_append] at hr ⊢
    exact ⟨ks, rs, ts, hbr, (reported_iff (branch_end hS hbr hs)).1 hr, by rw [hname, (branch_walk hbr).2]⟩
  · rintro ⟨ks, rs, ts, hbr, hw, rfl⟩
    refine ⟨s :: rs, ⟨(h2 _).2 ⟨ks, rs, (branch_walk hbr).1, rfl⟩, (reported_iff (branch_end hS hbr hs)).2 hw⟩, ?_⟩
    rw [hname, (branch_walk hbr).2]

section graft
variable {σ σ' : PsState} {s c q : Nat} {k text : Str}

/-- A step seen in the new state as `i'` that stands for `i`: the same, or the new one for the one it is like. -/
def Rel (σ : PsState) (c q i i' : Nat) : Prop := (i' = i ∧ i < σ.steps.length) ∨ (i' = c ∧ i = q)

theorem kept_text (hk : AttrsKept σ σ') {i : Nat} (hi : i < σ.steps.length) : textOf σ' i = textOf σ i := by
  obtain ⟨o, ho, ht⟩ := text_some hi
  obtain ⟨o', ho', hn, _⟩ := hk i o ho
  rw [ht]; simp only [textOf, ho', Option.map_some, hn]

theorem graft_fwd (hS : Sep σ) (hk : OthersKept σ σ' s k) (he : Edge σ' s k c) (hl : Like σ σ' c q)
    (ht : textOf σ' c = some text) (hq : q ≠ s) {i' : Nat} {ks : List Str} {rs' : List Nat} {ts : List Str}
    (hb : Branch σ' i' ks rs' ts) : ∀ {i}, Rel σ c q i i' →
    ∃ rs, Grafted σ s k q text i ks rs ts ∧ Rel σ c q (endOf i rs) (endOf i' rs') := by
  obtain ⟨co, eo, l1, l2, _, _, _, l3⟩ := hl
  induction hb with
  | nil i' => intro i hr; exact ⟨[], .nil i, hr⟩
  | cons i' k' d t ks rs' ts hd htd _ ih =>
    intro i hr
    have old : ¬ (i = s ∧ k' = k) → Edge σ i k' d →
        ∃ rs, Grafted σ s k q text i (k' :: ks) rs (t :: ts) ∧ Rel σ c q (endOf i rs) (endOf i' (d :: rs')) := by
      intro hne hd'
      have hdl := hS.kids i k' d hd'
      obtain ⟨rs, g1, g2⟩ := ih (i := d) (.inl ⟨rfl, hdl⟩)
      refine ⟨d :: rs, .other i k' d t ks rs ts hne hd' ?_ g1, by rw [endOf_cons, endOf_cons]; exact g2⟩
      rw [← kept_text hk.1 hdl]; exact htd
    rcases hr with ⟨rfl, hil⟩ | ⟨rfl, rfl⟩
    · by_cases h : i' = s ∧ k' = k
      · obtain ⟨rfl, rfl⟩ := h
        have := edge_unique hd he
        subst this
        obtain ⟨rs, g1, g2⟩ := ih (i := q) (.inr ⟨rfl, rfl⟩)
        rw [ht] at htd; injection htd with htd; subst htd
        exact ⟨q :: rs, .here ks rs ts g1, by rw [endOf_cons, endOf_cons]; exact g2⟩
      · exact old h ((hk.2 i' k' d hil h).1 hd)
    · exact old (fun h => hq h.1) ((l3 k' d).1 hd)

theorem graft_bwd (hS : Sep σ) (hk : OthersKept σ σ' s k) (he : Edge σ' s k c) (hl : Like σ σ' c q)
    (hc : c = σ.steps.length)
    (ht : textOf σ' c = some text) (hsl : s < σ.steps.length) (hq : q ≠ s) {i : Nat} {ks : List Str} {rs : List Nat}
    {ts : List Str}
    (hb : Grafted σ s k q text i ks rs ts) : ∀ {i'}, Rel σ c q i i' →
    ∃ rs', Branch σ' i' ks rs' ts ∧ Rel σ c q (endOf i rs) (endOf i' rs') := by
  obtain ⟨co, eo, l1, l2, _, _, _, l3⟩ := hl
  have hql : q < σ.steps.length := (List.getElem?_eq_some_iff.1 l2).1
  induction hb with
  | nil i => intro i' hr; exact ⟨[], .nil i', hr⟩
  | here ks rs ts _ ih =>
    intro i' hr
    rcases hr with ⟨rfl, _⟩ | ⟨rfl, rfl⟩
    · obtain ⟨rs', g1, g2⟩ := ih (i' := c) (.inr ⟨rfl, rfl⟩)
      exact ⟨c :: rs', .cons i' k c text ks rs' ts he ht g1, by rw [endOf_cons, endOf_cons]; exact g2⟩
    · exact absurd rfl hq
  | other i k' d t ks rs ts hne hd htd _ ih =>
    intro i' hr
    have hdl := hS.kids i k' d hd
    obtain ⟨rs', g1, g2⟩ := ih (i' := d) (.inl ⟨rfl, hdl⟩)
    have htd' : textOf σ' d = some t := by rw [kept_text hk.1 hdl]; exact htd
    refine ⟨d :: rs', .cons i' k' d t ks rs' ts ?_ htd' g1, by rw [endOf_cons, endOf_cons]; exact g2⟩
    rcases hr with ⟨rfl, hil⟩ | ⟨rfl, rfl⟩
    · exact (hk.2 i' k' d hil hne).2 hd
    · exact (l3 k' d).2 hd

/-- Which paths are asked for afterwards. -/
theorem graft_wanted (hk : OthersKept σ σ' s k) (he : Edge σ' s k c) (hl : Like σ σ' c q) (hq : q ≠ s)
    (tag : Option Str) {e e' : Nat} (hr : Rel σ c q e e') :
    Wanted σ' tag e' ↔ Wanted σ tag e ∧ (e = s → tag ≠ none ∧ tag ≠ some "".toList) := by
  obtain ⟨co, eo, l1, l2, _, _, l4, l3⟩ := hl
  unfold Wanted
  rcases hr with ⟨rfl, hil⟩ | ⟨rfl, rfl⟩
  · obtain ⟨o, ho, _⟩ := text_some hil
    obtain ⟨o', ho', _, _, _, htg⟩ := hk.1 _ o ho
    constructor
    · rintro (⟨h1, h2⟩ | ⟨t, o2, h1, h2, h3, h4⟩)
      · have hes : e' ≠ s := by rintro rfl; exact h2 k c he
        exact ⟨.inl ⟨h1, fun k' d hd => h2 k' d ((hk.2 _ k' d hil (fun h => hes h.1)).2 hd)⟩, fun h => absurd h hes⟩
      · rw [ho'] at h3; injection h3 with h3; subst h3
        subst h1
        refine ⟨.inr ⟨t, o, rfl, h2, ho, by rw [← htg]; exact h4⟩, fun _ => ⟨by simp, fun h => ?_⟩⟩
        injection h with h; exact h2 h
    · rintro ⟨⟨h1, h2⟩ | ⟨t, o2, h1, h2, h3, h4⟩, h5⟩
      · have hes : e' ≠ s := by
          intro h
          obtain ⟨a, b⟩ := h5 h
          rcases h1 with h1 | h1
          · exact a h1
          · exact b h1
        exact .inl ⟨h1, fun k' d hd => h2 k' d ((hk.2 _ k' d hil (fun h => hes h.1)).1 hd)⟩
      · rw [ho] at h3; injection h3 with h3; subst h3
        exact .inr ⟨t, o', h1, h2, ho', by rw [htg]; exact h4⟩
  · constructor
    · rintro (⟨h1, h2⟩ | ⟨t, o2, h1, h2, h3, h4⟩)
      · exact ⟨.inl ⟨h1, fun k' d hd => h2 k' d ((l3 k' d).2 hd)⟩, fun h => absurd h hq⟩
      · rw [l1] at h3; injection h3 with h3; subst h3
        exact ⟨.inr ⟨t, eo, h1, h2, l2, by rw [← l4]; exact h4⟩, fun h => absurd h hq⟩
    · rintro ⟨⟨h1, h2⟩ | ⟨t, o2, h1, h2, h3, h4⟩, _⟩
      · exact .inl ⟨h1, fun k' d hd => h2 k' d ((l3 k' d).1 hd)⟩
      · rw [l2] at h3; injection h3 with h3; subst h3
        exact .inr ⟨t, co, h1, h2, l1, by rw [l4]; exact h4⟩

/-- The paths after the child of `s` under `k` has become a step like `q`, with the text `text`. -/
theorem graft_paths {F : Nat} {r : Nat} {name : Str} (hS : Sep σ) (hS' : Sep σ') (hk : OthersKept σ σ' s k)
    (he : Edge σ' s k c) (hl : Like σ σ' c q) (hc : c = σ.steps.length) (ht : textOf σ' c = some text)
    (hsl : s < σ.steps.length) (hq : q ≠ s) (hr : textOf σ r = some name) (tag : Option Str)
    (hF : ∀ ks rs ts, Grafted σ s k q text r ks rs ts → ks.length < F) :
    ∃ l, pstepPaths F σ' r tag = .ok l ∧ StrictlySorted l ∧
      ∀ x, x ∈ l ↔ ∃ ks rs ts, Grafted σ s k q text r ks rs ts ∧ Wanted σ tag (endOf r rs) ∧
        (endOf r rs = s → tag ≠ none ∧ tag ≠ some "".toList) ∧ x = joinPaths (name :: ts) := by
  have hrl : r < σ.steps.length := by
    refine Classical.byContradiction (fun h => ?_)
    simp only [textOf] at hr
    rw [List.getElem?_eq_none (by omega)] at hr; cases hr
  have hrel : Rel σ c q r r := .inl ⟨rfl, hrl⟩
  obtain ⟨l, h1, h2, h3⟩ := paths_general (F := F) hS' tag (s := r) (name := name) (by rw [kept_text hk.1 hrl]; exact hr)
    (fun ks rs ts hb => by
      obtain ⟨rs0, g1, _⟩ := graft_fwd hS hk he hl ht hq hb hrel
      exact hF ks rs0 ts g1)
  refine ⟨l, h1, h2, fun x => ?_⟩
  rw [h3]
  constructor
  · rintro ⟨ks, rs, ts, hb, hw, rfl⟩
    obtain ⟨rs0, g1, g2⟩ := graft_fwd hS hk he hl ht hq hb hrel
    obtain ⟨w1, w2⟩ := (graft_wanted hk he hl hq tag g2).1 hw
    exact ⟨ks, rs0, ts, g1, w1, w2, rfl⟩
  · rintro ⟨ks, rs0, ts, g1, w1, w2, rfl⟩
    obtain ⟨rs, hb, g2⟩ := graft_bwd hS hk he hl hc ht hsl hq g1 hrel
    exact ⟨ks, rs, ts, hb, (graft_wanted hk he hl hq tag g2).2 ⟨w1, w2⟩, rfl⟩

theorem grafted_branch (hS : Sep σ) (hedge : Edge σ s k q) {i : Nat} {ks : List Str} {rs : List Nat} {ts : List Str}
    (h : Grafted σ s k q text i ks rs ts) : ∃ ts0, Branch σ i ks rs ts0 ∧ ts = retext s k text i ks rs ts0 := by
  induction h with
  | nil i => exact ⟨[], .nil i, rfl⟩
  | here ks rs ts _ ih =>
    obtain ⟨ts0, h1, h2⟩ := ih
    obtain ⟨o, _, ht⟩ := text_some (hS.kids s k q hedge)
    exact ⟨o.name :: ts0, .cons s k q o.name ks rs ts0 hedge ht h1, by simp only [retext, and_self, if_true, ← h2]⟩
  | other i k' d t ks rs ts hne hd htd _ ih =>
    obtain ⟨ts0, h1, h2⟩ := ih
    exact ⟨t :: ts0, .cons i k' d t ks rs ts0 hd htd h1, by simp only [retext, hne, if_false, ← h2]⟩

theorem branch_grafted (hedge : Edge σ s k q) {i : Nat} {ks : List Str} {rs : List Nat} {ts : List Str}
    (h : Branch σ i ks rs ts) : Grafted σ s k q text i ks rs (retext s k text i ks rs ts) := by
  induction h with
  | nil i => exact .nil i
  | cons i k' d t ks rs ts hd htd _ ih =>
    by_cases hik : i = s ∧ k' = k
    · obtain ⟨rfl, rfl⟩ := hik
      have := edge_unique hd hedge
      subst this
      simp only [retext, and_self, if_true]
      exact .here ks rs _ ih
    · simp only [retext, hik, if_false]
      exact .other i k' d t ks rs _ hik hd htd ih

end graft
end Lemmas
