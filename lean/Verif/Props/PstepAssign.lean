import Verif.Lemmas.PstepGraft
import Verif.Tests.ToyRegex
/-
C78: what assigning to attributes of path-steps does.
-/
namespace Props
open Py Model Spec Lemmas

/-- The states that histories of operations lead to. -/
def After (F : Nat) (E : RegexLib) (σ : PsState) : Prop :=
  ∃ h ops, SelfFree ops ∧ σ = runOps F E ⟨h, [], []⟩ ops

private theorem after_sep {F : Nat} {E : RegexLib} {σ : PsState} (h : After F E σ) : Sep σ := by
  obtain ⟨h, ops, hf, rfl⟩ := h
  exact run_sep F E ops hf (sep_init h)

private theorem set_text {F : Nat} {E : RegexLib} {σ σ' : PsState} {s : Nat} {k text : Str}
    (h : setAttr F E σ s k (.str text) = (σ', .ok ())) : ∃ c, makeCstep F E σ s k (some text) none = (σ', .ok c) := by
  unfold setAttr at h
  simp only at h
  generalize makeCstep F E σ s k (some text) none = r at h ⊢
  obtain ⟨a, b⟩ := r
  cases b with
  | error e => simp only [Prod.mk.injEq, reduceCtorEq, and_false] at h
  | ok c => simp only [Prod.mk.injEq, and_true] at h; exact ⟨c, by rw [h]⟩

private theorem set_step {F : Nat} {E : RegexLib} {σ σ' : PsState} {s q : Nat} {k : Str}
    (h : setAttr F E σ s k (.step q) = (σ', .ok ())) : ∃ c, makeCstep F E σ s k none (some q) = (σ', .ok c) := by
  unfold setAttr at h
  simp only at h
  generalize makeCstep F E σ s k none (some q) = r at h ⊢
  obtain ⟨a, b⟩ := r
  cases b with
  | error e => simp only [Prod.mk.injEq, reduceCtorEq, and_false] at h
  | ok c => simp only [Prod.mk.injEq, and_true] at h; exact ⟨c, by rw [h]⟩

private theorem make_exists {F : Nat} {E : RegexLib} {σ σ' : PsState} {s c : Nat} {k : Str} {al : Option Str}
    {ex : Option Nat} (h : makeCstep F E σ s k al ex = (σ', .ok c)) : ∃ o, σ.steps[s]? = some o := by
  cases hs : σ.steps[s]? with
  | some o => exact ⟨o, rfl⟩
  | none => simp only [makeCstep, hs] at h; injection h with _ h; cases h

private theorem edge_kids {σ : PsState} {s e : Nat} {o : StepObj} {k : Str} (hs : σ.steps[s]? = some o) :
    dget (σ.kids o) k = some e ↔ Edge σ s k e := by
  constructor
  · intro h; exact ⟨o, hs, h⟩
  · rintro ⟨o', h1, h2⟩
    rw [hs] at h1; injection h1 with h1; subst h1; exact h2

/-- C78. After any history in which no step is assigned to itself, assigning a text to an attribute of a step makes
one new step, with that text, the child under the attribute. It has the children, the tags, the lock and
the original name of the child that was there, if that one's text is not empty, and else none of them.
Nothing else changes: neither the text, tags, lock nor the children of any other step. -/
theorem C78_assign_text (F : Nat) (E : RegexLib) (σ σ' : PsState) (s : Nat) (k text : Str) (hA : After F E σ)
    (h : setAttr F E σ s k (.str text) = (σ', .ok ())) :
    ∃ c, c = σ.steps.length ∧ σ'.steps.length = σ.steps.length + 1 ∧ OthersKept σ σ' s k ∧ Edge σ' s k c ∧
      textOf σ' c = some text ∧
      (∀ e t, Edge σ s k e → textOf σ e = some t → t ≠ "".toList → Like σ σ' c e) ∧
      ((∀ e, Edge σ s k e → textOf σ e = some "".toList) → Bare σ' c k) := by
  obtain ⟨c, hm⟩ := set_text h
  obtain ⟨o, hs⟩ := make_exists hm
  obtain ⟨_, h1, h2, h3, h4, h5, h6⟩ := make_made (after_sep hA) hs (by simp) hm
  simp only [Option.none_or, edge_kids hs] at h5 h6
  refine ⟨c, h1, h2, h3, h4, ?_, fun e t he ht hne => (h5 e t he ht hne).1, fun hall => (h6 hall).1⟩
  by_cases hx : ∃ e t, Edge σ s k e ∧ textOf σ e = some t ∧ t ≠ []
  · obtain ⟨e, t, he, ht, hne⟩ := hx
    exact (h5 e t he ht hne).2
  · refine (h6 (fun e he => ?_)).2 text rfl
    obtain ⟨eo, _, ht⟩ := text_some ((after_sep hA).kids s k e he)
    rw [ht]
    by_cases hn : eo.name = []
    · rw [hn]
    · exact absurd ⟨e, eo.name, he, ht, hn⟩ hx

/-- C78. Renaming a child that is there, and whose text is not empty, is always possible. -/
theorem C78_renaming_succeeds (F : Nat) (E : RegexLib) (σ : PsState) (s e : Nat) (k text t : Str) (hA : After F E σ)
    (he : Edge σ s k e) (ht : textOf σ e = some t) (hne : t ≠ "".toList) :
    ∃ σ', setAttr F E σ s k (.str text) = (σ', .ok ()) := by
  obtain ⟨o, hs, hg⟩ := he
  obtain ⟨σ', c, hm⟩ := make_ok F E k (some text) (ex := none) (after_sep hA) hs (by simp) hg ht hne
  exact ⟨σ', by simp only [setAttr, hm]⟩

/-- C78. Assigning a step to an attribute of another step makes one new step, with the attribute as its text and the
children, the tags, the lock and the original name of the step assigned, the child under the attribute, if the
step assigned is not empty; if it is, nothing of it is taken. Nothing else changes. -/
theorem C78_assign_step (F : Nat) (E : RegexLib) (σ σ' : PsState) (s q : Nat) (k t : Str) (hA : After F E σ)
    (hq : q ≠ s) (ht : textOf σ q = some t)
    (h : setAttr F E σ s k (.step q) = (σ', .ok ())) :
    ∃ c, c = σ.steps.length ∧ σ'.steps.length = σ.steps.length + 1 ∧ OthersKept σ σ' s k ∧ Edge σ' s k c ∧
      (t ≠ "".toList → textOf σ' c = some k ∧ Like σ σ' c q) ∧ (t = "".toList → Bare σ' c k) := by
  obtain ⟨c, hm⟩ := set_step h
  obtain ⟨o, hs⟩ := make_exists hm
  obtain ⟨_, h1, h2, h3, h4, h5, h6⟩ := make_made (after_sep hA) hs (fun e => hq (by injection e)) hm
  simp only [Option.some_or, Option.some.injEq, forall_eq'] at h5 h6
  refine ⟨c, h1, h2, h3, h4, fun hne => ?_, fun e => ?_⟩
  · obtain ⟨a, b⟩ := h5 q t rfl ht hne
    exact ⟨b, a⟩
  · subst e; exact (h6 ht).1

/-- C78. Assigning a step that is not empty to an attribute of another is always possible. -/
theorem C78_placing_succeeds (F : Nat) (E : RegexLib) (σ : PsState) (s q : Nat) (k t : Str) (hA : After F E σ)
    (hs : s < σ.steps.length) (hq : q ≠ s) (ht : textOf σ q = some t) (hne : t ≠ "".toList) :
    ∃ σ', setAttr F E σ s k (.step q) = (σ', .ok ()) := by
  obtain ⟨o, hs, _⟩ := text_some hs
  obtain ⟨σ', c, hm⟩ := make_ok F E k none (ex := some q) (after_sep hA) hs (fun e => hq (by injection e)) rfl ht hne
  exact ⟨σ', by simp only [setAttr, hm]⟩

/-- C78. An assignment that fails (in the mappings) changes no step and no child; and a value that is neither
a text nor a step is rejected. -/
theorem C78_failed_assignment (F : Nat) (E : RegexLib) (σ σ' : PsState) (s : Nat) (k : Str) (v : StepVal) (e : PyErr)
    (hA : After F E σ) (hv : ∀ q, v = .step q → q ≠ s) (h : setAttr F E σ s k v = (σ', .error e)) :
    σ'.steps.length = σ.steps.length ∧ AttrsKept σ σ' ∧ (∀ i k' c, Edge σ' i k' c ↔ Edge σ i k' c) ∧
    (v = .other → e = .assertionError) := by
  cases v with
  | other =>
    simp only [setAttr] at h
    injection h with h1 h2
    injection h2 with h2
    subst h1
    exact ⟨rfl, fun i o h => ⟨o, h, rfl, rfl, rfl, rfl⟩, fun _ _ _ => Iff.rfl, fun _ => h2.symm⟩
  | str a =>
    have : makeCstep F E σ s k (some a) none = (σ', .error e) := by
      unfold setAttr at h
      simp only at h
      generalize makeCstep F E σ s k (some a) none = r at h ⊢
      obtain ⟨x, y⟩ := r
      cases y with
      | error e' => simp only [Prod.mk.injEq, Except.error.injEq] at h; rw [h.1, h.2]
      | ok c => simp only [Prod.mk.injEq, reduceCtorEq, and_false] at h
    obtain ⟨h1, h2, h3⟩ := make_failed (after_sep hA) (by simp) this
    exact ⟨h1, h2, h3, fun h => (by cases h)⟩
  | step q =>
    have : makeCstep F E σ s k none (some q) = (σ', .error e) := by
      unfold setAttr at h
      simp only at h
      generalize makeCstep F E σ s k none (some q) = r at h ⊢
      obtain ⟨x, y⟩ := r
      cases y with
      | error e' => simp only [Prod.mk.injEq, Except.error.injEq] at h; rw [h.1, h.2]
      | ok c => simp only [Prod.mk.injEq, reduceCtorEq, and_false] at h
    obtain ⟨h1, h2, h3⟩ := make_failed (after_sep hA) (fun e => hv q rfl (by injection e)) this
    exact ⟨h1, h2, h3, fun h => (by cases h)⟩

/-- C78. Whatever was done to the steps, the paths a step reports are, sorted and without repetition, the joined
texts along its branches: those that end at a step without children, or, if a tag (not the empty one) is asked for,
those that end at a step with that tag. -/
theorem C78_paths_reported (F : Nat) (E : RegexLib) (σ : PsState) (r : Nat) (name : Str) (tag : Option Str)
    (hA : After F E σ) (hr : textOf σ r = some name) (hF : ∀ ks rs ts, Branch σ r ks rs ts → ks.length < F) :
    ∃ l, pstepPaths F σ r tag = .ok l ∧ StrictlySorted l ∧
      ∀ x, x ∈ l ↔ ∃ ks rs ts, Branch σ r ks rs ts ∧ Wanted σ tag (endOf r rs) ∧ x = joinPaths (name :: ts) :=
  paths_general (after_sep hA) tag hr hF

/-- C78. Renaming a child that is not empty (and not its own parent): the paths any step reports afterwards are those
it reported before, with the text of that child, wherever they pass through it, replaced. -/
theorem C78_rename_paths (F G : Nat) (E : RegexLib) (σ σ' : PsState) (s e r : Nat) (k text t name : Str)
    (tag : Option Str) (hA : After G E σ)
    (he : Edge σ s k e) (ht : textOf σ e = some t) (hne : t ≠ "".toList) (hes : e ≠ s)
    (h : setAttr G E σ s k (.str text) = (σ', .ok ()))
    (hr : textOf σ r = some name) (hF : ∀ ks rs ts, Branch σ r ks rs ts → ks.length < F) :
    (∃ l, pstepPaths F σ r tag = .ok l ∧
      ∀ x, x ∈ l ↔ ∃ ks rs ts, Branch σ r ks rs ts ∧ Wanted σ tag (endOf r rs) ∧ x = joinPaths (name :: ts)) ∧
    ∃ l', pstepPaths F σ' r tag = .ok l' ∧ StrictlySorted l' ∧
      ∀ x, x ∈ l' ↔ ∃ ks rs ts, Branch σ r ks rs ts ∧ Wanted σ tag (endOf r rs) ∧
        x = joinPaths (name :: retext s k text r ks rs ts) := by
  have hS := after_sep hA
  obtain ⟨l, a1, _, a3⟩ := paths_general hS tag hr hF
  refine ⟨⟨l, a1, a3⟩, ?_⟩
  obtain ⟨c, hm⟩ := set_text h
  obtain ⟨o, hs⟩ := make_exists hm
  have hsl : s < σ.steps.length := (List.getElem?_eq_some_iff.1 hs).1
  obtain ⟨hS', h1, h2, h3, h4, h5, _⟩ := make_made hS hs (by simp) hm
  obtain ⟨hl, htc⟩ := h5 e t (by rw [Option.none_or]; exact (edge_kids hs).2 he) ht hne
  obtain ⟨l', b1, b2, b3⟩ := graft_paths (F := F) hS hS' h3 h4 hl h1 htc hsl hes hr tag (fun ks rs ts hg => by
    obtain ⟨ts0, hb, _⟩ := grafted_branch hS he hg
    exact hF ks rs ts0 hb)
  refine ⟨l', b1, b2, fun x => ?_⟩
  rw [b3]
  constructor
  · rintro ⟨ks, rs, ts, hg, hw, _, rfl⟩
    obtain ⟨ts0, hb, rfl⟩ := grafted_branch hS he hg
    exact ⟨ks, rs, ts0, hb, hw, rfl⟩
  · rintro ⟨ks, rs, ts, hb, hw, rfl⟩
    refine ⟨ks, rs, _, branch_grafted he hb, hw, fun hend => ?_, rfl⟩
    rcases hw with ⟨_, hleaf⟩ | ⟨t', o', h1, h2, _⟩
    · exfalso; rw [hend] at hleaf; exact hleaf k e he
    · subst h1
      exact ⟨by simp, fun e => h2 (by injection e)⟩

/-- C78. Assigning a step that is not empty to an attribute of another: the paths any step reports afterwards are those
along the branches where that attribute leads to the step assigned, under the attribute's name. -/
theorem C78_place_paths (F G : Nat) (E : RegexLib) (σ σ' : PsState) (s q r : Nat) (k t name : Str)
    (tag : Option Str) (hA : After G E σ)
    (hq : q ≠ s) (ht : textOf σ q = some t) (hne : t ≠ "".toList)
    (h : setAttr G E σ s k (.step q) = (σ', .ok ()))
    (hr : textOf σ r = some name) (hF : ∀ ks rs ts, Grafted σ s k q k r ks rs ts → ks.length < F) :
    ∃ l, pstepPaths F σ' r tag = .ok l ∧ StrictlySorted l ∧
      ∀ x, x ∈ l ↔ ∃ ks rs ts, Grafted σ s k q k r ks rs ts ∧ Wanted σ tag (endOf r rs) ∧
        (endOf r rs = s → tag ≠ none ∧ tag ≠ some "".toList) ∧ x = joinPaths (name :: ts) := by
  have hS := after_sep hA
  obtain ⟨c, hm⟩ := set_step h
  obtain ⟨o, hs⟩ := make_exists hm
  have hsl : s < σ.steps.length := (List.getElem?_eq_some_iff.1 hs).1
  obtain ⟨hS', h1, h2, h3, h4, h5, _⟩ := make_made hS hs (fun e => hq (by injection e)) hm
  obtain ⟨hl, htc⟩ := h5 q t rfl ht hne
  exact graft_paths hS hS' h3 h4 hl h1 htc hsl hq hr tag hF

/-! ### Examples, and what does not hold -/

/-- `p = Pstep('p'); p.a.b; p.c` -/
private def ops1 : List StepOp :=
  [.new "p".toList .none none [], .get 0 "a".toList, .get 1 "b".toList, .get 0 "c".toList, .tag 2 ["t".toList]]

private def st1 : PsState := runOps 9 Tests.toy ⟨[], [], []⟩ ops1

private theorem st1_after : After 9 Tests.toy st1 :=
  ⟨[], ops1, (by
    intro op ho s k e
    simp only [ops1, List.mem_cons, List.not_mem_nil, or_false] at ho
    rcases ho with rfl | rfl | rfl | rfl | rfl <;> cases e), rfl⟩

private def pathsOf (r : PsState × Except PyErr Unit) (s : Nat) (tag : Option Str) : Option (List Str) :=
  match r with
  | (σ, .ok ()) => (match pstepPaths 9 σ s tag with
    | .ok l => some l
    | .error _ => none)
  | _ => none

/-- The hypotheses of the theorems are met: `p.a = 'x'` and `p.c = p.a` after the history above. -/
example : pathsOf (st1, .ok ()) 0 none = some ["p/a/b".toList, "p/c".toList] ∧
    pathsOf (setAttr 9 Tests.toy st1 0 "a".toList (.str "x".toList)) 0 none = some ["p/c".toList, "p/x/b".toList] ∧
    pathsOf (setAttr 9 Tests.toy st1 0 "a".toList (.str "x".toList)) 0 (some "t".toList) = some ["p/x/b".toList] ∧
    pathsOf (setAttr 9 Tests.toy st1 0 "c".toList (.step 1)) 0 none = some ["p/a/b".toList, "p/c/b".toList] := by
  decide +kernel

example : After 9 Tests.toy st1 ∧ textOf st1 0 = some "p".toList ∧ textOf st1 1 = some "a".toList ∧
    Edge st1 0 "a".toList 1 := by
  refine ⟨st1_after, by decide +kernel, by decide +kernel, ?_⟩
  have h : st1.steps[0]? = some ⟨"p".toList, "p".toList, none, some 0, canRelocate, []⟩ := by decide +kernel
  exact ⟨_, h, by decide +kernel⟩

private theorem st1_eq : st1 = ⟨[],
    [⟨"p".toList, "p".toList, none, some 0, canRelocate, []⟩, ⟨"a".toList, "a".toList, none, some 1, canRelocate, []⟩,
     ⟨"b".toList, "b".toList, none, none, canRelocate, ["t".toList]⟩, ⟨"c".toList, "c".toList, none, none, canRelocate, []⟩],
    [[("a".toList, 1), ("c".toList, 3)], [("b".toList, 2)]]⟩ := by decide +kernel

private theorem st1_up {s c : Nat} {k : Str} (h : Edge st1 s k c) : s < c ∧ c < 4 := by
  rw [st1_eq] at h
  obtain ⟨o, h1, h2⟩ := h
  have h3 := mem_of_dget h2
  match s, h1 with
  | 0, h1 =>
    cases h1
    simp only [PsState.kids, List.getElem?_cons_zero, Option.getD_some, List.mem_cons, Prod.mk.injEq, List.not_mem_nil,
      or_false] at h3
    omega
  | 1, h1 =>
    cases h1
    simp only [PsState.kids, List.getElem?_cons_zero, List.getElem?_cons_succ, Option.getD_some, List.mem_cons, Prod.mk.injEq,
      List.not_mem_nil, or_false] at h3
    omega
  | 2, h1 => cases h1; cases h3
  | 3, h1 => cases h1; cases h3
  | n + 4, h1 => simp at h1

/-- The limit of recursion is not reached. -/
example : ∀ ks rs ts, Branch st1 0 ks rs ts → ks.length < 9 := by
  have key : ∀ s ks rs ts, Branch st1 s ks rs ts → s < 4 → ks.length + s < 4 := by
    intro s ks rs ts h
    induction h with
    | nil s => intro h; simpa using h
    | cons s k c t ks rs ts he _ _ ih =>
      intro _
      obtain ⟨h1, h2⟩ := st1_up he
      have := ih h2
      simp only [List.length_cons]; omega
  intro ks rs ts h
  have := key 0 ks rs ts h (by omega)
  omega

/-- Nor after `p.c = p.a`. -/
example : ∀ ks rs ts, Grafted st1 0 "c".toList 1 "c".toList 0 ks rs ts → ks.length < 9 := by
  have key : ∀ s ks rs ts, Grafted st1 0 "c".toList 1 "c".toList s ks rs ts → s < 4 → ks.length + s < 4 := by
    intro s ks rs ts h
    induction h with
    | nil s => intro h; simpa using h
    | here ks rs ts _ ih =>
      intro _
      have := ih (by omega)
      simp only [List.length_cons]; omega
    | other s k c t ks rs ts _ he _ _ ih =>
      intro _
      obtain ⟨h1, h2⟩ := st1_up he
      have := ih h2
      simp only [List.length_cons]; omega
  intro ks rs ts h
  have := key 0 ks rs ts h (by omega)
  omega

private theorem iter_one {σ : PsState} {F i j : Nat} {o : StepObj} {k : Str} {pre : List Nat}
    (hi : σ.steps[i]? = some o) (hk : σ.kids o = [(k, j)]) (h : iterHier σ F (pre ++ [i]) j = none) :
    iterHier σ (F + 1) pre i = none := by
  simp only [iterHier, hi, hk, iterKids, h, Option.map_none]

/-- `e = Pstep(''); e.a; p = Pstep('p'); p.k = e` -/
private def ops2 : List StepOp :=
  [.new "".toList .none none [], .get 0 "a".toList, .new "p".toList .none none [], .assignStep 2 "k".toList 0]

/-- The children of a step with an empty text (such as that of a root) are lost when it is assigned. -/
theorem C78_empty_step_refuted :
    pathsOf (runOps 9 Tests.toy ⟨[], [], []⟩ ops2, .ok ()) 0 none = some ["/a".toList] ∧
    pathsOf (runOps 9 Tests.toy ⟨[], [], []⟩ ops2, .ok ()) 2 none = some ["p/k".toList] := by
  decide +kernel

/-- `p = Pstep('p'); p.a.b = p` -/
private def ops3 : List StepOp := [.new "p".toList .none none [], .get 0 "a".toList, .assignStep 1 "b".toList 0]

private def st3 : PsState := ⟨[],
  [⟨"p".toList, "p".toList, none, some 0, canRelocate, []⟩, ⟨"a".toList, "a".toList, none, some 1, canRelocate, []⟩,
   ⟨"b".toList, "p".toList, none, some 2, canRelocate, []⟩],
  [[("a".toList, 1)], [("b".toList, 2)], [("a".toList, 1)]]⟩

/-- When a step is assigned to an attribute below itself, its paths are infinite: whatever the limit of recursion,
it is reached. -/
theorem C78_ancestor_refuted : runOps 9 Tests.toy ⟨[], [], []⟩ ops3 = st3 ∧ SelfFree ops3 ∧
    ∀ F tag, pstepPaths F st3 0 tag = .error .recursionError := by
  refine ⟨by decide +kernel, ?_, ?_⟩
  · intro op ho s k e
    simp only [ops3, List.mem_cons, List.not_mem_nil, or_false] at ho
    rcases ho with rfl | rfl | rfl
    · cases e
    · cases e
    · injection e with e1 _ e2; omega
  · have key : ∀ F, (∀ pre, iterHier st3 F pre 0 = none) ∧ (∀ pre, iterHier st3 F pre 1 = none) ∧
        ∀ pre, iterHier st3 F pre 2 = none := by
      intro F
      induction F with
      | zero => exact ⟨fun _ => rfl, fun _ => rfl, fun _ => rfl⟩
      | succ F ih =>
        obtain ⟨i0, i1, i2⟩ := ih
        exact ⟨fun pre => iter_one rfl rfl (i1 _), fun pre => iter_one rfl rfl (i2 _), fun pre => iter_one rfl rfl (i1 _)⟩
    intro F tag
    simp only [pstepPaths, (key F).1 []]

/-- `p = Pstep('p'); p.a = p`: the same, since the step and its new child share their children. -/
theorem C78_self_refuted (F : Nat) (tag : Option Str) :
    pstepPaths F (runOps 9 Tests.toy ⟨[], [], []⟩ [.new "p".toList .none none [], .assignStep 0 "a".toList 0]) 0 tag =
      .error .recursionError := by
  have hst : runOps 9 Tests.toy ⟨[], [], []⟩ [.new "p".toList .none none [], .assignStep 0 "a".toList 0] =
      ⟨[], [⟨"p".toList, "p".toList, none, some 0, canRelocate, []⟩, ⟨"a".toList, "p".toList, none, some 0, canRelocate, []⟩],
        [[("a".toList, 1)]]⟩ := by decide +kernel
  rw [hst]
  have key : ∀ F, (∀ pre, iterHier ⟨[], [⟨"p".toList, "p".toList, none, some 0, canRelocate, []⟩, ⟨"a".toList, "p".toList, none, some 0, canRelocate, []⟩],
        [[("a".toList, 1)]]⟩ F pre 0 = none) ∧ ∀ pre, iterHier ⟨[], [⟨"p".toList, "p".toList, none, some 0, canRelocate, []⟩, ⟨"a".toList, "p".toList, none, some 0, canRelocate, []⟩],
        [[("a".toList, 1)]]⟩ F pre 1 = none := by
    intro F
    induction F with
    | zero => exact ⟨fun _ => rfl, fun _ => rfl⟩
    | succ F ih =>
      exact ⟨fun pre => iter_one rfl rfl (ih.2 _), fun pre => iter_one rfl rfl (ih.2 _)⟩
  simp only [pstepPaths, (key F).1 []]

end Props
