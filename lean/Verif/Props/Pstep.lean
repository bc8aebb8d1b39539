import Verif.Lemmas.Pstep
import Verif.Tests.ToyRegex
/-
C20-C23: what programs can and cannot do to path-steps.
-/
set_option linter.unusedSimpArgs false
namespace Props
open Py Model Spec Lemmas

/-! ### One operation, seen from an existing step -/

/-- Whether an operation mentions a tag of a step: as added, as removed, or not. -/
def mention (s : Nat) (t : Str) : StepOp → Option Bool
  | .tag s' ts => if s' = s ∧ t ∈ ts then some true else none
  | .untag s' t' => if s' = s ∧ t' = t then some false else none
  | _ => none

/-- The last mention of a tag of a step in a history. -/
def lastMention (s : Nat) (t : Str) (ops : List StepOp) : Option Bool :=
  ops.reverse.findSome? (mention s t)

private theorem mem_addTag (ts : List Str) (x t : Str) : t ∈ addTag ts x ↔ t ∈ ts ∨ t = x := by
  unfold addTag
  split
  · next h =>
    constructor
    · exact .inl
    · rintro (h2 | rfl)
      · exact h2
      · exact h
  · simp

private theorem mem_addTags (xs : List Str) : ∀ ts t, t ∈ xs.foldl addTag ts ↔ t ∈ ts ∨ t ∈ xs := by
  induction xs with
  | nil => simp
  | cons x xs ih =>
    intro ts t
    rw [List.foldl_cons, ih, mem_addTag, List.mem_cons, or_assoc]

private theorem make_keeps (F : Nat) (E : RegexLib) (σ : PsState) (s' : Nat) (k : Str) (al : Option Str)
    (ex : Option Nat) {s : Nat} {o : StepObj} (hs : σ.steps[s]? = some o) :
    ∃ o', (makeCstep F E σ s' k al ex).1.steps[s]? = some o' ∧ SameStep o o' := by
  cases hs' : σ.steps[s']? with
  | none => exact ⟨o, by simp only [makeCstep, hs']; exact hs, SameStep.refl o⟩
  | some so =>
    obtain ⟨σ1, h1, h2⟩ := makeCstep_steps (F := F) (E := E) k al ex hs'
    obtain ⟨o', ho', hsame⟩ := h1.2 s o hs
    refine ⟨o', ?_, hsame⟩
    rcases h2 with h2 | ⟨n, h2, _⟩
    · rw [h2]; exact ho'
    · rw [h2]; exact (Ext.snoc _ _).get ho'

private theorem get_keeps (F : Nat) (E : RegexLib) (σ : PsState) (s' : Nat) (k : Str)
    {s : Nat} {o : StepObj} (hs : σ.steps[s]? = some o) :
    ∃ o', (getAttr F E σ s' k).1.steps[s]? = some o' ∧ SameStep o o' := by
  have hm := make_keeps F E σ s' k none none hs
  have same : ∃ o', σ.steps[s]? = some o' ∧ SameStep o o' := ⟨o, hs, SameStep.refl o⟩
  unfold getAttr
  split
  · exact same
  · split
    · exact same
    · split
      · exact same
      · have hmake : ∃ o', (match makeCstep F E σ s' k none none with
          | (σ', .ok c) => (σ', Except.ok (some c))
          | (σ', .error e) => (σ', .error e) : PsState × Except PyErr (Option Nat)).1.steps[s]? = some o' ∧
            SameStep o o' := by
          generalize makeCstep F E σ s' k none none = q at hm ⊢
          obtain ⟨q1, q2⟩ := q
          cases q2 <;> exact hm
        simp only
        split
        · exact hmake
        · split
          · exact hmake
          · split
            · exact hmake
            · exact same

private theorem set_fst (F : Nat) (E : RegexLib) (σ : PsState) (s' : Nat) (k : Str) :
    (∀ a, (setAttr F E σ s' k (.str a)).1 = (makeCstep F E σ s' k (some a) none).1) ∧
    (∀ v, (setAttr F E σ s' k (.step v)).1 = (makeCstep F E σ s' k none (some v)).1) ∧
    (setAttr F E σ s' k .other).1 = σ := by
  refine ⟨fun a => ?_, fun v => ?_, rfl⟩
  · unfold setAttr; simp only
    generalize makeCstep F E σ s' k (some a) none = q
    obtain ⟨q1, q2⟩ := q
    cases q2 <;> rfl
  · unfold setAttr; simp only
    generalize makeCstep F E σ s' k none (some v) = q
    obtain ⟨q1, q2⟩ := q
    cases q2 <;> rfl

/-- An operation keeps the text and original name of a step; its lock changes only by locking, its
tags only by tagging. -/
private theorem op_keeps (F : Nat) (E : RegexLib) (σ : PsState) (op : StepOp) {s : Nat} {o : StepObj}
    (hs : σ.steps[s]? = some o) :
    ∃ o', (op.apply F E σ).steps[s]? = some o' ∧ o'.name = o.name ∧ o'.orig = o.orig ∧
      (∀ t, t ∈ o'.tags ↔ match mention s t op with
        | some b => b = true
        | none => t ∈ o.tags) := by
  have of : ∀ {σ' : PsState}, (∃ o', σ'.steps[s]? = some o' ∧ SameStep o o') → (∀ t, mention s t op = none) →
      ∃ o', σ'.steps[s]? = some o' ∧ o'.name = o.name ∧ o'.orig = o.orig ∧
      (∀ t, t ∈ o'.tags ↔ match mention s t op with
        | some b => b = true
        | none => t ∈ o.tags) := by
    rintro σ' ⟨o', h, hss⟩ hm
    exact ⟨o', h, hss.name, hss.orig, fun t => by rw [hm t, hss.tags]⟩
  have hlt : s < σ.steps.length := (List.getElem?_eq_some_iff.1 hs).1
  cases op with
  | new pname maps alias tags =>
    exact of ⟨o, (newStep_ext F E σ pname maps alias tags).2.1.get hs, SameStep.refl o⟩ (fun _ => rfl)
  | get s' attr => exact of (get_keeps F E σ s' attr hs) (fun _ => rfl)
  | assignText s' attr text =>
    refine of ?_ (fun _ => rfl)
    simp only [StepOp.apply, (set_fst F E σ s' attr).1]
    exact make_keeps F E σ s' attr _ _ hs
  | assignStep s' attr v =>
    refine of ?_ (fun _ => rfl)
    simp only [StepOp.apply, (set_fst F E σ s' attr).2.1]
    exact make_keeps F E σ s' attr _ _ hs
  | assignOther s' attr => exact of ⟨o, hs, SameStep.refl o⟩ (fun _ => rfl)
  | lock s' level =>
    simp only [StepOp.apply, setLocked, mention]
    split
    · exact ⟨o, hs, rfl, rfl, fun _ => Iff.rfl⟩
    · next so hso =>
      split
      · exact ⟨o, hs, rfl, rfl, fun _ => Iff.rfl⟩
      · by_cases he : s' = s
        · subst he
          rw [hs] at hso; injection hso with hso; subst hso
          exact ⟨_, List.getElem?_set_self hlt, rfl, rfl, fun _ => Iff.rfl⟩
        · exact ⟨o, by simp only; rw [List.getElem?_set_ne he]; exact hs, rfl, rfl, fun _ => Iff.rfl⟩
  | tag s' tags =>
    simp only [StepOp.apply, tagStep, mention]
    by_cases he : s' = s
    · subst he
      simp only [hs, true_and]
      split
      · next hemp =>
        rw [List.isEmpty_iff] at hemp
        split
        · next h2 =>
          rw [List.isEmpty_iff] at h2
          subst h2
          exact ⟨o, hs, rfl, rfl, fun _ => by simp⟩
        · refine ⟨_, List.getElem?_set_self hlt, rfl, rfl, fun t => ?_⟩
          simp only
          rw [mem_addTags, hemp]
          split
          · next b heq => split at heq <;> simp_all
          · next heq => split at heq <;> simp_all
      · refine ⟨_, List.getElem?_set_self hlt, rfl, rfl, fun t => ?_⟩
        simp only
        rw [mem_addTags]
        split
        · next b heq => split at heq <;> simp_all
        · next heq => split at heq <;> simp_all
    · simp only [he, false_and, if_false]
      split
      · exact ⟨o, hs, rfl, rfl, fun _ => Iff.rfl⟩
      · split
        · split
          · exact ⟨o, hs, rfl, rfl, fun _ => Iff.rfl⟩
          · exact ⟨o, by simp only; rw [List.getElem?_set_ne he]; exact hs, rfl, rfl, fun _ => Iff.rfl⟩
        · exact ⟨o, by simp only; rw [List.getElem?_set_ne he]; exact hs, rfl, rfl, fun _ => Iff.rfl⟩
  | untag s' tag =>
    simp only [StepOp.apply, untagStep, mention]
    by_cases he : s' = s
    · subst he
      simp only [hs, true_and]
      split
      · next hemp =>
        rw [List.isEmpty_iff] at hemp
        refine ⟨o, hs, rfl, rfl, fun t => ?_⟩
        rw [hemp]
        split
        · next b heq => split at heq <;> simp_all
        · next heq => split at heq <;> simp_all
      · refine ⟨_, List.getElem?_set_self hlt, rfl, rfl, fun t => ?_⟩
        simp only
        rw [List.mem_filter]
        split
        · next b heq => split at heq <;> simp_all
        · next heq =>
          split at heq
          · cases heq
          · next hne =>
            simp only [decide_not, Bool.not_eq_true', decide_eq_false_iff_not]
            exact ⟨fun h => h.1, fun h => ⟨h, fun e => hne e.symm⟩⟩
    · simp only [he, false_and, if_false]
      split
      · exact ⟨o, hs, rfl, rfl, fun _ => Iff.rfl⟩
      · split
        · exact ⟨o, hs, rfl, rfl, fun _ => Iff.rfl⟩
        · exact ⟨o, by simp only; rw [List.getElem?_set_ne he]; exact hs, rfl, rfl, fun _ => Iff.rfl⟩

/-- C23. After any history of operations, on any steps, a step carries a tag exactly when the last
operation on it that mentions the tag added it; if none mentions it, when it carried it before. -/
theorem C23_tags (F : Nat) (E : RegexLib) (ops : List StepOp) (σ : PsState) (s : Nat) (o : StepObj)
    (hs : σ.steps[s]? = some o) :
    ∃ o', (runOps F E σ ops).steps[s]? = some o' ∧
      ∀ t, t ∈ o'.tags ↔ match lastMention s t ops with
        | some added => added = true
        | none => t ∈ o.tags := by
  induction ops generalizing σ o with
  | nil => exact ⟨o, hs, fun _ => Iff.rfl⟩
  | cons op ops ih =>
    obtain ⟨o1, h1, _, _, ht1⟩ := op_keeps F E σ op hs
    obtain ⟨o2, h2, ht2⟩ := ih (op.apply F E σ) o1 h1
    refine ⟨o2, h2, fun t => ?_⟩
    rw [ht2 t]
    unfold lastMention
    rw [List.reverse_cons, List.findSome?_append]
    cases hm : List.findSome? (mention s t) ops.reverse with
    | some b => simp
    | none =>
      simp only [Option.none_or, List.findSome?_cons, List.findSome?_nil]
      rw [ht1 t]
      cases mention s t op <;> rfl

/-- C23. A new step carries exactly the tags it was created with. -/
theorem C23_created (F : Nat) (E : RegexLib) (σ : PsState) (pname : Str) (alias : Option Str)
    (tags : List Str) (σ' : PsState) (r : Nat)
    (h : newStep F E σ pname .none alias tags = (σ', .ok r)) :
    ∃ o, σ'.steps[r]? = some o ∧ ∀ t, t ∈ o.tags ↔ t ∈ tags := by
  simp only [newStep, freshStep] at h
  cases h
  refine ⟨_, List.getElem?_concat_length, fun t => ?_⟩
  simp only
  rw [mem_addTags]; simp

/-- Tags come and go. -/
example : lastMention 0 "x".toList [.tag 0 ["x".toList, "y".toList], .untag 0 "x".toList, .tag 1 ["x".toList]]
    = some false := rfl
example : (runOps 9 Tests.toy ⟨[], [⟨[], [], none, none, 3, []⟩], []⟩
    [.tag 0 ["x".toList, "y".toList], .get 0 "a".toList, .untag 0 "x".toList, .tag 1 ["x".toList]]).steps.map
      StepObj.tags = [["y".toList], ["x".toList]] := by decide +kernel

/-- A step keeps its text and original name whatever is done. -/
theorem C21_texts_are_fixed (F : Nat) (E : RegexLib) (ops : List StepOp) (σ : PsState) (s : Nat) (o : StepObj)
    (hs : σ.steps[s]? = some o) :
    ∃ o', (runOps F E σ ops).steps[s]? = some o' ∧ o'.name = o.name ∧ o'.orig = o.orig := by
  induction ops generalizing σ o with
  | nil => exact ⟨o, hs, rfl, rfl⟩
  | cons op ops ih =>
    obtain ⟨o1, h1, n1, g1, _⟩ := op_keeps F E σ op hs
    obtain ⟨o2, h2, n2, g2⟩ := ih (op.apply F E σ) o1 h1
    exact ⟨o2, h2, n2.trans n1, g2.trans g1⟩

/-! ### Locks -/

/-- A text obeys a lock: below the level "can rename" it is the original name; below the level
"can relocate" it is the original name or has no slash. -/
def Obeys (orig : Str) (lock : Int) (text : Str) : Prop :=
  (lock < 1 → text = orig) ∧ (lock < 3 → text = orig ∨ '/' ∉ text)

/-- An operation that renames no step against its lock. -/
def Permitted (σ : PsState) : StepOp → Prop
  | .assignText s k text => ∀ c co, Edge σ s k c → σ.steps[c]? = some co → co.name ≠ [] →
      Obeys co.orig co.locked text
  | .assignStep _ k v => ∀ vo, σ.steps[v]? = some vo → Obeys vo.orig vo.locked k
  | .new pname (.step e) alias _ => ∀ eo, σ.steps[e]? = some eo → Obeys eo.orig eo.locked (alias.getD pname)
  | _ => True

/-- A history of operations none of which renames a step against its lock. -/
def AllPermitted (F : Nat) (E : RegexLib) : PsState → List StepOp → Prop
  | _, [] => True
  | σ, op :: ops => Permitted σ op ∧ AllPermitted F E (op.apply F E σ) ops

/-- Every step obeys its lock. -/
def LocksHold (σ : PsState) : Prop :=
  ∀ (i : Nat) (o : StepObj), σ.steps[i]? = some o → Obeys o.orig o.locked o.name

private theorem obeys_relocate {orig text : Str} {l : Int} (h : l = canRelocate) : Obeys orig l text := by
  subst h; exact ⟨fun h => by simp [canRelocate] at h, fun h => by simp [canRelocate] at h⟩

private theorem locks_snoc {σ σ' : PsState} {o' : StepObj} (h : LocksHold σ) (he : σ'.steps = σ.steps ++ [o'])
    (ho : Obeys o'.orig o'.locked o'.name) : LocksHold σ' := by
  intro i o hi
  rw [he] at hi
  rcases Nat.lt_trichotomy i σ.steps.length with hl | hl | hl
  · rw [List.getElem?_append_left hl] at hi; exact h i o hi
  · subst hl
    rw [List.getElem?_concat_length] at hi
    injection hi with hi; subst hi; exact ho
  · rw [List.getElem?_eq_none (by simp; omega)] at hi; cases hi

private theorem locks_same {σ σ1 : PsState} (h : LocksHold σ) (hs : SameSteps σ σ1) : LocksHold σ1 := by
  intro i o hi
  have hl : i < σ.steps.length := by rw [← hs.1]; exact (List.getElem?_eq_some_iff.1 hi).1
  obtain ⟨o1, h1, h2⟩ := hs.2 i _ (List.getElem?_eq_getElem hl)
  rw [hi] at h1; injection h1 with h1; subst h1
  have := h i _ (List.getElem?_eq_getElem hl)
  rw [h2.orig, h2.locked, h2.name]
  exact this

private theorem locks_steps {σ σ' : PsState} (h : LocksHold σ) (e : σ'.steps = σ.steps) : LocksHold σ' := by
  intro i o hi; rw [e] at hi; exact h i o hi

private theorem make_locks (F : Nat) (E : RegexLib) (σ : PsState) (s : Nat) (k : Str) (al : Option Str)
    (ex : Option Nat) (h : LocksHold σ)
    (hp : ∀ o e eo, σ.steps[s]? = some o → ex.or (dget (σ.kids o) k) = some e → σ.steps[e]? = some eo →
      eo.name ≠ [] → Obeys eo.orig eo.locked (al.getD k)) :
    LocksHold (makeCstep F E σ s k al ex).1 := by
  cases hs : σ.steps[s]? with
  | none => simp only [makeCstep, hs]; exact h
  | some o =>
    obtain ⟨σ1, h1, h2⟩ := makeCstep_steps (F := F) (E := E) k al ex hs
    rcases h2 with h2 | ⟨o', h2, h3⟩
    · exact locks_steps (locks_same h h1) h2
    · refine locks_snoc (locks_same h h1) h2 ?_
      rcases h3 with h3 | ⟨e, eo, he, heo, hne, hn, hor, hl, _⟩
      · exact obeys_relocate h3.1
      · rw [hn, hor, hl]; exact hp o e eo hs he heo hne

/-- What reading an attribute amounts to: nothing, or making the child. -/
private theorem get_cases (F : Nat) (E : RegexLib) (σ : PsState) (s : Nat) (k : Str) :
    (getAttr F E σ s k).1 = σ ∨
    ((getAttr F E σ s k).1 = (makeCstep F E σ s k none none).1 ∧
      ∀ o c co, σ.steps[s]? = some o → dget (σ.kids o) k = some c → σ.steps[c]? = some co → co.name = []) := by
  have hf : (match makeCstep F E σ s k none none with
          | (σ', .ok c) => (σ', Except.ok (some c))
          | (σ', .error e) => (σ', .error e) : PsState × Except PyErr (Option Nat)).1 =
          (makeCstep F E σ s k none none).1 := by
    generalize makeCstep F E σ s k none none = q
    obtain ⟨q1, q2⟩ := q
    cases q2 <;> rfl
  unfold getAttr
  split
  · exact .inl rfl
  · split
    · exact .inl rfl
    · split
      · exact .inl rfl
      · next o ho =>
        simp only
        split
        · next hn => exact .inr ⟨hf, fun o' c co h1 h2 _ => by
            rw [ho] at h1; injection h1 with h1; subst h1; rw [hn] at h2; cases h2⟩
        · next c hc =>
          split
          · next hn => exact .inr ⟨hf, fun o' c' co h1 h2 h3 => by
              rw [ho] at h1; injection h1 with h1; subst h1; rw [hc] at h2; cases h2; rw [hn] at h3; cases h3⟩
          · next co hco =>
            split
            · next hn => exact .inr ⟨hf, fun o' c' co' h1 h2 h3 => by
                rw [ho] at h1; injection h1 with h1; subst h1; rw [hc] at h2; cases h2
                rw [hco] at h3; cases h3; exact hn⟩
            · exact .inl rfl

private theorem op_locks (F : Nat) (E : RegexLib) (σ : PsState) (op : StepOp) (h : LocksHold σ)
    (hp : Permitted σ op) : LocksHold (op.apply F E σ) := by
  cases op with
  | new pname maps alias tags =>
    simp only [StepOp.apply]
    rcases newStep_steps F E σ pname maps alias tags with h1 | ⟨o', h1, h2⟩
    · exact locks_steps h h1
    · refine locks_snoc h h1 ?_
      rcases h2 with h2 | ⟨e, eo, hm, heo, _, hn, hor, hl, _⟩
      · exact obeys_relocate h2.1
      · subst hm; rw [hn, hor, hl]; exact hp eo heo
  | get s k =>
    simp only [StepOp.apply]
    rcases get_cases F E σ s k with h1 | ⟨h1, h2⟩
    · rw [h1]; exact h
    · rw [h1]
      refine make_locks F E σ s k none none h (fun o e eo ho he heo hne => ?_)
      exact absurd (h2 o e eo ho (by simpa using he) heo) hne
  | assignText s k text =>
    simp only [StepOp.apply, (set_fst F E σ s k).1]
    refine make_locks F E σ s k _ none h (fun o e eo ho he heo hne => ?_)
    exact hp e eo ⟨o, ho, by simpa using he⟩ heo hne
  | assignStep s k v =>
    simp only [StepOp.apply, (set_fst F E σ s k).2.1]
    refine make_locks F E σ s k _ _ h (fun o e eo ho he heo hne => ?_)
    simp only [Option.some_or, Option.some.injEq] at he
    subst he
    exact hp eo heo
  | assignOther s k => exact h
  | lock s n =>
    simp only [StepOp.apply, setLocked]
    split
    · exact h
    · next o ho =>
      split
      · exact h
      · next hc =>
        intro i oi hi
        simp only at hi
        by_cases he : s = i
        · subst he
          rw [List.getElem?_set_self (List.getElem?_eq_some_iff.1 ho).1] at hi
          injection hi with hi; subst hi
          simp only [canRename, canRelocate] at hc
          constructor
          · intro hl
            by_cases e : o.name = o.orig
            · exact e
            · exact absurd ⟨e, .inl hl⟩ hc
          · intro hl
            by_cases e : o.name = o.orig
            · exact .inl e
            · exact .inr (fun hm => hc ⟨e, .inr ⟨hl, hm⟩⟩)
        · rw [List.getElem?_set_ne he] at hi; exact h i oi hi
  | tag s ts =>
    have : ∀ (i : Nat) o', (tagStep σ s ts).steps[i]? = some o' → ∃ o, σ.steps[i]? = some o ∧
        o'.name = o.name ∧ o'.orig = o.orig ∧ o'.locked = o.locked := by
      intro i o' hi
      unfold tagStep at hi
      split at hi
      · exact ⟨o', hi, rfl, rfl, rfl⟩
      · next o ho =>
        have aux : ∀ x, (σ.steps.set s { o with tags := x })[i]? = some o' → ∃ o, σ.steps[i]? = some o ∧
            o'.name = o.name ∧ o'.orig = o.orig ∧ o'.locked = o.locked := by
          intro x hx
          by_cases he : s = i
          · subst he
            rw [List.getElem?_set_self (List.getElem?_eq_some_iff.1 ho).1] at hx
            injection hx with hx; subst hx; exact ⟨o, ho, rfl, rfl, rfl⟩
          · rw [List.getElem?_set_ne he] at hx; exact ⟨o', hx, rfl, rfl, rfl⟩
        split at hi
        · split at hi
          · exact ⟨o', hi, rfl, rfl, rfl⟩
          · exact aux _ hi
        · exact aux _ hi
    intro i o' hi
    obtain ⟨o, ho, a, b, c⟩ := this i o' hi
    rw [a, b, c]; exact h i o ho
  | untag s t =>
    have : ∀ (i : Nat) o', (untagStep σ s t).steps[i]? = some o' → ∃ o, σ.steps[i]? = some o ∧
        o'.name = o.name ∧ o'.orig = o.orig ∧ o'.locked = o.locked := by
      intro i o' hi
      unfold untagStep at hi
      split at hi
      · exact ⟨o', hi, rfl, rfl, rfl⟩
      · next o ho =>
        split at hi
        · exact ⟨o', hi, rfl, rfl, rfl⟩
        · by_cases he : s = i
          · subst he
            simp only at hi
            rw [List.getElem?_set_self (List.getElem?_eq_some_iff.1 ho).1] at hi
            injection hi with hi; subst hi; exact ⟨o, ho, rfl, rfl, rfl⟩
          · simp only at hi
            rw [List.getElem?_set_ne he] at hi; exact ⟨o', hi, rfl, rfl, rfl⟩
    intro i o' hi
    obtain ⟨o, ho, a, b, c⟩ := this i o' hi
    rw [a, b, c]; exact h i o ho

/-- C21, the part that holds: after any history of operations (reading, assigning, locking,
tagging, creating), none of which assigns a new text to a step against its lock, every step obeys
its lock: a locked one has its original name, a rename-only one is not relocated.
(Missing: the code does not refuse the assignments excluded here; see `C21_locked_renamed_refuted`.) -/
theorem C21_locks_hold_partial (F : Nat) (E : RegexLib) (ops : List StepOp) : ∀ (σ : PsState),
    LocksHold σ → AllPermitted F E σ ops → LocksHold (runOps F E σ ops) := by
  induction ops with
  | nil => intro σ h _; exact h
  | cons op ops ih => intro σ h hp; exact ih _ (op_locks F E σ op h hp.1) hp.2

/-- C21. Setting a lock raises `ValueError` exactly when the step has already been renamed and the
level forbids renaming, or it has been relocated and the level forbids that; then nothing changes.
Otherwise the lock is set, and nothing else changes. -/
theorem C21_lock_raises (σ : PsState) (s : Nat) (o : StepObj) (level : Int) (hs : σ.steps[s]? = some o) :
    ((¬ Obeys o.orig level o.name) → setLocked σ s level = (σ, .error .valueError)) ∧
    (Obeys o.orig level o.name → setLocked σ s level =
      ({ σ with steps := σ.steps.set s { o with locked := level } }, .ok ())) := by
  unfold setLocked Obeys
  simp only [hs]
  constructor
  · intro h
    rw [if_pos]
    show o.name ≠ o.orig ∧ (level < 1 ∨ (level < 3 ∧ '/' ∈ o.name))
    by_cases e : o.name = o.orig
    · exact absurd ⟨fun _ => e, fun _ => .inl e⟩ h
    · refine ⟨e, ?_⟩
      by_cases h1 : level < 1
      · exact .inl h1
      · right
        by_cases h3 : level < 3
        · refine ⟨h3, ?_⟩
          by_cases hm : '/' ∈ o.name
          · exact hm
          · exact absurd ⟨fun h => absurd h h1, fun _ => .inr hm⟩ h
        · exact absurd ⟨fun h => absurd h h1, fun h => absurd h h3⟩ h
  · rintro ⟨h1, h2⟩
    rw [if_neg]
    show ¬ (o.name ≠ o.orig ∧ (level < 1 ∨ (level < 3 ∧ '/' ∈ o.name)))
    rintro ⟨e, h | ⟨h, hm⟩⟩
    · exact e (h1 h)
    · rcases h2 h with h | h
      · exact e h
      · exact h hm

/-- C21. `_lock` works for steps that have their original name, and from then on no other name obeys the lock; `_fix`
works for steps that have not been relocated, and from then on names without slashes obey, too. Otherwise they raise
`ValueError` and change nothing. -/
theorem C21_lock_and_fix (σ : PsState) (s : Nat) (o : StepObj) (hs : σ.steps[s]? = some o) :
    (o.name ≠ o.orig → lockStep σ s = (σ, .error .valueError)) ∧
    (o.name = o.orig → ∃ level, lockStep σ s = ({ σ with steps := σ.steps.set s { o with locked := level } }, .ok ()) ∧
      ∀ text, Obeys o.orig level text ↔ text = o.orig) ∧
    (o.name ≠ o.orig → '/' ∈ o.name → fixStep σ s = (σ, .error .valueError)) ∧
    (o.name = o.orig ∨ '/' ∉ o.name → ∃ level,
      fixStep σ s = ({ σ with steps := σ.steps.set s { o with locked := level } }, .ok ()) ∧
      ∀ text, Obeys o.orig level text ↔ text = o.orig ∨ '/' ∉ text) := by
  obtain ⟨h1, h2⟩ := C21_lock_raises σ s o lockedLevel hs
  obtain ⟨h3, h4⟩ := C21_lock_raises σ s o canRename hs
  have ol : ∀ text, Obeys o.orig lockedLevel text ↔ text = o.orig := fun text =>
    ⟨fun h => h.1 (by decide), fun h => ⟨fun _ => h, fun _ => .inl h⟩⟩
  have of : ∀ text, Obeys o.orig canRename text ↔ text = o.orig ∨ '/' ∉ text := fun text =>
    ⟨fun h => h.2 (by decide), fun h => ⟨fun hh => absurd hh (by decide), fun _ => h⟩⟩
  refine ⟨fun h => h1 (fun hh => h ((ol _).1 hh)), fun h => ⟨_, h2 ((ol _).2 h), ol⟩, fun h hm => h3 (fun hh => ?_),
    fun h => ⟨_, h4 ((of _).2 h), of⟩⟩
  exact ((of _).1 hh).elim h (fun hn => hn hm)

/-- The child of a step under an attribute. -/
def childAt (σ : PsState) (s : Nat) (k : Str) : Option StepObj :=
  (σ.steps[s]?).bind (fun o => (dget (σ.kids o) k).bind (fun c => σ.steps[c]?))

/-- C21 fails: a locked child can be renamed, and a rename-only child relocated, by assigning a text
to its attribute; the lock is kept and nothing is raised. -/
theorem C21_locked_renamed_refuted :
    let σ := runOps 9 Tests.toy ⟨[], [], []⟩ [.new [] .none none [], .get 0 "a".toList, .lock 1 0,
        .get 0 "b".toList, .lock 2 1]
    let σ1 := (setAttr 9 Tests.toy σ 0 "a".toList (.str "other".toList)).1
    let σ2 := (setAttr 9 Tests.toy σ 0 "b".toList (.str "x/y".toList)).1
    (childAt σ1 0 "a".toList).map (fun o => (o.orig, o.name, o.locked)) =
      some ("a".toList, "other".toList, 0) ∧
    (childAt σ2 0 "b".toList).map (fun o => (o.orig, o.name, o.locked)) =
      some ("b".toList, "x/y".toList, 1) := by
  decide +kernel

/-- C21 fails: a locked step assigned to another attribute takes the name of that attribute. -/
theorem C21_locked_moved_refuted :
    let σ := runOps 9 Tests.toy ⟨[], [], []⟩ [.new [] .none none [], .get 0 "a".toList, .lock 1 0,
        .assignStep 0 "b".toList 1]
    (childAt σ 0 "b".toList).map (fun o => (o.orig, o.name, o.locked)) =
      some ("a".toList, "b".toList, 0) := by
  decide +kernel

/-- Nothing exists at first, so all locks hold; and a history that is permitted. -/
example : LocksHold ⟨[], [], []⟩ := fun i o h => by simp at h
example : AllPermitted 9 Tests.toy ⟨[], [], []⟩
    [.new [] .none none [], .get 0 "a".toList, .lock 1 canRename, .assignText 0 "a".toList "b".toList] := by
  refine ⟨trivial, trivial, trivial, ?_, trivial⟩
  rintro c co ⟨o, ho, hk⟩ hc _
  have key : ∀ (σ : PsState), (childAt σ 0 "a".toList).map (fun o => (o.orig, o.locked)) = some ("a".toList, canRename) →
      σ.steps[0]? = some o → dget (σ.kids o) "a".toList = some c → σ.steps[c]? = some co →
      co.orig = "a".toList ∧ co.locked = canRename := by
    intro σ h h1 h2 h3
    simp only [childAt, h1, h2, h3, Option.bind_some, Option.map_some, Option.some.injEq, Prod.mk.injEq] at h
    exact h
  obtain ⟨h1, h2⟩ := key _ (by decide +kernel) ho hk hc
  rw [h1, h2]
  exact ⟨fun h => absurd h (by decide), fun _ => .inr (by decide)⟩

/-! ### Reading again -/

/-- Reading some attributes of some steps, one after the other. -/
def readAll (F : Nat) (E : RegexLib) (σ : PsState) (reads : List (Nat × Str)) : PsState :=
  runOps F E σ (reads.map (fun r => .get r.1 r.2))

private theorem readAll_keeps (F : Nat) (E : RegexLib) (reads : List (Nat × Str)) : ∀ σ,
    StepsKept σ (readAll F E σ reads) := by
  induction reads with
  | nil => exact StepsKept.refl
  | cons r rs ih => intro σ; exact (getAttr_keeps F E σ r.1 r.2).trans (ih _)

private theorem getPath_keeps (F : Nat) (E : RegexLib) (path : List Str) : ∀ σ s,
    StepsKept σ (getPath F E σ s path).1 := by
  induction path with
  | nil => intro σ s; exact StepsKept.refl σ
  | cons k ks ih =>
    intro σ s
    have h := getAttr_keeps F E σ s k
    unfold getPath
    generalize getAttr F E σ s k = q at h ⊢
    obtain ⟨σ1, r⟩ := q
    cases r with
    | error e => exact h
    | ok r =>
      cases r with
      | none => exact h
      | some c =>
        have h2 := ih σ1 c
        simp only
        generalize getPath F E σ1 c ks = q2 at h2 ⊢
        obtain ⟨σ2, r2⟩ := q2
        cases r2 <;> exact h.trans h2

/-- Steps one below the other, with texts that are not empty. -/
inductive Chain (σ : PsState) : Nat → List Str → List Nat → Prop
  | nil (s : Nat) : Chain σ s [] []
  | cons (s : Nat) (k : Str) (c : Nat) (t : Str) (ks : List Str) (rs : List Nat) :
      StepName k → Edge σ s k c → textOf σ c = some t → t ≠ [] → Chain σ c ks rs →
      Chain σ s (k :: ks) (c :: rs)

private theorem Chain.keeps {σ σ' : PsState} (h : StepsKept σ σ') {s : Nat} {ks : List Str} {rs : List Nat}
    (hc : Chain σ s ks rs) : Chain σ' s ks rs := by
  induction hc with
  | nil s => exact .nil s
  | cons s k c t ks rs hk he ht hne _ ih => exact .cons s k c t ks rs hk (h.edges s k c t he ht hne) (h.texts c t ht) hne ih

private theorem Chain.read (F : Nat) (E : RegexLib) {σ : PsState} {s : Nat} {ks : List Str} {rs : List Nat}
    (hc : Chain σ s ks rs) : getPath F E σ s ks = (σ, .ok rs) := by
  induction hc with
  | nil s => rfl
  | cons s k c t ks rs hk he ht hne _ ih =>
    obtain ⟨o, ho, hg⟩ := he
    have : getAttr F E σ s k = (σ, .ok (some c)) := by
      rcases getAttr_cases (F := F) (E := E) hk ho with ⟨c', co, h1, _, _, h⟩ | ⟨hno, _⟩
      · rw [hg] at h1; cases h1; exact h
      · exfalso
        unfold textOf at ht
        cases hc : σ.steps[c]? with
        | none => rw [hc] at ht; cases ht
        | some co =>
          rw [hc, Option.map_some, hno c co hg hc] at ht
          injection ht with ht; exact hne ht.symm
    unfold getPath
    rw [this]
    simp only [ih]

private theorem chain_of_get (F : Nat) (E : RegexLib) (path : List Str) : ∀ σ s σ' refs,
    getPath F E σ s path = (σ', .ok refs) → (∀ r ∈ refs, textOf σ' r ≠ some []) → Chain σ' s path refs := by
  induction path with
  | nil => intro σ s σ' refs h _; cases h; exact .nil s
  | cons k ks ih =>
    intro σ s σ' refs h hne
    have hk : StepName k := by
      apply Classical.byContradiction
      intro hk
      unfold getPath at h
      rcases getAttr_not_step F E σ s k hk with e | e <;> rw [e] at h <;> cases h
    unfold getPath at h
    cases hs : σ.steps[s]? with
    | none =>
      have : getAttr F E σ s k = (σ, .error .attributeError) := by
        unfold getAttr
        rw [if_neg (show k ∉ plainAttrs from hk.1), if_neg (by rw [show startsWith ['_'] k = false from hk.2.1]; simp; exact hk.2.2)]
        simp only [hs]
      rw [this] at h; cases h
    | some o =>
      have step : ∃ σ1 c, getAttr F E σ s k = (σ1, .ok (some c)) ∧ Edge σ1 s k c ∧ ∃ t, textOf σ1 c = some t := by
        rcases getAttr_cases (F := F) (E := E) hk hs with ⟨c, co, h1, h2, _, e⟩ | ⟨_, ⟨e, _, he⟩ | ⟨name, pm, h', _, e⟩⟩
        · exact ⟨σ, c, e, ⟨o, hs, h1⟩, co.name, by simp [textOf, h2]⟩
        · rw [he] at h; cases h
        · refine ⟨_, _, e, ?_, name, ?_⟩
          · obtain ⟨o', ho', hcs, _, _, _⟩ := withDict_steps hs
            refine ⟨o', (Ext.snoc _ _).get ho', ?_⟩
            have hlt : (withDict σ s o).2 < (withDict σ s o).1.dicts.length := by
              unfold withDict
              split
              · next d h1 h2 =>
                have h3 : σ.kids o ≠ [] := by intro e; rw [e] at h2; cases h2
                unfold PsState.kids at h3
                rw [h1] at h3
                simp only at h3
                rcases Nat.lt_or_ge d σ.dicts.length with hl | hl
                · exact hl
                · rw [List.getElem?_eq_none hl] at h3; exact absurd rfl h3
              · simp
            unfold PsState.kids
            rw [hcs]; simp only
            rw [List.getElem?_set_self hlt, Option.getD_some, dget_dset_self]
          · unfold textOf
            simp only
            rw [← withDict_length σ s o, List.getElem?_concat_length]
            rfl
      obtain ⟨σ1, c, e, hedge, t, ht⟩ := step
      rw [e] at h
      simp only at h
      have hk2 := getPath_keeps F E ks σ1 c
      cases hg : getPath F E σ1 c ks with
      | mk σ2 r2 =>
        rw [hg] at h hk2
        cases r2 with
        | error x => cases h
        | ok rs =>
          simp only at h
          cases h
          have htne : t ≠ [] := by
            intro e; subst e; exact hne c (by simp) (hk2.texts c [] ht)
          exact .cons s k c t ks rs hk (hk2.edges s k c t hedge ht htne) (hk2.texts c t ht) htne
            (ih σ1 c _ rs hg (fun r hr => hne r (by simp [hr])))

/-- C20, for steps whose text is not empty. Whatever the state: once a chain of attributes has been
read, reading it again, after any number of other attributes have been read meanwhile, gives the very
same steps, and leaves everything as it is.
(Missing: steps with an empty text, which are made anew: see `C20_empty_refuted`.) -/
theorem C20_reread_partial (F : Nat) (E : RegexLib) (σ : PsState) (s : Nat) (path : List Str) (σ' : PsState)
    (refs : List Nat) (h : getPath F E σ s path = (σ', .ok refs))
    (hne : ∀ r ∈ refs, textOf σ' r ≠ some "".toList) (meanwhile : List (Nat × Str)) :
    getPath F E (readAll F E σ' meanwhile) s path = (readAll F E σ' meanwhile, .ok refs) :=
  ((chain_of_get F E path σ s σ' refs h hne).keeps (readAll_keeps F E meanwhile σ')).read F E

/-- C20 fails for a step whose text is empty: reading it makes another step there, with the text of
the attribute, and the children it had are lost. -/
theorem C20_empty_refuted :
    let σ := runOps 9 Tests.toy ⟨[], [], []⟩ [.new [] .none none [], .get 0 "a".toList, .get 1 "b".toList,
      .assignText 0 "a".toList []]
    let σ' := (getAttr 9 Tests.toy σ 0 "a".toList).1
    (childAt σ 0 "a".toList).map (fun o => (o.name, (σ.kids o).length)) = some ([], 1) ∧
    (childAt σ' 0 "a".toList).map (fun o => (o.name, (σ'.kids o).length)) = some ("a".toList, 0) := by
  decide +kernel

/-- A chain that can be read. -/
example : (match getPath 9 Tests.toy ⟨[], [⟨[], [], none, none, 3, []⟩], []⟩ 0 ["a".toList, "b".toList] with
    | (σ, .ok rs) => decide (rs = [1, 2] ∧ textOf σ 1 = some "a".toList ∧ textOf σ 2 = some "b".toList)
    | _ => false) = true := by decide +kernel

/-! ### The mappings the steps came from -/

/-- The object `q` is the mapping `r` or is used somewhere inside it. -/
inductive Inside (h : List PmodObj) : Nat → Nat → Prop
  | self (r : Nat) : Inside h r r
  | step (r k c q) (o : PmodObj) : h[r]? = some o → (k, c) ∈ o.steps → Inside h c q → Inside h r q
  | regx (r k c q) (o : PmodObj) : h[r]? = some o → (k, c) ∈ o.regxs → Inside h c q → Inside h r q

/-- An operation that assigns no text to an attribute of a step which has children already and whose
own mapping lies inside the mapping `r`. -/
def Harmless (σ : PsState) (r : Nat) : StepOp → Prop
  | .assignText s _ _ => ∀ o, σ.steps[s]? = some o →
      σ.kids o = [] ∨ ∀ p, o.pmod = some p → ¬ Inside σ.pmods r p
  | _ => True

/-- A history of such operations. -/
def AllHarmless (F : Nat) (E : RegexLib) (r : Nat) : PsState → List StepOp → Prop
  | _, [] => True
  | σ, op :: ops => Harmless σ r op ∧ AllHarmless F E r (op.apply F E σ) ops

private theorem den_set {h : List PmodObj} {p : Nat} {x : PmodObj} {r : Nat} {t : Pmod} (d : Den h r t) :
    ¬ Inside h r p → Den (h.set p x) r t := by
  refine Den.rec (motive_1 := fun r t _ => ¬ Inside h r p → Den (h.set p x) r t)
    (motive_2 := fun rs ts _ => (∀ kv ∈ rs, ¬ Inside h kv.2 p) → DenAll (h.set p x) rs ts) ?_ ?_ ?_ d
  · intro r o st rg ho _ _ h1 h2 hn
    refine .mk r o st rg ?_ (h1 ?_) (h2 ?_)
    · rw [List.getElem?_set_ne (fun e : p = r => hn (by rw [e]; exact .self r))]; exact ho
    · rintro ⟨k, c⟩ hkv hi; exact hn (.step r k c p o ho hkv hi)
    · rintro ⟨k, c⟩ hkv hi; exact hn (.regx r k c p o ho hkv hi)
  · intro _; exact .nil
  · intro k r t rs ts _ _ h1 h2 hn
    exact .cons k r t rs ts (h1 (hn (k, r) (by simp))) (h2 (fun kv hkv => hn kv (by simp [hkv])))

private theorem den_make (F : Nat) (E : RegexLib) {σ : PsState} {s : Nat} {k : Str} {al : Option Str}
    {ex : Option Nat} {r : Nat} {t : Pmod} (d : Den σ.pmods r t)
    (h : al = none ∨ ∀ o, σ.steps[s]? = some o → σ.kids o = [] ∨ ∀ p, o.pmod = some p → ¬ Inside σ.pmods r p) :
    Den (makeCstep F E σ s k al ex).1.pmods r t := by
  unfold makeCstep
  split
  · exact d
  · next o hs =>
    split
    · next dd hcs hne =>
      split
      · rw [(storeChild_steps ..).2]; exact den_ext (newStep_ext ..).1 d
      · rw [(storeChild_steps ..).2]
        refine den_ext (newStep_ext ..).1 ?_
        split
        · next a =>
          rcases h with h | h
          · cases h
          · rcases h o hs with h | h
            · simp only [h] at hne; exact absurd hne (by simp)
            · unfold updateMappings
              split
              · next p hp =>
                split
                · exact den_set d (h p hp)
                · exact d
              · exact den_ext (Ext.snoc _ _) d
        · exact d
    · rw [(storeChild_steps ..).2]; exact den_ext (newStep_ext ..).1 d

private theorem op_den (F : Nat) (E : RegexLib) {σ : PsState} {op : StepOp} {r : Nat} {t : Pmod}
    (d : Den σ.pmods r t) (h : Harmless σ r op) : Den (op.apply F E σ).pmods r t := by
  cases op with
  | new pname maps alias tags => exact den_ext (newStep_ext F E σ pname maps alias tags).1 d
  | get s k =>
    simp only [StepOp.apply]
    rcases get_cases F E σ s k with h1 | ⟨h1, _⟩
    · rw [h1]; exact d
    · rw [h1]; exact den_make F E d (.inl rfl)
  | assignText s k text =>
    simp only [StepOp.apply, (set_fst F E σ s k).1]
    exact den_make F E d (.inr h)
  | assignStep s k v =>
    simp only [StepOp.apply, (set_fst F E σ s k).2.1]
    exact den_make F E d (.inl rfl)
  | assignOther s k => exact d
  | lock s n =>
    have : (setLocked σ s n).1.pmods = σ.pmods := by
      unfold setLocked; split
      · rfl
      · split <;> rfl
    simp only [StepOp.apply, this]; exact d
  | tag s ts =>
    have : (tagStep σ s ts).pmods = σ.pmods := by
      unfold tagStep; split
      · rfl
      · split
        · split <;> rfl
        · rfl
    simp only [StepOp.apply, this]; exact d
  | untag s t' =>
    have : (untagStep σ s t').pmods = σ.pmods := by
      unfold untagStep; split
      · rfl
      · split <;> rfl
    simp only [StepOp.apply, this]; exact d

/-- C22, the part that holds: mappings that stand for a tree of mappings stand for the same one
after any history of creating, reading, locking, tagging steps, of assigning steps to attributes, and
of assigning texts to attributes of steps without children or with mappings of their own.
(Missing: assigning a text to an attribute of a step with children; see `C22_renaming_refuted`.) -/
theorem C22_mappings_kept_partial (F : Nat) (E : RegexLib) (ops : List StepOp) : ∀ (σ : PsState) (r : Nat) (t : Pmod),
    Den σ.pmods r t → AllHarmless F E r σ ops → Den (runOps F E σ ops).pmods r t := by
  induction ops with
  | nil => intro σ r t d _; exact d
  | cons op ops ih => intro σ r t d h; exact ih _ r t (op_den F E d h.1) h.2

/-- In particular, reading, locking, tagging and creating never change any mappings. -/
theorem C22_reading_keeps (F : Nat) (E : RegexLib) (ops : List StepOp)
    (hops : ∀ op ∈ ops, ∀ s k text, op ≠ .assignText s k text) (σ : PsState) (r : Nat) (t : Pmod)
    (d : Den σ.pmods r t) : Den (runOps F E σ ops).pmods r t := by
  refine C22_mappings_kept_partial F E ops σ r t d ?_
  clear d
  induction ops generalizing σ with
  | nil => trivial
  | cons op ops ih =>
    refine ⟨?_, ih (fun op' h => hops op' (by simp [h])) _⟩
    cases op with
    | assignText s k text => exact absurd rfl (hops _ (by simp) s k text)
    | _ => trivial

/-- C22 fails: with the mappings made from the pair `/b` to `B`, a step made from them, one attribute
read, and a text assigned to another one, the mappings are not what they were: they map `/b` to
`X/B` instead of `/B`. -/
theorem C22_renaming_refuted :
    ∃ (σ : PsState) (t t' : Pmod),
      pmodsFromTuples Tests.toy [(some "/b".toList, some "B".toList)] = .ok t ∧ Den σ.pmods 0 t ∧
      Den (runOps 9 Tests.toy σ [.new [] (.pmod 0) none [], .get 0 "a".toList,
        .assignText 0 "c".toList "X".toList]).pmods 0 t' ∧
      t.mapPath Tests.toy "/b".toList = .ok "/B".toList ∧
      t'.mapPath Tests.toy "/b".toList = .ok "X/B".toList := by
  refine ⟨⟨[⟨none, [([], 1)], []⟩, ⟨none, [("b".toList, 2)], []⟩, ⟨some "B".toList, [], []⟩], [], []⟩,
    .mk none [([], .mk none [("b".toList, .mk (some "B".toList) [] [])] [])] [],
    .mk none [([], .mk (some "X".toList) [("b".toList, .mk (some "B".toList) [] [])] [])] [],
    rfl, ?_, ?_, rfl, rfl⟩
  · exact .mk 0 ⟨none, [([], 1)], []⟩ _ _ rfl (.cons _ _ _ _ _ (.mk 1 ⟨none, [("b".toList, 2)], []⟩ _ _ rfl
      (.cons _ _ _ _ _ (.mk 2 ⟨some "B".toList, [], []⟩ _ _ rfl .nil .nil) .nil) .nil) .nil) .nil
  · have hp : (runOps 9 Tests.toy ⟨[⟨none, [([], 1)], []⟩, ⟨none, [("b".toList, 2)], []⟩,
          ⟨some "B".toList, [], []⟩], [], []⟩ [.new [] (.pmod 0) none [], .get 0 "a".toList,
          .assignText 0 "c".toList "X".toList]).pmods =
        [⟨none, [([], 1)], []⟩, ⟨some "X".toList, [("b".toList, 2)], []⟩, ⟨some "B".toList, [], []⟩] := by
      decide +kernel
    rw [hp]
    exact .mk 0 ⟨none, [([], 1)], []⟩ _ _ rfl (.cons _ _ _ _ _ (.mk 1 ⟨some "X".toList, [("b".toList, 2)], []⟩ _ _ rfl
      (.cons _ _ _ _ _ (.mk 2 ⟨some "B".toList, [], []⟩ _ _ rfl .nil .nil) .nil) .nil) .nil) .nil

/-- A harmless history that renames. -/
example : AllHarmless 9 Tests.toy 0 ⟨[⟨none, [([], 1)], []⟩, ⟨some "R".toList, [], []⟩], [], []⟩
    [.new [] (.pmod 0) none [], .assignText 0 "c".toList "X".toList, .get 0 "d".toList] := by
  refine ⟨trivial, ?_, trivial, trivial⟩
  intro o ho
  left
  have : (runOps 9 Tests.toy ⟨[⟨none, [([], 1)], []⟩, ⟨some "R".toList, [], []⟩], [], []⟩
    [.new [] (.pmod 0) none []]).steps[0]? = some ⟨"R".toList, [], some 1, none, 3, []⟩ := by decide +kernel
  rw [show (StepOp.apply 9 Tests.toy ⟨[⟨none, [([], 1)], []⟩, ⟨some "R".toList, [], []⟩], [], []⟩
    (.new [] (.pmod 0) none [])).steps[0]? = some ⟨"R".toList, [], some 1, none, 3, []⟩ from this] at ho
  injection ho with ho; subst ho; rfl

end Props
