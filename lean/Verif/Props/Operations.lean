import Verif.Spec.Operations
import Verif.Lemmas.Dict
/-
C122: the operations installed in a model-maker.
-/
namespace Props
open Py Model Spec

private theorem updated_full {A : Type} (old x : Option A) (h : x.isSome) : Updated old (some x) none x := by
  obtain ⟨a, rfl⟩ := Option.isSome_iff_exists.1 h
  exact ⟨fun _ e => (by cases e), fun _ b e => (by cases e; rfl), fun _ e => by rcases e with e | e <;> cases e⟩

/-- C122: calls with complete operations and without keywords install what the documentation says. Missing: keywords, operations
of which some values are empty. -/
theorem C122_installed_partial {A : Type} (cs : List (OpsCall A)) (h : ∀ c ∈ cs, c.kw = [] ∧ ∃ o, c.operations = some o ∧ Full o) :
    ∀ cur : Installed A, ModifiedAll (cur.getD (noOps A)) cs ((modGlobals cur cs).getD (noOps A)) := by
  induction cs with
  | nil => intro cur; exact .done _
  | cons c cs ih =>
    intro cur
    obtain ⟨hk, o, ho, h1, h2, h3⟩ := h c (by simp)
    have hm : (modGlobal cur c).1 = some o := by
      simp only [modGlobal, ho]
      split <;> rfl
    simp only [modGlobals, hm]
    refine .call _ _ o _ _ ?_ (ih (fun c hc => h c (by simp [hc])) (some o))
    refine ⟨?_, ?_, ?_⟩ <;> rw [ho, hk]
    · exact updated_full _ _ h1
    · exact updated_full _ _ h2
    · exact updated_full _ _ h3

/-- C122: whatever the calls were, the operations installed are those that were given last, as a whole; if none were, those from
before. -/
theorem C122_last {A : Type} (before after : List (OpsCall A)) (c : OpsCall A) (o : Ops A) (ho : c.operations = some o)
    (ha : ∀ c ∈ after, c.operations = none) (cur : Installed A) : modGlobals cur (before ++ c :: after) = some o := by
  have tail : ∀ (l : List (OpsCall A)) (cur : Installed A), (∀ c ∈ l, c.operations = none) → modGlobals cur l = cur := by
    intro l
    induction l with
    | nil => intro cur _; rfl
    | cons c l ih =>
      intro cur h
      have hm : (modGlobal cur c).1 = cur := by
        simp only [modGlobal, h c (by simp)]
        split
        · rfl
        · split <;> rfl
      simp only [modGlobals, hm]
      exact ih cur (fun c hc => h c (by simp [hc]))
  induction before generalizing cur with
  | nil =>
    have hm : (modGlobal cur c).1 = some o := by
      simp only [modGlobal, ho]
      split <;> rfl
    simp only [List.nil_append, modGlobals, hm]
    exact tail after _ ha
  | cons b before ih => exact ih _

/-- C122: a call raises exactly if there are no operations, neither given nor installed, or if a keyword is none of theirs. -/
theorem C122_raises {A : Type} (cur : Installed A) (c : OpsCall A) : (modGlobal cur c).2 = none ↔
    (c.operations.isSome ∨ cur.isSome) ∧ ∀ k ∈ dkeys c.kw, k = "inp".toList ∨ k = "out".toList ∨ k = "conv".toList := by
  have key : ∀ o : Ops A, (∃ o', o.replace c.kw = .ok o') ↔
      ∀ k ∈ dkeys c.kw, k = "inp".toList ∨ k = "out".toList ∨ k = "conv".toList := by
    intro o
    unfold Ops.replace
    split
    · rename_i h
      simp only [List.all_eq_true, Bool.or_eq_true, decide_eq_true_eq] at h
      exact ⟨fun _ k hk => (by rcases h k hk with (h | h) | h <;> simp [h]), fun _ => ⟨_, rfl⟩⟩
    · rename_i h
      simp only [List.all_eq_true, Bool.or_eq_true, decide_eq_true_eq] at h
      refine ⟨fun ⟨_, e⟩ => (by cases e), fun h' => absurd ?_ h⟩
      intro k hk
      rcases h' k hk with h | h | h <;> simp [h]
  have key2 : ∀ (cur : Installed A) (o : Ops A), cur = some o → ((match cur with
      | none => (cur, some PyErr.attributeError)
      | some o => match o.replace c.kw with
        | .error e => (cur, some e)
        | .ok _ => (cur, none)).2 = none ↔ ∃ o', o.replace c.kw = .ok o') := by
    rintro _ o rfl
    simp only
    split
    · rename_i e; rw [e]; simp
    · rename_i e; rw [e]; simp
  unfold modGlobal
  cases ho : c.operations with
  | some o =>
    simp only [Option.isSome_some, true_or, true_and]
    exact (key2 (some o) o rfl).trans (key o)
  | none =>
    cases cur with
    | none => simp
    | some o =>
      simp only [Option.isSome_none, Option.isSome_some, or_true, true_and]
      exact (key2 (some o) o rfl).trans (key o)

/-- C122 is false: `pm.mod_global_operations(inp=io_args, out=io_args)`, the example in the documentation, raises on a new
model-maker and installs nothing. -/
theorem C122_new_refuted : let c : OpsCall Nat := ⟨none, [("inp".toList, some 1), ("out".toList, some 1)]⟩
    modGlobal none c = (none, some .attributeError) ∧ ¬ Modified (noOps Nat) c (noOps Nat) :=
  ⟨rfl, fun h => by have := h.inp.1 (some 1) (by decide +kernel); cases this⟩

/-- C122 is false: keywords change nothing, whatever is installed. -/
theorem C122_keywords_refuted {A : Type} (o : Ops A) (kw : List (Str × Option A)) : (modGlobal (some o) ⟨none, kw⟩).1 = some o ∧
    ∀ x, dget kw "inp".toList = some x → x ≠ o.inp → ¬ Modified o ⟨none, kw⟩ o := by
  constructor
  · simp only [modGlobal]
    split <;> rfl
  · intro x hx hn h
    exact hn (h.inp.1 x hx).symm

/-- C122 is false: empty values of the operations given replace those installed. -/
theorem C122_empty_refuted : let c : OpsCall Nat := ⟨some ⟨none, some 2, none⟩, []⟩
    modGlobal (some ⟨some 1, some 1, some 1⟩) c = (some ⟨none, some 2, none⟩, none) ∧
    ¬ Modified (⟨some 1, some 1, some 1⟩ : Ops Nat) c ⟨none, some 2, none⟩ :=
  ⟨rfl, fun h => by have := h.inp.2.2 rfl (.inr rfl); cases this⟩

/-! Cases that meet the hypotheses. -/
example : ∀ c ∈ [(⟨some ⟨some 1, some 2, some 3⟩, []⟩ : OpsCall Nat), ⟨some ⟨some 4, some 5, some 6⟩, []⟩],
    c.kw = [] ∧ ∃ o, c.operations = some o ∧ Full o := by
  simp [Full]
example : modGlobals (A := Nat) none ([⟨some ⟨some 1, none, none⟩, []⟩] ++ ⟨some ⟨some 4, some 5, some 6⟩, [("bad".toList, none)]⟩ ::
    [⟨none, [("inp".toList, some 9)]⟩]) = some ⟨some 4, some 5, some 6⟩ := C122_last _ _ _ _ rfl (by simp) _

end Props
