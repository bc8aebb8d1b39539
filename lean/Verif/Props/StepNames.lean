import Verif.Props.PstepAssign
/-
C145: the public attributes of steps are steps, those that were assigned.
-/
namespace Props
open Py Model Spec Lemmas

/-- C145. Reading an attribute of a step without mappings gives a step, and never fails: the child that is there, with nothing
changed, if its text is not empty, and a new one with the name of the attribute as its text if there was none.
Missing for the full property: the names of methods of texts, see `C145_methods_refuted`. -/
theorem C145_reads_partial (F : Nat) (E : RegexLib) (σ : PsState) (s : Nat) (o : StepObj) (k : Str) (hk : StepName k)
    (hs : σ.steps[s]? = some o) (hp : o.pmod = none) :
    ∃ σ' c, getAttr F E σ s k = (σ', .ok (some c)) ∧
      (∀ e t, Edge σ s k e → textOf σ e = some t → t ≠ "".toList → c = e ∧ σ' = σ) ∧
      ((∀ e, ¬ Edge σ s k e) → textOf σ' c = some k ∧ c = σ.steps.length) := by
  rcases getAttr_cases (F := F) (E := E) hk hs with ⟨c, co, h1, h2, h3, h⟩ | ⟨hno, ⟨e, ⟨p, hp', _⟩, _⟩ | ⟨name, pm, h', hc, h⟩⟩
  · refine ⟨σ, c, h, ?_, ?_⟩
    · rintro e t ⟨o', ho', he⟩ _ _
      rw [hs] at ho'; cases ho'
      rw [h1] at he; cases he
      exact ⟨rfl, rfl⟩
    · intro hn; exact absurd ⟨o, hs, h1⟩ (hn c)
  · rw [hp] at hp'; cases hp'
  · rw [hp] at hc
    obtain ⟨rfl, rfl, rfl⟩ := hc
    refine ⟨_, _, h, ?_, ?_⟩
    · rintro e t ⟨o', ho', he⟩ ht hne
      rw [hs] at ho'; cases ho'
      unfold textOf at ht
      cases hx : σ.steps[e]? with
      | none => rw [hx] at ht; cases ht
      | some eo =>
        rw [hx, Option.map_some, hno e eo he hx] at ht
        cases ht; exact absurd rfl hne
    · intro _
      refine ⟨?_, rfl⟩
      have hl : (withDict σ s o).1.steps.length = σ.steps.length := by
        unfold withDict
        split <;> simp
      simp only [textOf, ← hl, List.getElem?_concat_length, Option.map_some]

/-- C145. After any history, reading an attribute to which a text was assigned gives a step with that text, and changes nothing.
Missing for the full property: the empty text and the names of methods of texts, see `C145_empty_refuted` and
`C145_methods_refuted`. -/
theorem C145_read_back_partial (F : Nat) (E : RegexLib) (σ σ' : PsState) (s : Nat) (k text : Str) (hA : After F E σ)
    (hk : StepName k) (ht : text ≠ "".toList) (h : setAttr F E σ s k (.str text) = (σ', .ok ())) :
    ∃ c, getAttr F E σ' s k = (σ', .ok (some c)) ∧ textOf σ' c = some text := by
  obtain ⟨c, _, _, _, ⟨o, ho, he⟩, hc, _⟩ := C78_assign_text F E σ σ' s k text hA h
  refine ⟨c, ?_, hc⟩
  rcases getAttr_cases (F := F) (E := E) hk ho with ⟨c', co, h1, _, _, hg⟩ | ⟨hno, _⟩
  · rw [he] at h1; cases h1; exact hg
  · exfalso
    unfold textOf at hc
    cases hx : σ'.steps[c]? with
    | none => rw [hx] at hc; cases hc
    | some co =>
      rw [hx, Option.map_some, hno c co he hx] at hc
      cases hc; exact ht rfl

/-- C145. The names that pandas looks for raise `AttributeError`, and no step is made. -/
theorem C145_pandas_names (F : Nat) (E : RegexLib) (σ : PsState) (s : Nat) (k : Str)
    (hk : k = "get_values".toList ∨ k = "Series".toList) : getAttr F E σ s k = (σ, .error .attributeError) := by
  unfold getAttr
  rcases hk with rfl | rfl
  · rw [if_neg (by decide +kernel), if_pos (by decide +kernel)]
  · rw [if_neg (by decide +kernel), if_pos (by decide +kernel)]

/-- C145, violated: a public attribute with the name of a method of texts, such as `index` or `title`, is not a step, whatever
was assigned to it before. -/
theorem C145_methods_refuted (F : Nat) (E : RegexLib) (σ : PsState) (s : Nat) (k : Str) (hk : k ∈ textNames) :
    getAttr F E σ s k = (σ, .ok none) := by
  unfold getAttr
  rw [if_pos (show k ∈ plainAttrs from hk)]

/-- C145, violated: an attribute to which the empty text was assigned is read as a step with another text, and loses the
children that it had: after `p.a.b; p.a = ""`, reading `p.a`. -/
theorem C145_empty_refuted :
    let σ := runOps 9 Tests.toy ⟨[], [], []⟩ [.new "p".toList .none none [], .get 0 "a".toList, .get 1 "b".toList]
    let σ' := (setAttr 9 Tests.toy σ 0 "a".toList (.str "".toList)).1
    let σ'' := (getAttr 9 Tests.toy σ' 0 "a".toList).1
    (Edge σ 0 "a".toList 1 ∧ Edge σ 1 "b".toList 2) ∧
    (Edge σ' 0 "a".toList 3 ∧ textOf σ' 3 = some "".toList ∧ Edge σ' 3 "b".toList 2) ∧
    Edge σ'' 0 "a".toList 4 ∧ textOf σ'' 4 = some "a".toList ∧ ¬ ∃ d, Edge σ'' 4 "b".toList d := by
  intro σ σ' σ''
  have edge : ∀ {τ : PsState} {s : Nat} {k : Str} {c : Nat},
      (τ.steps[s]?).bind (fun o => dget (τ.kids o) k) = some c ↔ Edge τ s k c := by
    intro τ s k c
    unfold Edge
    cases τ.steps[s]? <;> simp
  refine ⟨⟨edge.1 ?_, edge.1 ?_⟩, ⟨edge.1 ?_, ?_, edge.1 ?_⟩, edge.1 ?_, ?_, ?_⟩
  iterate 7 first | decide +kernel | skip
  rintro ⟨d, hd⟩
  have := edge.2 hd
  rw [show ((σ''.steps[4]?).bind (fun o => dget (σ''.kids o) "b".toList)) = none by decide +kernel] at this
  cases this

/-- `mass` is the name of a step; `title` is one of a method. -/
example : StepName "mass".toList ∧ "title".toList ∈ textNames := by
  constructor
  · unfold StepName; decide +kernel
  · decide +kernel

/-- Reading `p.mass`, and assigning to it and reading it. -/
example : ∃ σ' σ'' c, getAttr 9 Tests.toy (runOps 9 Tests.toy ⟨[], [], []⟩ [.new "p".toList .none none []]) 0 "mass".toList =
      (σ', .ok (some 1)) ∧ textOf σ' 1 = some "mass".toList ∧
    setAttr 9 Tests.toy σ' 0 "mass".toList (.str "m [kg]".toList) = (σ'', .ok ()) ∧
    getAttr 9 Tests.toy σ'' 0 "mass".toList = (σ'', .ok (some c)) ∧ textOf σ'' c = some "m [kg]".toList :=
  ⟨_, _, 2, rfl, rfl, rfl, rfl, rfl⟩

end Props
