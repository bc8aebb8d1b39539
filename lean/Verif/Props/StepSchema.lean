import Verif.Lemmas.StepSchema
/-
The schemas of steps.
-/
namespace Props
open Py Model Spec Lemmas

/-- C130: a step has a schema exactly if it was asked for it before, or is a copy of a step that had one. -/
theorem C130_exists {F : Nat} {E : RegexLib} {st : SchState} {cs : List (Nat × Nat)} {had : List Nat} (h : SchReach F E st cs had) (s : Nat) :
    st.exists s = true ↔ s ∈ had := (sch_inv h).had s

/-- C130: what is written into the schema of a step is there, with all that was there before. -/
theorem C130_written {F : Nat} {E : RegexLib} {st : SchState} {cs : List (Nat × Nat)} {had : List Nat} (h : SchReach F E st cs had) (s : Nat)
    (hs : s < st.ps.steps.length) (attr : Str) (v : Doc) : written (st.write s attr v) s = dset (written st s) attr v :=
  (write_facts (sch_inv h) hs attr v).1

/-- C130: and it is not in the schema of any step that is not a copy, of this one or of the same one. -/
theorem C130_apart_partial {F : Nat} {E : RegexLib} {st : SchState} {cs : List (Nat × Nat)} {had : List Nat} (h : SchReach F E st cs had) (s s' : Nat)
    (hs : s < st.ps.steps.length) (hk : ¬ Kin cs s s') (attr : Str) (v : Doc) : written (st.write s attr v) s' = written st s' := by
  have w := sch_inv h
  refine (write_facts w hs attr v).2 s' ?_ (fun e => hk (e ▸ .refl _))
  cases hx : st.schemaOf s' with
  | none => exact .inl rfl
  | some j =>
    right
    intro e
    exact hk (w.kin s s' j e.symm hx)

/-- C130: reading schemas changes none of them. -/
theorem C130_read {F : Nat} {E : RegexLib} {st : SchState} {cs : List (Nat × Nat)} {had : List Nat} (h : SchReach F E st cs had) (s s' : Nat)
    (hs : s < st.ps.steps.length) : written (st.todict s).1 s' = written st s' := by
  have w := sch_inv h
  obtain ⟨_, a2, a3, _, a5, a6, a7⟩ := ask_facts w hs
  show written (st.ask s).1 s' = _
  have hs' : ∀ (x : SchState) (j : Nat), x.schemaOf s' = some j → written x s' = (x.schemas[j]?).getD [] := by
    intro x j e; simp [written, SchState.todict, SchState.ask, e]
  have hn' : ∀ (x : SchState), x.schemaOf s' = none → written x s' = [] := by
    intro x e; simp [written, SchState.todict, SchState.ask, e]
  by_cases e : s' = s
  · subst e
    cases hj : st.schemaOf s' with
    | none =>
      rw [hs' _ _ a2, hn' _ hj, (a7 hj).2, (a7 hj).1]; simp
    | some j => rw [a6 j hj]
  · cases hj : st.schemaOf s' with
    | none => rw [hn' _ hj, hn' _ ((a3 s' e).trans hj)]
    | some j => rw [hs' _ j hj, hs' _ j ((a3 s' e).trans hj), a5 j (w.refs s' j hj)]

/-- C130: operations on steps change no schema, and a copy, such as of a step that is renamed, has the schema of the step it is copied from. -/
theorem C130_steps {F : Nat} {E : RegexLib} {st : SchState} {cs : List (Nat × Nat)} {had : List Nat} (h : SchReach F E st cs had) (op : StepOp) :
    (∀ s, s < st.ps.steps.length → written (st.onSteps F E op) s = written st s) ∧
    ∀ src, Copies st.ps op src → Makes F E st.ps op →
      (st.onSteps F E op).ps.steps.length = st.ps.steps.length + 1 ∧
      (st.onSteps F E op).exists st.ps.steps.length = st.exists src ∧
      written (st.onSteps F E op) st.ps.steps.length = written st src := by
  have w := sch_inv h
  obtain ⟨f1, f2⟩ := onSteps_schemaOf (F := F) (E := E) w op
  have look : ∀ a b, (st.onSteps F E op).schemaOf a = st.schemaOf b → written (st.onSteps F E op) a = written st b := by
    intro a b e
    unfold written SchState.todict
    conv => lhs; unfold SchState.ask
    conv => rhs; unfold SchState.ask
    rw [e]
    cases st.schemaOf b with
    | none => simp
    | some j => rfl
  refine ⟨fun s hs => look s s (f1 s (by omega)), ?_⟩
  intro src hc hm
  rw [if_neg hm, (copiedBy_iff st.ps op src).2 hc] at f2
  simp only [Option.bind_some] at f2
  refine ⟨(apply_oneMore F E st.ps op).resolve_left hm, ?_, look _ src f2⟩
  unfold SchState.exists
  rw [f2]

/-- No patterns. -/
def noRegex : RegexLib := ⟨Unit, fun _ => true, fun _ _ => none, fun _ a => .ok a⟩

/-- Steps `/a` and `/b`, the latter a copy of the former, which has a schema. -/
def exCopied : SchState :=
  SchOp.apply 9 noRegex (SchOp.apply 9 noRegex (SchOp.apply 9 noRegex (SchOp.apply 9 noRegex ⟨⟨[], [], []⟩, [], []⟩
    (.steps (.new [] .none none []))) (.steps (.get 0 "a".toList))) (.write 1 "type".toList (.str "list".toList)))
    (.steps (.assignStep 0 "b".toList 1))

theorem exCopied_reach : SchReach 9 noRegex exCopied [(1, 2)] [2, 1] := by
  have h0 : SchReach 9 noRegex _ _ _ := .fresh (.new [] .none none []) (.start []) (by rintro ⟨_, ⟨⟩⟩)
  have h1 : SchReach 9 noRegex _ _ _ := .fresh (.get 0 "a".toList) h0 (by rintro ⟨_, ⟨⟩⟩)
  have h2 : SchReach 9 noRegex _ _ _ := .write 1 "type".toList (.str "list".toList) h1 (by decide +kernel)
  have h3 := SchReach.copy (.assignStep 0 "b".toList 1) 1 h2 (.assigned 0 _ 1 "a".toList (by decide +kernel) (by decide))
    (by unfold Makes; decide +kernel)
  exact h3

/-- C130 is false of copies: `p.b = p.a` copies the step (`_clone_attrs` says "deeply"), and yet what is then written into the schema of
`p.b` is in that of `p.a` too. -/
theorem C130_copy_refuted : ∃ F E st cs had, SchReach F E st cs had ∧ ∃ s s', s < st.ps.steps.length ∧ s' < st.ps.steps.length ∧ s ≠ s' ∧
    ∃ attr v, dget (written (st.write s attr v) s') attr ≠ dget (written st s') attr := by
  refine ⟨9, noRegex, exCopied, _, _, exCopied_reach, 2, 1, by decide +kernel, by decide +kernel, by decide, "type".toList, .str [], ?_⟩
  have h1 : dget (written (exCopied.write 2 "type".toList (.str [])) 1) "type".toList = some (.str []) := by rfl
  have h2 : dget (written exCopied 1) "type".toList = some (.str "list".toList) := by rfl
  rw [h1, h2]
  intro e
  injection e with e
  injection e with e
  cases e

/-- C130: names are not checked, though the documentation of `JSchema` says so. -/
theorem C130_names_refuted : ∃ F E st cs had, SchReach F E st cs had ∧ ∃ s attr v, s < st.ps.steps.length ∧ attr ∉ schemaNames ∧
    dget (written (st.write s attr v) s) attr = some v := by
  refine ⟨9, noRegex, exCopied, _, _, exCopied_reach, 1, "tpye".toList, .null, by decide +kernel, by decide +kernel, ?_⟩
  rw [C130_written exCopied_reach 1 (by decide +kernel), dget_dset_self]

/-- C130: nor is the type `object` derived for steps with children, though the documentation of `JSchema` says so. -/
theorem C130_type_refuted : ∃ F E st cs had, SchReach F E st cs had ∧ ∃ s, s < st.ps.steps.length ∧ (∃ k c, Edge st.ps s k c) ∧
    dget (written st s) "type".toList = none :=
  ⟨9, noRegex, exCopied, _, _, exCopied_reach, 0, by decide +kernel, ⟨"a".toList, 1, _, rfl, by decide +kernel⟩, by rfl⟩

/-! A concrete case: the schema of `/a` is not in that of the root. -/

example : exCopied.exists 0 = false ∧ exCopied.exists 1 = true ∧ exCopied.exists 2 = true := by decide +kernel

theorem exCopied_kin {a b : Nat} (k : Kin [(1, 2)] a b) : (a = 0 ↔ b = 0) := by
  induction k with
  | refl a => rfl
  | copy h => simp at h; omega
  | symm _ ih => exact ih.symm
  | trans _ _ ih1 ih2 => exact ih1.trans ih2

example (v : Doc) : written (exCopied.write 1 "title".toList v) 0 = written exCopied 0 :=
  C130_apart_partial exCopied_reach 1 0 (by decide +kernel) (fun k => by have := (exCopied_kin k).2 rfl; omega) _ _

end Props
