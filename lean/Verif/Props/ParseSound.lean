import Verif.Lemmas.ParseSound
import Verif.Props.Parse
/-
C75: which texts are references, and nothing is read that was not written.
-/
namespace Props
open Py Model Spec

private theorem call_error {d : Doc} {e : PyErr} (h : parseCallSpec d = .error e) : e = .valueError := by
  have hs : ∀ e, splitCallSpec d = .error e → e = .valueError := by
    intro e he
    unfold splitCallSpec at he
    have hi : ∀ a b e, parseCallItems a b = .error e → e = .valueError := by
      intro a b e h
      unfold parseCallItems at h
      split at h <;> simp_all
    split at he <;> (try simp only [reduceCtorEq, Except.error.injEq] at he) <;> try exact he.symm
    · cases h1 : parseCallItems .null .null with
      | error e' => rw [h1] at he; simp [Except.map] at he; rw [← he]; exact hi _ _ _ h1
      | ok v => rw [h1] at he; simp [Except.map] at he
    · rename_i a
      cases h1 : parseCallItems a .null with
      | error e' => rw [h1] at he; simp [Except.map] at he; rw [← he]; exact hi _ _ _ h1
      | ok v => rw [h1] at he; simp [Except.map] at he
    · rename_i a b
      cases h1 : parseCallItems a b with
      | error e' => rw [h1] at he; simp [Except.map] at he; rw [← he]; exact hi _ _ _ h1
      | ok v => rw [h1] at he; simp [Except.map] at he
    · split at he
      · split at he <;> simp at he; exact he.symm
      · simp at he; exact he.symm
  unfold parseCallSpec at h
  cases h1 : splitCallSpec d with
  | error e => rw [h1] at h; simp at h; subst h; exact hs _ h1
  | ok v =>
    obtain ⟨f, a, k⟩ := v
    rw [h1] at h; simp only at h
    cases f <;> (try (simp at h; exact h.symm))
    cases a <;> (try (simp at h; exact h.symm)) <;> cases k <;> simp at h <;> exact h.symm

theorem filters_error {jsonLoads : Str → Option Doc} {js : Option Str} {e : PyErr} (h : parseFilters jsonLoads js = .error e) :
    e = .valueError := by
  unfold parseFilters at h
  cases js with
  | none => simp at h
  | some t =>
    simp only at h
    cases hj : jsonLoads t with
    | none => simp [hj] at h; exact h.symm
    | some d =>
      simp only [hj] at h
      split at h
      · simp at h; exact h.symm
      · rename_i x o _
        have key : ∀ d', (if d'.truthy then (parseCallSpec d').map (fun cs => (o, some cs)) else .ok (o, none)) = .error e → e = .valueError := by
          intro d' h
          by_cases ht : d'.truthy = true
          · rw [if_pos ht] at h
            cases h1 : parseCallSpec d' with
            | error e' => rw [h1] at h; simp [Except.map] at h; subst h; exact call_error h1
            | ok v => rw [h1] at h; simp [Except.map] at h
          · rw [if_neg ht] at h; simp at h
        exact key _ h

/-- C75. A fragment that is refused is so with a `SyntaxError` or, if it is a written reference, with a `ValueError`. -/
theorem C75_errors (jsonLoads : Str → Option Doc) (s : Str) (e : PyErr) (h : parseFragment jsonLoads s = .error e) :
    e = .syntaxError ∨ e = .valueError := by
  unfold parseFragment at h
  cases hm : reXlref.match? s with
  | none => rw [hm] at h; simp at h; exact .inl h.symm
  | some m =>
    obtain ⟨s', c⟩ := m
    rw [hm] at h
    simp only at h
    cases hp : parseFilters jsonLoads (c "js_filt") with
    | error e' => rw [hp] at h; simp at h; subst h; exact .inr (filters_error hp)
    | ok v => rw [hp] at h; simp at h

/-- C75. A fragment is refused as bad syntax exactly when it is not a written reference, maybe followed by
one newline. -/
theorem C75_syntax_error_iff (jsonLoads : Str → Option Doc) (s : Str) :
    parseFragment jsonLoads s = .error .syntaxError ↔
      ¬ ∃ r : RefText, r.Written ∧ (s = r.text ∨ s = r.text ++ ['\n']) := by
  have hacc : (reXlref.match? s).isSome ↔ ∃ r : RefText, r.Written ∧ (s = r.text ∨ s = r.text ++ ['\n']) := by
    rw [match_isSome_iff]
    constructor
    · rintro ⟨s', c', h⟩
      obtain ⟨he, r, hr, e, _⟩ := (run_xlref _ _ _).1 h
      rcases he with rfl | rfl
      · exact ⟨r, hr, .inl (by simpa using e)⟩
      · exact ⟨r, hr, .inr e⟩
    · rintro ⟨r, hr, e | e⟩
      · exact ⟨[], _, (run_xlref _ _ _).2 ⟨.inl rfl, r, hr, by simpa using e, rfl⟩⟩
      · exact ⟨_, _, (run_xlref _ _ _).2 ⟨.inr rfl, r, hr, e, rfl⟩⟩
  rw [← hacc]
  unfold parseFragment
  cases hm : reXlref.match? s with
  | none => simp
  | some m =>
    obtain ⟨s', c⟩ := m
    simp only [Option.isSome_some, not_true_eq_false, iff_false]
    have hne : ∀ js, parseFilters jsonLoads js ≠ .error .syntaxError := fun js h => by cases filters_error h
    cases hp : parseFilters jsonLoads (c "js_filt") with
    | error e =>
      simp only
      intro h
      simp at h
      subst h
      exact hne _ hp
    | ok v => simp

/-- Filters that are accepted are JSON in one of the documented forms, or JSON of a scalar that counts as false
(which no text that begins as filters do, with a bracket, a brace or a quote, is). -/
theorem filters_form {jl : Str → Option Doc} {js : Str} {o : Option (List (Str × Doc))} {cs : Option CallSpec}
    (h : parseFilters jl (some js) = .ok (o, cs)) :
    ∃ d, jl js = some d ∧ (FilterForm d o (cs.map (fun c => (c.func, c.args, c.kwds))) ∨
      ((d = .null ∨ d = .bool false ∨ d = .int 0) ∧ o = none ∧ cs = none)) := by
  unfold parseFilters at h
  simp only at h
  cases hd : jl js with
  | none => simp [hd] at h
  | some d =>
    refine ⟨d, rfl, ?_⟩
    simp only [hd] at h
    have call : ∀ (d : Doc) (opts : Option (List (Str × Doc))), d.truthy = true →
        (if d.truthy then (parseCallSpec d).map (fun cs => (opts, some cs)) else .ok (opts, none)) = .ok (o, cs) →
        o = opts ∧ ∃ f a k, CallForm d f a k ∧ cs = some ⟨f, a, k⟩ := by
      intro d opts ht h
      rw [if_pos ht] at h
      cases hp : parseCallSpec d with
      | error e => rw [hp] at h; simp [Except.map] at h
      | ok c =>
        rw [hp] at h
        simp only [Except.map, Except.ok.injEq, Prod.mk.injEq] at h
        obtain ⟨f, a, k⟩ := c
        exact ⟨h.1.symm, f, a, k, (C44_accepted_iff _ _ _ _).1 hp, h.2.symm⟩
    have none_ : ∀ (d : Doc) (opts : Option (List (Str × Doc))), d.truthy = false →
        (if d.truthy then (parseCallSpec d).map (fun cs => (opts, some cs)) else .ok (opts, none)) = .ok (o, cs) →
        o = opts ∧ cs = none := by
      intro d opts ht h
      rw [if_neg (by simp [ht])] at h
      simp only [Except.ok.injEq, Prod.mk.injEq] at h
      exact ⟨h.1.symm, h.2.symm⟩
    cases d with
    | dict kvs =>
      simp only at h
      have hopts : ∃ x, OptsForm (dget kvs "opts".toList) x ∧
          (if (Doc.dict (ddel kvs "opts".toList)).truthy then
            (parseCallSpec (.dict (ddel kvs "opts".toList))).map (fun cs => (x, some cs)) else .ok (x, none)) = .ok (o, cs) := by
        cases hg : dget kvs "opts".toList with
        | none => rw [hg] at h; exact ⟨none, .absent, h⟩
        | some v =>
          rw [hg] at h
          cases v with
          | null => exact ⟨none, .null, h⟩
          | dict kvs' => exact ⟨some kvs', .dict kvs', h⟩
          | _ => simp at h
      obtain ⟨x, hx, h⟩ := hopts
      have e : kvs.filter (fun p => p.1 ≠ "opts".toList) = ddel kvs "opts".toList := rfl
      cases ht : (Doc.dict (ddel kvs "opts".toList)).truthy with
      | true =>
        obtain ⟨rfl, f, a, k, hc, rfl⟩ := call _ _ ht h
        refine .inl (.call kvs o f a k ?_ hx (e ▸ hc))
        cases hl : ddel kvs "opts".toList with
        | nil => rw [hl] at ht; simp [Doc.truthy] at ht
        | cons p ps =>
          have hp : p ∈ kvs.filter (fun p => p.1 ≠ "opts".toList) := by rw [e, hl]; simp
          rw [List.mem_filter] at hp
          exact ⟨p, hp.1, by simpa using hp.2⟩
      | false =>
        obtain ⟨rfl, rfl⟩ := none_ _ _ ht h
        refine .inl (.onlyOpts kvs o ?_ hx)
        intro p hp
        cases hl : ddel kvs "opts".toList with
        | cons p ps => rw [hl] at ht; simp [Doc.truthy] at ht
        | nil =>
          rw [← e, List.filter_eq_nil_iff] at hl
          have := hl p hp
          simpa using this
    | str t =>
      cases ht : (Doc.str t).truthy with
      | true =>
        obtain ⟨rfl, f, a, k, hc, rfl⟩ := call _ _ ht h
        exact .inl (.str t f a k (by rintro rfl; simp [Doc.truthy] at ht) hc)
      | false =>
        obtain ⟨rfl, rfl⟩ := none_ _ _ ht h
        cases t with
        | nil => exact .inl .emptyStr
        | cons => simp [Doc.truthy] at ht
    | list t =>
      cases ht : (Doc.list t).truthy with
      | true =>
        obtain ⟨rfl, f, a, k, hc, rfl⟩ := call _ _ ht h
        exact .inl (.list t f a k (by rintro rfl; simp [Doc.truthy] at ht) hc)
      | false =>
        obtain ⟨rfl, rfl⟩ := none_ _ _ ht h
        cases t with
        | nil => exact .inl .emptyList
        | cons => simp [Doc.truthy] at ht
    | null =>
      obtain ⟨rfl, rfl⟩ := none_ _ _ rfl h
      exact .inr ⟨.inl rfl, rfl, rfl⟩
    | bool b =>
      cases b with
      | true =>
        obtain ⟨rfl, f, a, k, hc, rfl⟩ := call _ _ rfl h
        cases hc
      | false =>
        obtain ⟨rfl, rfl⟩ := none_ _ _ rfl h
        exact .inr ⟨.inr (.inl rfl), rfl, rfl⟩
    | atom n =>
      obtain ⟨rfl, f, a, k, hc, rfl⟩ := call _ _ rfl h
      cases hc
    | int i =>
      cases ht : (Doc.int i).truthy with
      | true =>
        obtain ⟨rfl, f, a, k, hc, rfl⟩ := call _ _ ht h
        cases hc
      | false =>
        obtain ⟨rfl, rfl⟩ := none_ _ _ ht h
        simp [Doc.truthy] at ht
        exact .inr ⟨.inr (.inr (by rw [ht])), rfl, rfl⟩

/-- C75. What is read from an accepted fragment was written there: the fragment is a written reference, maybe
followed by one newline, with that sheet, those edges in upper case, those expansion moves and
those filters. -/
theorem C75_read_was_written (jsonLoads : Str → Option Doc) (s : Str) (f : Fragment)
    (h : parseFragment jsonLoads s = .ok f) :
    ∃ r : RefText, r.Written ∧ (s = r.text ∨ s = r.text ++ ['\n']) ∧
      f.shName = r.sheetName ∧ (f.stEdge, f.ndEdge) = edgesOf r.st r.range ∧ f.expMoves = r.range.bind (·.2) ∧
      (r.filt = none → f.opts = none ∧ f.callSpec = none) ∧
      (∀ ws js, r.filt = some (ws, js) → ∃ d, jsonLoads js = some d ∧
        (FilterForm d f.opts (f.callSpec.map (fun c => (c.func, c.args, c.kwds))) ∨
          ((d = .null ∨ d = .bool false ∨ d = .int 0) ∧ f.opts = none ∧ f.callSpec = none))) := by
  unfold parseFragment at h
  cases hm : reXlref.match? s with
  | none => simp [hm] at h
  | some m =>
    obtain ⟨s', c⟩ := m
    obtain ⟨he, r, hr, e, rfl⟩ := (run_xlref _ _ _).1 (match_run hm)
    obtain ⟨h1, h2, h3, h4⟩ := groups r
    simp only [hm, h1, h2, h3, h4] at h
    refine ⟨r, hr, ?_, ?_⟩
    · rcases he with rfl | rfl
      · exact .inl (by simpa using e)
      · exact .inr e
    · cases hp : parseFilters jsonLoads (r.filt.map (·.2)) with
      | error e => simp [hp] at h
      | ok v =>
        obtain ⟨o, cs⟩ := v
        simp only [hp, Except.ok.injEq] at h
        subst h
        refine ⟨rfl, rfl, rfl, ?_, ?_⟩
        · intro hn
          rw [hn] at hp
          simp [parseFilters] at hp
          exact ⟨hp.1.symm, hp.2.symm⟩
        · intro ws js hs
          rw [hs] at hp
          exact filters_form hp

/-- C75. No row or column that is read begins with a zero, or is anything but a number, letters, or one of `_ ^ .`. -/
theorem C75_coordinates (jsonLoads : Str → Option Doc) (s : Str) (f : Fragment)
    (h : parseFragment jsonLoads s = .ok f) (e : TEdge) (he : f.stEdge = some e ∨ f.ndEdge = some e) :
    e = topLeft ∨ e = bottomRight ∨ ∃ (dot : Bool) (t : EdgeText), t.Written dot ∧ e = edgeOf t := by
  obtain ⟨r, hr, _, _, hE, _⟩ := C75_read_was_written jsonLoads s f h
  have h1 := congrArg Prod.fst hE
  have h2 := congrArg Prod.snd hE
  simp only at h1 h2
  rw [h1, h2] at he
  have hst := hr.st
  have hnd := hr.nd
  revert he
  match r.st, r.range, hst, hnd with
  | none, none, _, _ =>
    intro he; simp [edgesOf] at he
    rcases he with rfl | rfl
    · exact .inl rfl
    · exact .inr (.inl rfl)
  | none, some (none, ex), _, _ =>
    intro he; simp [edgesOf] at he
    rcases he with rfl | rfl
    · exact .inl rfl
    · exact .inr (.inl rfl)
  | none, some (some b, ex), _, hnd =>
    intro he; simp [edgesOf] at he
    rcases he with rfl | rfl
    · exact .inl rfl
    · exact .inr (.inr ⟨true, b, hnd b ex rfl, rfl⟩)
  | some a, none, hst, _ =>
    intro he; simp [edgesOf] at he
    subst he
    exact .inr (.inr ⟨false, a, hst a rfl, rfl⟩)
  | some a, some (none, ex), hst, _ =>
    intro he; simp [edgesOf] at he
    rcases he with rfl | rfl
    · exact .inr (.inr ⟨false, a, hst a rfl, rfl⟩)
    · exact .inr (.inl rfl)
  | some a, some (some b, ex), hst, hnd =>
    intro he; simp [edgesOf] at he
    rcases he with rfl | rfl
    · exact .inr (.inr ⟨false, a, hst a rfl, rfl⟩)
    · exact .inr (.inr ⟨true, b, hnd b ex rfl, rfl⟩)

/-- Every reference in the narrower sense is a written one. -/
theorem Ok.written {r : RefText} (h : r.Ok) : r.Written where
  lead := h.lead
  sheet := by
    intro s hs
    have := h.sheet
    rw [hs] at this
    exact this.1
  st := by
    intro e he
    exact ok_written (h.st e he)
  nd := by
    intro e ex he
    exact ok_written (h.nd e ex he)
  exp := h.exp
  filt := h.filt
where
  num {s : Str} (h : IsNum s) : IsNumU s := by
    obtain ⟨d, t, rfl, hd, h0, ht⟩ := h
    exact ⟨d, t, rfl, (isDigit19_iff d).1 (isDigit19_of hd h0), fun x hx => isDigitU_of_isDigit (ht x hx)⟩
  rc {s : Str} (h : IsRCNum s) : IsRCNumU s := by
    rcases h with h | ⟨t, rfl, h⟩ | h
    · exact .inl (num h)
    · exact .inr (.inl ⟨t, rfl, num h⟩)
    · exact .inr (.inr h)
  ok_written {e : EdgeText} {dot : Bool} (h : e.Ok dot) : e.Written dot := by
    obtain ⟨cell, mv⟩ := e
    refine ⟨?_, h.2⟩
    have h := h.1
    cases cell with
    | a1 col row =>
      obtain ⟨h1, h2⟩ := h
      refine ⟨?_, ?_⟩
      · rcases h1 with ⟨h1, h3⟩ | h1
        · exact .inl ⟨h1, fun x hx => .inl (h3 x hx)⟩
        · exact .inr h1
      · rcases h2 with h2 | h2
        · exact .inl (num h2)
        · exact .inr h2
    | rc r row c col => exact ⟨h.1, h.2.1, rc h.2.2.1, rc h.2.2.2⟩

/-- A concrete written reference, whose text is accepted. -/
example : parseFragment (fun _ => none) "A1:{}".toList = .error .valueError ∧ parseFragment (fun _ => none) "A0".toList = .error .syntaxError :=
  ⟨rfl, rfl⟩
example (jl : Str → Option Doc) : parseFragment jl " Sheet1!a10(dR+):R-3c.(U):l1u?: {\"opts\":{}, \"func\": \"foo!\"}".toList ≠
    .error .syntaxError := by
  intro h
  exact (C75_syntax_error_iff jl _).1 h ⟨sampleRef, Ok.written sampleRef_ok, .inl (by decide)⟩

end Props
