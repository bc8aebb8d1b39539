import Verif.Lemmas.SheetThreads
import Verif.Props.SheetCache
/-
C155: threads that share a sheet.
-/
namespace Props
open Py Model Spec Lemmas

/-- What was ever there. -/
private def everRules (s : SheetContents) (ms : List Moment) : Rules where
  state m := ∃ c, HadContents s ms c ∧ c.states = .ok m
  stateErr e := ∃ c, HadContents s ms c ∧ c.states = .error e
  report r := ∃ c, HadContents s ms c ∧ c.reported = .ok r
  reportErr e := ∃ c, HadContents s ms c ∧ c.reported = .error e
  margin b := ∃ c rep, HadContents s ms c ∧ c.reported = .ok rep ∧ ((rep.1 = some b.1 ∧ rep.2 = some b.2) ∨
    ∃ c' m, HadContents s ms c' ∧ c'.states = .ok m ∧ MarginsOf rep m b.1 b.2)
  marginErr e := ∃ c, HadContents s ms c ∧ (c.reported = .error e ∨ c.states = .error e)
  both := by
    rintro up dn ⟨c, hc, hr⟩
    exact ⟨c, _, hc, hr, .inl ⟨rfl, rfl⟩⟩
  some := by
    rintro up dn m ⟨c, hc, hr⟩ ⟨c', hc', hm⟩
    exact ⟨c, _, hc, hr, .inr ⟨c', m, hc', hm, _, _, boxOf_margins m, rfl, rfl⟩⟩
  noReport := by
    rintro e ⟨c, hc, hr⟩
    exact ⟨c, hc, .inl hr⟩
  noState := by
    rintro up dn e _ _ ⟨c, hc, hr⟩
    exact ⟨c, hc, .inr hr⟩

private theorem everRules_fits (s : SheetContents) (ms : List Moment) (c : SheetContents) (h : HadContents s ms c) : (everRules s ms).Fits c :=
  ⟨fun _ hm => ⟨c, h, hm⟩, fun _ hm => ⟨c, h, hm⟩, fun _ hm => ⟨c, h, hm⟩, fun _ hm => ⟨c, h, hm⟩⟩

/-- A new sheet with contents, asked once. -/
private def freshMargins (s : SheetContents) : Except PyErr (Coords × Coords) := (CachedSheet.getMargins ⟨s, none, none⟩).2

/-- What is there all the time. -/
private def sameRules (s : SheetContents) : Rules where
  state m := s.states = .ok m
  stateErr e := s.states = .error e
  report r := s.reported = .ok r
  reportErr e := s.reported = .error e
  margin b := freshMargins s = .ok b
  marginErr e := freshMargins s = .error e
  both := by
    intro up dn h
    simp [freshMargins, CachedSheet.getMargins, h]
  some := by
    intro up dn m h hm
    cases up <;> cases dn <;> simp [freshMargins, CachedSheet.getMargins, CachedSheet.getStates, h, hm]
  noReport := by
    intro e h
    simp [freshMargins, CachedSheet.getMargins, h]
  noState := by
    intro up dn e h hn hm
    cases up <;> cases dn <;> simp at hn <;> simp [freshMargins, CachedSheet.getMargins, CachedSheet.getStates, h, hm]

/-- C155. Whatever the threads are, how many and however their operations interleave, a thread gets what the same question gets from a new sheet that
nobody else asks, as long as the contents do not change. -/
theorem C155_same_partial (s : SheetContents) (qs : List Question) (ms : List Moment) (hn : ∀ c, Moment.change c ∉ ms) (j : Nat) (a : SheetAnswer)
    (h : Answered ((Askers.start s qs).run ms) j a) :
    ∃ q, qs[j]? = some q ∧ CachedSheet.run ⟨s, none, none⟩ [event q] = [a] := by
  obtain ⟨h1, q, hq, h2⟩ := good_answer (P := sameRules s) s qs ms ⟨fun _ h => h, fun _ h => h, fun _ h => h, fun _ h => h⟩
    (fun c hc => absurd hc (hn c)) j a h
  refine ⟨q, hq, ?_⟩
  cases q with
  | states =>
    cases a with
    | states r =>
      cases r with
      | ok m =>
        have h1 : s.states = .ok m := h1
        simp [CachedSheet.run, CachedSheet.step, event, CachedSheet.getStates, h1]
      | error e =>
        have h1 : s.states = .error e := h1
        simp [CachedSheet.run, CachedSheet.step, event, CachedSheet.getStates, h1]
    | margins r => exact h2.elim
    | changed => exact h2.elim
  | margins =>
    cases a with
    | states r => exact h2.elim
    | margins r =>
      have h1 : (CachedSheet.getMargins ⟨s, none, none⟩).2 = r := by
        cases r with
        | ok m => exact h1
        | error e => exact h1
      simp [CachedSheet.run, CachedSheet.step, event, h1]
    | changed => exact h2.elim

/-- C155. So, as long as the contents do not change, the states are those of the sheet, and the margins those that it reports, and others from
its full cells. -/
theorem C155_unchanged_partial (s : SheetContents) (qs : List Question) (ms : List Moment) (hn : ∀ c, Moment.change c ∉ ms) (j : Nat) :
    (∀ r, Answered ((Askers.start s qs).run ms) j (.states r) → r = s.states) ∧
    (∀ r, Answered ((Askers.start s qs).run ms) j (.margins r) →
      (∀ e, r = .error e → s.reported = .error e ∨ s.states = .error e) ∧
      (∀ up dn, r = .ok (up, dn) → ∃ rep, s.reported = .ok rep ∧
        ((rep.1 = some up ∧ rep.2 = some dn) ∨ ∃ m, s.states = .ok m ∧ MarginsOf rep m up dn))) := by
  refine ⟨fun r h => ?_, fun r h => ?_⟩
  · obtain ⟨q, _, hq⟩ := C155_same_partial s qs ms hn j _ h
    exact (C95_unchanged s [event q] (by cases q <;> simp [event]) 0).1 r (by rw [hq]; rfl)
  · obtain ⟨q, _, hq⟩ := C155_same_partial s qs ms hn j _ h
    exact (C95_unchanged s [event q] (by cases q <;> simp [event]) 0).2 r (by rw [hq]; rfl)

/-- C155. Even if they do, an answer about states is of some time until then, and so is a failure. -/
theorem C155_states_true (s : SheetContents) (qs : List Question) (ms : List Moment) (j : Nat) (r : Except PyErr Mat)
    (h : Answered ((Askers.start s qs).run ms) j (.states r)) : qs[j]? = some .states ∧ ∃ c, HadContents s ms c ∧ c.states = r := by
  obtain ⟨h1, q, hq, h2⟩ := good_answer (P := everRules s ms) s qs ms (everRules_fits s ms s (.inl rfl))
    (fun c hc => everRules_fits s ms c (.inr hc)) j _ h
  cases q with
  | states =>
    refine ⟨hq, ?_⟩
    cases r with
    | ok m => exact h1
    | error e => exact h1
  | margins => exact h2.elim

/-- C155. An answer about margins has the reported ones of some time until then, and the others from the full cells of some time until then; a
failure is one of some time until then. -/
theorem C155_margins_true (s : SheetContents) (qs : List Question) (ms : List Moment) (j : Nat) (r : Except PyErr (Coords × Coords))
    (h : Answered ((Askers.start s qs).run ms) j (.margins r)) : qs[j]? = some .margins ∧
    (∀ e, r = .error e → ∃ c, HadContents s ms c ∧ (c.reported = .error e ∨ c.states = .error e)) ∧
    (∀ up dn, r = .ok (up, dn) → ∃ c rep, HadContents s ms c ∧ c.reported = .ok rep ∧
      ((rep.1 = some up ∧ rep.2 = some dn) ∨ ∃ c' m, HadContents s ms c' ∧ c'.states = .ok m ∧ MarginsOf rep m up dn)) := by
  obtain ⟨h1, q, hq, h2⟩ := good_answer (P := everRules s ms) s qs ms (everRules_fits s ms s (.inl rfl))
    (fun c hc => everRules_fits s ms c (.inr hc)) j _ h
  cases q with
  | states => exact h2.elim
  | margins =>
    refine ⟨hq, fun e he => ?_, fun up dn hr => ?_⟩
    · subst he; exact h1
    · subst hr; exact h1

/-- C155. A thread is answered after eight operations of its own at most, whatever others do. -/
theorem C155_waits_for_none (s : SheetContents) (qs : List Question) (ms : List Moment) (j : Nat) (q : Question) (hq : qs[j]? = some q)
    (h : 8 ≤ turns ms j) : ∃ a, Answered ((Askers.start s qs).run ms) j a := by
  have hlen : ∀ (ms : List Moment) (c : Askers), (c.run ms).threads.length = c.threads.length := by
    intro ms
    induction ms with
    | nil => intro c; rfl
    | cons m ms ih =>
      intro c
      refine (ih (c.step m)).trans ?_
      cases m with
      | change s => rfl
      | thread i =>
        simp only [Askers.step]
        split <;> simp
  have hj : j < ((Askers.start s qs).run ms).threads.length := by
    rw [hlen]
    simp only [Askers.start, List.length_map]
    rcases Nat.lt_or_ge j qs.length with h' | h'
    · exact h'
    · rw [List.getElem?_eq_none h'] at hq; cases hq
  obtain ⟨a, ha⟩ := run_within ms j 8 (Askers.start s qs) (by
    intro t ht
    simp only [Askers.start, List.getElem?_map, hq, Option.map_some, Option.some.injEq] at ht
    subst ht
    exact within_ask q) h _ (List.getElem?_eq_getElem hj)
  exact ⟨a, by unfold Answered; rw [List.getElem?_eq_getElem hj, ha]⟩

/-- C155. A thread whose operations all come one after another does what the question does in the history of one thread, whatever the sheet remembers. -/
theorem C155_alone (o : CachedSheet) (q : Question) :
    Askers.run ⟨o, [q.ask]⟩ (List.replicate 8 (.thread 0)) = ⟨(o.step (event q)).1, [.done (o.step (event q)).2]⟩ := by
  obtain ⟨⟨st, rep⟩, ss, mm⟩ := o
  cases q with
  | states =>
    cases ss with
    | some m => rfl
    | none => cases st <;> rfl
  | margins =>
    cases mm with
    | some b => rfl
    | none =>
      cases rep with
      | error e => rfl
      | ok r =>
        obtain ⟨up, dn⟩ := r
        cases up <;> cases dn <;> cases ss <;> cases st <;>
          simp [Askers.run, Askers.step, List.replicate, Asking.step, Question.ask, marginsT, statesT, loaded, event, CachedSheet.step,
            CachedSheet.getMargins, CachedSheet.getStates]

/-- One cell, full or not. -/
private def oneCell (b : Bool) : Mat := ⟨1, 1, fun _ _ => b⟩

/-- Contents with one cell. -/
private def oneSheet (b : Bool) : SheetContents := ⟨.ok (oneCell b), .ok (none, none)⟩

/-- Three threads ask for the states; the second one gets all its turns while the first one is about to store what it read, from contents that
changed meanwhile. -/
private def late : List Moment :=
  [.thread 0, .thread 0, .change (oneSheet true)] ++ List.replicate 4 (.thread 1)

/-- C155, refuted with changes: a thread is answered with the new states, and a thread that begins to ask only later gets the old ones again (in one
thread the first answer is the answer for ever, `C95_states_same`). -/
theorem C155_refuted : ¬ ∀ (s : SheetContents) (qs : List Question) (ms ms' : List Moment) (i j : Nat) (m : Mat) (r : Except PyErr Mat),
    Answered ((Askers.start s qs).run ms) i (.states (.ok m)) → turns ms j = 0 → (∀ c, Moment.change c ∉ ms') →
    Answered ((Askers.start s qs).run (ms ++ ms')) j (.states r) → r = .ok m := by
  intro h
  have := h (oneSheet false) [.states, .states, .states] late
    ([Moment.thread 0, Moment.thread 0] ++ List.replicate 4 (Moment.thread 2)) 1 2 (oneCell true)
    (.ok (oneCell false)) rfl rfl (by simp) rfl
  injection this with this
  have h2 : (oneCell false).cell 0 0 = (oneCell true).cell 0 0 := by rw [this]
  exact Bool.noConfusion h2

/-- Threads that race: both look before either stores. -/
example : Answered ((Askers.start (oneSheet true) [.margins, .states]).run
    (([.thread 0, .thread 0, .thread 0, .thread 1, .thread 1] ++ List.replicate 8 (.thread 0)) ++ List.replicate 8 (.thread 1))) 0
    (.margins (.ok (⟨0, 0⟩, ⟨0, 0⟩))) := rfl

example : 8 ≤ turns (([.thread 0, .thread 0, .thread 0, .thread 1, .thread 1] ++ List.replicate 8 (.thread 0)) ++ List.replicate 8 (.thread 1)) 1 := by
  decide

end Props
