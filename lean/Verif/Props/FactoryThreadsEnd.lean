import Verif.Spec.FactoryThreads
import Verif.Props.FactoryThreads
/-
C152. Calls of threads that fetch sheets from one factory come to an end.
-/
namespace Props
open Py Model Spec

private theorem crew_step_own (op : Nat → Str → ShId → Except PyErr SheetObj) (c : Crew) (j : Nat) (t : Todo) (h : c.threads[j]? = some t) :
    (c.step op j).threads[j]? = some (t.step op c.shared).2 := by
  unfold Crew.step
  rw [h]
  have hl := (List.getElem?_eq_some_iff.1 h).1
  simp [hl]

private theorem crew_step_other (op : Nat → Str → ShId → Except PyErr SheetObj) (c : Crew) {i j : Nat} (hne : i ≠ j) :
    (c.step op i).threads[j]? = c.threads[j]? := by
  unfold Crew.step
  cases c.threads[i]? with
  | none => rfl
  | some t =>
    dsimp only
    rw [List.getElem?_set_ne hne]

private theorem crew_run_succ (op : Nat → Str → ShId → Except PyErr SheetObj) (c : Crew) (turn : Nat → Nat) (n : Nat) :
    c.run op ((List.range (n + 1)).map turn) = (c.run op ((List.range n).map turn)).step op (turn n) := by
  rw [List.range_succ, List.map_append]
  unfold Crew.run
  rw [List.foldl_append]
  rfl

/-- C152. No call waits for another one, or goes on for ever since the factory changes meanwhile: whatever the other threads do, a call that is
given turns again and again ends, with a sheet or an exception, and that stays its outcome. -/
theorem C152_ends (W : Surroundings) {asks : List SKey} {c : Crew} (_ : AtWork W asks c) (j : Nat) (hj : j < c.threads.length)
    (turn : Nat → Nat) (hf : ∀ n, ∃ m, n ≤ m ∧ turn m = j) :
    ∃ n r, ∀ m, n ≤ m → CallEnded (c.run W.opener ((List.range m).map turn)) j r := by
  have hnext : ∀ (d n : Nat) (t : Todo), (c.run W.opener ((List.range n).map turn)).threads[j]? = some t → turn (n + d) = j →
      ∃ m S, (c.run W.opener ((List.range m).map turn)).threads[j]? = some (t.step W.opener S).2 := by
    intro d
    induction d with
    | zero =>
      intro n t h1 h2
      refine ⟨n + 1, (c.run W.opener ((List.range n).map turn)).shared, ?_⟩
      rw [crew_run_succ, show turn n = j from h2]
      exact crew_step_own _ _ j t h1
    | succ d ih =>
      intro n t h1 h2
      by_cases hn : turn n = j
      · refine ⟨n + 1, (c.run W.opener ((List.range n).map turn)).shared, ?_⟩
        rw [crew_run_succ, hn]
        exact crew_step_own _ _ j t h1
      · refine ih (n + 1) t ?_ (by rw [← h2]; congr 1; omega)
        rw [crew_run_succ, crew_step_other _ _ hn]
        exact h1
  have hgo : ∀ (n : Nat) (t : Todo), (c.run W.opener ((List.range n).map turn)).threads[j]? = some t →
      ∃ m S, (c.run W.opener ((List.range m).map turn)).threads[j]? = some (t.step W.opener S).2 := by
    intro n t h
    obtain ⟨m, hm, he⟩ := hf n
    exact hnext (m - n) n t h (by rw [← he]; congr 1; omega)
  have hmain : ∀ (t : Todo) (n : Nat), (c.run W.opener ((List.range n).map turn)).threads[j]? = some t →
      ∃ n r, CallEnded (c.run W.opener ((List.range n).map turn)) j r := by
    intro t
    induction t with
    | done r => exact fun n h => ⟨n, r, h⟩
    | outerGet w k ih => intro n h; obtain ⟨m, S, h'⟩ := hgo n _ h; exact ih _ m h'
    | outerNew w k ih => intro n h; obtain ⟨m, S, h'⟩ := hgo n _ h; exact ih _ m h'
    | outerIter k ih => intro n h; obtain ⟨m, S, h'⟩ := hgo n _ h; exact ih _ m h'
    | outerNext size pos k ih => intro n h; obtain ⟨m, S, h'⟩ := hgo n _ h; exact ih _ m h'
    | innerGet d sh k ih => intro n h; obtain ⟨m, S, h'⟩ := hgo n _ h; exact ih _ m h'
    | innerPut d sh s k ih => intro n h; obtain ⟨m, S, h'⟩ := hgo n _ h; exact ih m h'
    | innerItems d k ih => intro n h; obtain ⟨m, S, h'⟩ := hgo n _ h; exact ih _ m h'
    | innerDel d sh k ih =>
      intro n h
      obtain ⟨m, S, h'⟩ := hgo n _ h
      simp only [Todo.step] at h'
      cases ho : dget (S.inner d) sh with
      | none => simp only [ho] at h'; exact ih _ m h'
      | some _ => simp only [ho] at h'; exact ih _ m h'
    | close s k ih => intro n h; obtain ⟨m, S, h'⟩ := hgo n _ h; exact ih m h'
    | openBook w sh k ih => intro n h; obtain ⟨m, S, h'⟩ := hgo n _ h; exact ih _ m h'
  obtain ⟨n, r, h⟩ := hmain c.threads[j] 0 (List.getElem?_eq_getElem hj)
  refine ⟨n, r, fun m hm => ?_⟩
  obtain ⟨d, rfl⟩ : ∃ d, m = n + d := ⟨m - n, by omega⟩
  induction d with
  | zero => exact h
  | succ d ih =>
    have h1 := ih (by omega)
    show (c.run W.opener ((List.range (n + d + 1)).map turn)).threads[j]? = _
    rw [crew_run_succ]
    by_cases hn : turn (n + d) = j
    · rw [hn]
      exact crew_step_own _ _ j _ h1
    · rw [crew_step_other _ _ hn]
      exact h1

/-- Two calls for the same sheet that take turns both end. -/
example (W : Surroundings) (w : Str) (sh : ShId) : ∀ j, j < 2 → ∃ n r, ∀ m, n ≤ m →
    CallEnded (Crew.run W.opener ⟨SharedFactory.new, [fetchT id w sh, fetchT id w sh]⟩ ((List.range m).map (fun n => n % 2))) j r := by
  intro j hj
  have h : AtWork W ([] ++ [(w, sh)] ++ [(w, sh)]) ⟨SharedFactory.new, [] ++ [fetchT id w sh] ++ [fetchT id w sh]⟩ :=
    .call id w sh (.call id w sh .new (fun _ _ => Iff.rfl)) (fun _ _ => Iff.rfl)
  exact C152_ends W h j hj _ (fun n => ⟨2 * n + j, by omega, by omega⟩)

end Props
