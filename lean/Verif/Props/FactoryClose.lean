import Verif.Lemmas.FactoryCloseAlone
import Verif.Props.FactoryThreads
/-
C167. Threads that close a factory that others fetch sheets from.
-/
namespace Props
open Py Model Spec Lemmas

section
variable {W : Surroundings}

/-- C167. Whatever threads fetch and close at the same time, and however their operations mix, a call that returns a sheet returns the one that
opening the workbook without a factory gives: of that workbook, with that number. -/
theorem C167_right_sheet (hW : ProperBooks W) {asks : List Ask} {c : Shift} (h : OnShift W asks c) (j : Nat) (w : Str) (sh : ShId)
    (o : Option SheetObj) (hj : asks[j]? = some (.fetch w sh)) (hd : CallOver c j (.ok o)) :
    ∃ s url i, o = some s ∧ openSheetOf W.ok W.cwd W.plugins w sh = .ok (url, i) ∧ IsSheet s url i := by
  rcases (onShift_safe hW h).2.2 j _ _ hj hd with ⟨s', h1, url, i, h2⟩ | ⟨e, h1, -⟩ | h1 | h1 <;> cases h1
  exact ⟨s', url, i, rfl, h2⟩

/-- C167. So a call that raises what opening raises is one of a workbook or sheet that cannot be opened. -/
theorem C167_raised (hW : ProperBooks W) {asks : List Ask} {c : Shift} (h : OnShift W asks c) (j : Nat) (w : Str) (sh : ShId) (e : PyErr)
    (hj : asks[j]? = some (.fetch w sh)) (hd : CallOver c j (.error (.raised e))) : openSheetOf W.ok W.cwd W.plugins w sh = .error e := by
  rcases (onShift_safe hW h).2.2 j _ _ hj hd with ⟨s', h1, h2⟩ | ⟨e, h1, h2⟩ | h1 | h1 <;> cases h1
  exact h2

/-- C167. A call that closes the factory ends well, or with the `RuntimeError` of a dictionary that changed its size. -/
theorem C167_close_ends_with (hW : ProperBooks W) {asks : List Ask} {c : Shift} (h : OnShift W asks c) (j : Nat)
    (r : Except ThreadErr (Option SheetObj)) (hj : asks[j]? = some .close) (hd : CallOver c j r) : r = .ok none ∨ r = .error .changedSize :=
  (onShift_safe hW h).2.2 j _ _ hj hd

/-- C167, in part: closing the factory without another thread getting in between closes all the sheets that it holds, and nothing else, and
leaves it empty, whatever other calls are under way. Missing: other threads getting in between, see `C167_lost_refuted`, `C167_dead_refuted`,
`C167_size_refuted`, `C167_half_refuted` and `C167_missing_refuted`. -/
theorem C167_close_partial {asks : List Ask} {c : Shift} (_ : OnShift W asks c) (j : Nat) (hj : c.threads[j]? = some closeC) :
    ∃ n c', c.run W.opener (List.replicate n j) = c' ∧ c'.threads = c.threads.set j (.done (.ok none)) ∧
      (factoryNow c'.shared).cache = [] ∧
      (∀ s, s ∈ c'.shared.closed ↔ s ∈ c.shared.closed ∨ s ∈ (factoryNow c.shared).sheets) ∧ c'.shared.opened = c.shared.opened := by
  obtain ⟨n, hn⟩ := runC_finish (op := W.opener) j closeC c hj
  rw [finish_closeC] at hn
  refine ⟨n, _, hn, rfl, ?_, ?_, rfl⟩
  · simp [factoryNow]
  · intro s
    simp only [List.mem_append, List.mem_reverse, heldIn, Factory.sheets, factoryNow, List.mem_flatMap, List.mem_map]
    constructor
    · rintro (⟨e, h1, x, h2, h3⟩ | h)
      · exact .inr ⟨_, ⟨e, h1, rfl⟩, x, h2, h3⟩
      · exact .inl h
    · rintro (h | ⟨_, ⟨e, h1, rfl⟩, x, h2, h3⟩)
      · exact .inr h
      · exact .inl ⟨e, h1, x, h2, h3⟩

private theorem shift_run_succ (c : Shift) (turn : Nat → Nat) (n : Nat) :
    c.run W.opener ((List.range (n + 1)).map turn) = (c.run W.opener ((List.range n).map turn)).step W.opener (turn n) := by
  rw [List.range_succ, List.map_append]
  unfold Shift.run
  rw [List.foldl_append]
  rfl

private theorem shift_own (c : Shift) (j : Nat) (t : Doing) (h : c.threads[j]? = some t) :
    (c.step W.opener j).threads[j]? = some (t.step W.opener c.shared).2 := by
  rw [shift_step_own h]
  exact List.getElem?_set_self (List.getElem?_eq_some_iff.1 h).1

private theorem shift_other (c : Shift) {i j : Nat} (hne : i ≠ j) : (c.step W.opener i).threads[j]? = c.threads[j]? := by
  unfold Shift.step
  cases c.threads[i]? with
  | none => rfl
  | some t => exact List.getElem?_set_ne hne

/-- C167. No call waits for another one, or goes on for ever since the factory changes meanwhile: whatever the other threads do, a call that is
given turns again and again ends, and that stays its outcome. -/
theorem C167_ends {asks : List Ask} {c : Shift} (_ : OnShift W asks c) (j : Nat) (hj : j < c.threads.length)
    (turn : Nat → Nat) (hf : ∀ n, ∃ m, n ≤ m ∧ turn m = j) :
    ∃ n r, ∀ m, n ≤ m → CallOver (c.run W.opener ((List.range m).map turn)) j r := by
  have hnext : ∀ (d n : Nat) (t : Doing), (c.run W.opener ((List.range n).map turn)).threads[j]? = some t → turn (n + d) = j →
      ∃ m S, (c.run W.opener ((List.range m).map turn)).threads[j]? = some (t.step W.opener S).2 := by
    intro d
    induction d with
    | zero =>
      intro n t h1 h2
      refine ⟨n + 1, (c.run W.opener ((List.range n).map turn)).shared, ?_⟩
      rw [shift_run_succ, show turn n = j from h2]
      exact shift_own _ j t h1
    | succ d ih =>
      intro n t h1 h2
      by_cases hn : turn n = j
      · refine ⟨n + 1, (c.run W.opener ((List.range n).map turn)).shared, ?_⟩
        rw [shift_run_succ, hn]
        exact shift_own _ j t h1
      · refine ih (n + 1) t ?_ (by rw [← h2]; congr 1; omega)
        rw [shift_run_succ, shift_other _ hn]
        exact h1
  have hgo : ∀ (n : Nat) (t : Doing), (c.run W.opener ((List.range n).map turn)).threads[j]? = some t →
      ∃ m S, (c.run W.opener ((List.range m).map turn)).threads[j]? = some (t.step W.opener S).2 := by
    intro n t h
    obtain ⟨m, hm, he⟩ := hf n
    exact hnext (m - n) n t h (by rw [← he]; congr 1; omega)
  have hmain : ∀ (t : Doing) (n : Nat), (c.run W.opener ((List.range n).map turn)).threads[j]? = some t →
      ∃ n r, CallOver (c.run W.opener ((List.range n).map turn)) j r := by
    intro t
    induction t with
    | done r => exact fun n h => ⟨n, r, h⟩
    | books k ih => intro n h; obtain ⟨m, S, h'⟩ := hgo n _ h; exact ih _ m h'
    | emptied k ih => intro n h; obtain ⟨m, S, h'⟩ := hgo n _ h; exact ih m h'
    | hasBook o w k ih => intro n h; obtain ⟨m, S, h'⟩ := hgo n _ h; exact ih _ m h'
    | getBook o w k ih => intro n h; obtain ⟨m, S, h'⟩ := hgo n _ h; exact ih _ m h'
    | newBook o w k ih => intro n h; obtain ⟨m, S, h'⟩ := hgo n _ h; exact ih _ m h'
    | iterBooks o k ih => intro n h; obtain ⟨m, S, h'⟩ := hgo n _ h; exact ih _ m h'
    | nextBook o size pos k ih => intro n h; obtain ⟨m, S, h'⟩ := hgo n _ h; exact ih _ m h'
    | getSheet d sh k ih => intro n h; obtain ⟨m, S, h'⟩ := hgo n _ h; exact ih _ m h'
    | putSheet d sh s k ih => intro n h; obtain ⟨m, S, h'⟩ := hgo n _ h; exact ih m h'
    | items d k ih => intro n h; obtain ⟨m, S, h'⟩ := hgo n _ h; exact ih _ m h'
    | delSheet d sh k ih =>
      intro n h
      obtain ⟨m, S, h'⟩ := hgo n _ h
      simp only [Doing.step] at h'
      cases ho : dget (S.inner d) sh with
      | none => simp only [ho] at h'; exact ih _ m h'
      | some _ => simp only [ho] at h'; exact ih _ m h'
    | iterSheets d k ih => intro n h; obtain ⟨m, S, h'⟩ := hgo n _ h; exact ih _ m h'
    | nextSheet d size pos k ih => intro n h; obtain ⟨m, S, h'⟩ := hgo n _ h; exact ih _ m h'
    | close s k ih => intro n h; obtain ⟨m, S, h'⟩ := hgo n _ h; exact ih m h'
    | openBook w sh k ih => intro n h; obtain ⟨m, S, h'⟩ := hgo n _ h; exact ih _ m h'
  obtain ⟨n, r, h⟩ := hmain c.threads[j] 0 (List.getElem?_eq_getElem hj)
  refine ⟨n, r, fun m hm => ?_⟩
  obtain ⟨d, rfl⟩ : ∃ d, m = n + d := ⟨m - n, by omega⟩
  induction d with
  | zero => exact h
  | succ d ih =>
    have h1 := ih (by omega)
    show (c.run W.opener ((List.range (n + d + 1)).map turn)).threads[j]? = _
    rw [shift_run_succ]
    by_cases hn : turn (n + d) = j
    · rw [hn]
      exact shift_own _ j _ h1
    · rw [shift_other _ hn]
      exact h1

/-! ### One call after the other -/

private theorem run_one {S S' : OpenFactory} {t : Doing} {n : Nat} {r : Except ThreadErr (Option SheetObj)}
    (h : Shift.run W.opener ⟨S, [t]⟩ (List.replicate n 0) = ⟨S', [.done r]⟩) : finishC W.opener t S = (S', r) := by
  obtain ⟨S1, t1, h1, h2⟩ := runC_alone (op := W.opener) 0 n ⟨S, [t]⟩ t rfl
  rw [h] at h1
  cases h1
  exact h2.symm

private theorem inTurn_kept {S : OpenFactory} (h : InTurn W S) : WellKept (onlyNow S) := by
  induction h with
  | new => exact ⟨List.nodup_nil, fun _ h => (nomatch h), fun _ _ => rfl, fun _ => List.nodup_nil⟩
  | @fetch S S' order w sh n r hS ho hr ih =>
    have e := run_one hr
    have hs := same_fetch (op := W.opener) order w sh S rfl
    obtain ⟨S2, a1, a2, a3⟩ := finish_fetch (op := W.opener) ih order w sh
    rw [e, a1] at hs
    exact hs.1 ▸ a3
  | @close S S' n r hS hr ih =>
    have e := run_one hr
    rw [finish_closeC] at e
    cases e
    refine ⟨?_, ?_, ih.fresh, ih.inner⟩
    · simp [onlyNow]
    · simp [onlyNow]

private theorem now_seen (S : OpenFactory) : factoryNow S = factorySeen (onlyNow S) := rfl

/-- C167. Calls one after the other: a call that fetches ends, does to the factory what `Factory.fetch` says, and returns what it returns. -/
theorem C167_fetch_in_turn {S : OpenFactory} (h : InTurn W S) (order : List SKey → List SKey) (w : Str) (sh : ShId) (base : Option SheetObj) :
    ∃ n S' r, Shift.run W.opener ⟨S, [fetchC order w sh]⟩ (List.replicate n 0) = ⟨S', [.done r]⟩ ∧
      factoryNow S' = ((factoryNow S).fetch order (Desk.new.openers W) (some w) sh base).1 ∧
      (∀ o, r = .ok o ↔ ∃ s, o = some s ∧ ((factoryNow S).fetch order (Desk.new.openers W) (some w) sh base).2 = .ok s) ∧
      ∀ e, r = .error e ↔ ∃ e', e = .raised e' ∧ ((factoryNow S).fetch order (Desk.new.openers W) (some w) sh base).2 = .error e' := by
  obtain ⟨n, hn⟩ := runC_finish (op := W.opener) 0 (fetchC order w sh) ⟨S, [fetchC order w sh]⟩ rfl
  have hs := same_fetch (op := W.opener) order w sh S rfl
  obtain ⟨S2, a1, a2, -⟩ := finish_fetch (op := W.opener) (inTurn_kept h) order w sh
  rw [a1] at hs
  obtain ⟨b1, -, b3⟩ := hs
  refine ⟨n, _, _, hn, ?_, ?_, ?_⟩
  · rw [now_seen, now_seen, b1]
    exact a2
  · intro o
    rw [b3, now_seen]
    show (match asRaised (Factory.cachedOr order (factorySeen (onlyNow S)) w sh (fun n => W.opener n w sh)).2 with
      | .ok s => Except.ok (some s)
      | .error e => Except.error e) = _ ↔ ∃ s, o = some s ∧
      (Factory.cachedOr order (factorySeen (onlyNow S)) w sh (fun n => W.opener n w sh)).2 = _
    cases (Factory.cachedOr order (factorySeen (onlyNow S)) w sh (fun n => W.opener n w sh)).2 with
    | ok t =>
      simp only [asRaised, Except.ok.injEq]
      constructor
      · rintro rfl; exact ⟨t, rfl, rfl⟩
      · rintro ⟨_, rfl, rfl⟩; rfl
    | error e => simp [asRaised]
  · intro e
    rw [b3, now_seen]
    show (match asRaised (Factory.cachedOr order (factorySeen (onlyNow S)) w sh (fun n => W.opener n w sh)).2 with
      | .ok s => Except.ok (some s)
      | .error e => Except.error e) = _ ↔ ∃ e', e = .raised e' ∧
      (Factory.cachedOr order (factorySeen (onlyNow S)) w sh (fun n => W.opener n w sh)).2 = _
    cases (Factory.cachedOr order (factorySeen (onlyNow S)) w sh (fun n => W.opener n w sh)).2 with
    | ok t => simp [asRaised]
    | error e' =>
      simp only [asRaised, Except.error.injEq]
      constructor
      · rintro rfl; exact ⟨e', rfl, rfl⟩
      · rintro ⟨_, rfl, rfl⟩; rfl

/-- C167. Calls one after the other: a call that closes the factory ends and returns, and does to the factory what `Factory.close` says, where
the order in which sheets are closed is left open. -/
theorem C167_close_in_turn (S : OpenFactory) :
    ∃ n S', Shift.run W.opener ⟨S, [closeC]⟩ (List.replicate n 0) = ⟨S', [.done (.ok none)]⟩ ∧
      (factoryNow S').cache = (factoryNow S).close.cache ∧ (∀ s, s ∈ S'.closed ↔ s ∈ (factoryNow S).close.closed) ∧
      S'.opened = (factoryNow S).close.opened := by
  obtain ⟨n, hn⟩ := runC_finish (op := W.opener) 0 closeC ⟨S, [closeC]⟩ rfl
  rw [finish_closeC] at hn
  refine ⟨n, _, hn, ?_, ?_, rfl⟩
  · simp [factoryNow, Factory.close]
  · intro s
    simp only [List.mem_append, List.mem_reverse, heldIn, Factory.close, factoryNow, List.mem_flatMap, List.mem_map]
    constructor
    · rintro (⟨e, h1, x, h2, h3⟩ | h)
      · exact .inl ⟨_, ⟨e, h1, rfl⟩, x, h2, h3⟩
      · exact .inr h
    · rintro (⟨_, ⟨e, h1, rfl⟩, x, h2, h3⟩ | h)
      · exact .inl ⟨e, h1, x, h2, h3⟩
      · exact .inr h

private theorem run_others (j : Nat) (sched : List Nat) : ∀ (c : Shift), j ∉ sched → (c.run W.opener sched).threads[j]? = c.threads[j]? := by
  induction sched with
  | nil => exact fun c _ => rfl
  | cons i l ih =>
    intro c h
    rw [List.mem_cons, not_or] at h
    show ((c.step W.opener i).run W.opener l).threads[j]? = _
    rw [ih _ h.2, shift_other _ (fun e => h.1 e.symm)]

private theorem onShift_run {asks : List Ask} {c : Shift} (h : OnShift W asks c) (sched : List Nat) : OnShift W asks (c.run W.opener sched) := by
  induction sched generalizing c with
  | nil => exact h
  | cons j l ih => exact ih (.step j h)

end

/-! ### Threads on a workbook -/

private def aA : Ask := .fetch "a.xls".toList (.text "A".toList)
private def aB : Ask := .fetch "a.xls".toList (.text "B".toList)
private def aB3 : Ask := .fetch "././a.xls".toList (.text "B".toList)

private def doing : Ask → Doing
  | .fetch w sh => fetchC id w sh
  | .close => closeC

private def clockIn (asks : List Ask) : Shift := ⟨OpenFactory.new, asks.map doing⟩

private theorem onShift_start (asks : List Ask) : OnShift Wx asks (clockIn asks) := by
  have : ∀ (l : List Ask) (done : List Ask), OnShift Wx done (clockIn done) → OnShift Wx (done ++ l) (clockIn (done ++ l)) := by
    intro l
    induction l with
    | nil => intro done h; rw [List.append_nil]; exact h
    | cons k l ih =>
      intro done h
      have := ih (done ++ [k]) (by
        cases k with
        | fetch w sh =>
          have := OnShift.fetch id w sh h idOrder
          simpa [clockIn, doing] using this
        | close =>
          have := OnShift.close h
          simpa [clockIn, doing] using this)
      simpa using this
  exact this asks [] .new

/-- Whether a call ended in this way. -/
private def endedIn (c : Shift) (j : Nat) (r : ThreadErr ⊕ Option SheetObj) : Bool :=
  match c.threads[j]? with
  | some (.done (.ok t)) => decide (r = .inr t)
  | some (.done (.error e)) => decide (r = .inl e)
  | _ => false

private theorem over_ok {c : Shift} {j : Nat} {o : Option SheetObj} (h : endedIn c j (.inr o) = true) : CallOver c j (.ok o) := by
  unfold endedIn at h
  split at h
  · rename_i t ht
    cases of_decide_eq_true h
    exact ht
  · rename_i e ht
    cases of_decide_eq_true h
  · cases h

private theorem over_error {c : Shift} {j : Nat} {e : ThreadErr} (h : endedIn c j (.inl e) = true) : CallOver c j (.error e) := by
  unfold endedIn at h
  split at h
  · rename_i t ht
    cases of_decide_eq_true h
  · rename_i e ht
    cases of_decide_eq_true h
    exact ht
  · cases h

private def rr (n j : Nat) : List Nat := List.replicate n j
private def s0 : SheetObj := ⟨0, "file:///w/a.xls".toList, [.text "A".toList, .num 0]⟩

/-- A sheet is fetched after the factory was gone through, and before it is emptied. -/
private def cLostC : Shift := (clockIn [aA, .close]).run Wx.opener (rr 3 1 ++ rr 60 0 ++ rr 60 1)

/-- C167. A sheet fetched as the factory is closed may be neither closed nor in the factory afterwards, so that no call closes it any more. -/
theorem C167_lost_refuted : ∃ (W : Surroundings) (w : Str) (sh : ShId) (c : Shift) (s : SheetObj), ProperBooks W ∧
    OnShift W [.fetch w sh, .close] c ∧ CallOver c 0 (.ok (some s)) ∧ CallOver c 1 (.ok none) ∧ s ∉ c.shared.closed ∧ (factoryNow c.shared).cache = [] :=
  ⟨Wx, "a.xls".toList, .text "A".toList, cLostC, s0, properWx, onShift_run (onShift_start _) _, over_ok (by decide +kernel),
    over_ok (by decide +kernel), by decide +kernel, by decide +kernel⟩

/-- The factory is closed as a sheet is being put under its names. -/
private def cDead : Shift := (clockIn [aA, .close, aA]).run Wx.opener (rr 10 0 ++ rr 60 1 ++ rr 60 0 ++ rr 60 2)

/-- C167. A sheet that was closed with the factory may be put there afterwards, and a later call returns it. One after the other, sheets in the
factory are not closed: `C46_lookup`. -/
theorem C167_dead_refuted : ∃ (W : Surroundings) (w : Str) (sh : ShId) (c : Shift) (s : SheetObj), ProperBooks W ∧
    OnShift W [.fetch w sh, .close, .fetch w sh] c ∧ CallOver c 0 (.ok (some s)) ∧ CallOver c 1 (.ok none) ∧ CallOver c 2 (.ok (some s)) ∧
    s ∈ c.shared.closed ∧ (factoryNow c.shared).get (w, sh) = some s :=
  ⟨Wx, "a.xls".toList, .text "A".toList, cDead, s0, properWx, onShift_run (onShift_start _) _, over_ok (by decide +kernel),
    over_ok (by decide +kernel), over_ok (by decide +kernel), by decide +kernel, by decide +kernel⟩

/-- The factory is closed as a thread adds a workbook. -/
private def cSizeC : Shift := (clockIn [aA, .close, aB3]).run Wx.opener (rr 60 0 ++ rr 2 1 ++ rr 60 2 ++ rr 60 1)

/-- C167. Closing the factory may fail since another thread added a workbook to it, and then no sheet is closed. -/
theorem C167_size_refuted : ∃ (W : Surroundings) (a b : Ask) (c : Shift) (s s' : SheetObj), ProperBooks W ∧ OnShift W [a, .close, b] c ∧
    CallOver c 0 (.ok (some s)) ∧ CallOver c 1 (.error .changedSize) ∧ CallOver c 2 (.ok (some s')) ∧ c.shared.closed = [] :=
  ⟨Wx, aA, aB3, cSizeC, s0, ⟨1, "file:///w/a.xls".toList, [.text "B".toList, .num 1]⟩, properWx, onShift_run (onShift_start _) _,
    over_ok (by decide +kernel), over_error (by decide +kernel), over_ok (by decide +kernel), by decide +kernel⟩

/-- The factory is closed as a thread adds a sheet of a workbook that is there. -/
private def cHalf : Shift := (clockIn [aA, .close, aB, aA]).run Wx.opener (rr 60 0 ++ rr 6 1 ++ rr 90 2 ++ rr 60 1 ++ rr 60 3)

/-- C167. Closing the factory may fail since another thread added a sheet of a workbook that is there, and then the sheets closed so far stay in
the factory: a later call returns one of them. -/
theorem C167_half_refuted : ∃ (W : Surroundings) (w : Str) (sh : ShId) (b : Ask) (c : Shift) (s s' : SheetObj), ProperBooks W ∧
    OnShift W [.fetch w sh, .close, b, .fetch w sh] c ∧ CallOver c 0 (.ok (some s)) ∧ CallOver c 1 (.error .changedSize) ∧
    CallOver c 2 (.ok (some s')) ∧ CallOver c 3 (.ok (some s)) ∧ s ∈ c.shared.closed ∧ s' ∉ c.shared.closed :=
  ⟨Wx, "a.xls".toList, .text "A".toList, aB, cHalf, s0, ⟨1, "file:///w/a.xls".toList, [.text "B".toList, .num 1]⟩, properWx,
    onShift_run (onShift_start _) _, over_ok (by decide +kernel), over_error (by decide +kernel), over_ok (by decide +kernel),
    over_ok (by decide +kernel), by decide +kernel, by decide +kernel⟩

/-- The factory is closed as a thread looks for a sheet that is there. -/
private def cKey : Shift := (clockIn [aA, .close, aA]).run Wx.opener (rr 60 0 ++ rr 2 2 ++ rr 60 1 ++ rr 60 2)

/-- C167. A call for a sheet that can be opened, and that was in the factory, may fail with `KeyError` since another thread closed the factory. -/
theorem C167_missing_refuted : ∃ (W : Surroundings) (w : Str) (sh : ShId) (c : Shift) (s : SheetObj), ProperBooks W ∧
    OnShift W [.fetch w sh, .close, .fetch w sh] c ∧ (∃ x, openSheetOf W.ok W.cwd W.plugins w sh = .ok x) ∧
    CallOver c 0 (.ok (some s)) ∧ CallOver c 1 (.ok none) ∧ CallOver c 2 (.error .missingKey) :=
  ⟨Wx, "a.xls".toList, .text "A".toList, cKey, s0, properWx, onShift_run (onShift_start _) _, ⟨("file:///w/a.xls".toList, 0), rfl⟩,
    over_ok (by decide +kernel), over_ok (by decide +kernel), over_error (by decide +kernel)⟩

/-! ### Cases that meet the hypotheses -/

/-- The sheet that was closed is the right one all the same. -/
example : ∃ s url i, some s0 = some s ∧ openSheetOf Wx.ok Wx.cwd Wx.plugins "a.xls".toList (.text "A".toList) = .ok (url, i) ∧ IsSheet s url i :=
  C167_right_sheet properWx (onShift_run (onShift_start [aA, .close, aA]) (rr 10 0 ++ rr 60 1 ++ rr 60 0 ++ rr 60 2)) 2 _ _ _ rfl
    (over_ok (by decide +kernel))

/-- A call for a sheet that is not there, as the factory is closed. -/
example : CallOver ((clockIn [.fetch "a.xls".toList (.text "C".toList), .close]).run Wx.opener (rr 1 1 ++ rr 5 0 ++ rr 40 1)) 0
    (.error (.raised .xlrdError)) := over_error (by decide +kernel)

/-- Closing the factory while one call has ended and another is at the second of the names of its sheet. -/
example : ∃ (c : Shift) (s : SheetObj), OnShift Wx [aA, aB3, .close] c ∧ c.threads[2]? = some closeC ∧ CallOver c 0 (.ok (some s0)) ∧
    s0 ∈ (factoryNow c.shared).sheets ∧ s ∈ (factoryNow c.shared).sheets ∧ s ≠ s0 :=
  ⟨(clockIn [aA, aB3, .close]).run Wx.opener (rr 60 0 ++ rr 14 1), ⟨1, "file:///w/a.xls".toList, [.text "B".toList, .num 1]⟩,
    onShift_run (onShift_start _) _, run_others 2 _ _ (by decide), over_ok (by decide +kernel), by decide +kernel, by decide +kernel, by decide⟩

/-- A call that fetches and one that closes, which take turns, both end. -/
example : ∀ j, j < 2 → ∃ n r, ∀ m, n ≤ m → CallOver ((clockIn [aA, .close]).run Wx.opener ((List.range m).map (fun n => n % 2))) j r :=
  fun j hj => C167_ends (onShift_start [aA, .close]) j hj _ (fun n => ⟨2 * n + j, by omega, by omega⟩)

/-- A sheet fetched, and the factory closed, one after the other: the sheet is closed and the factory is empty. -/
example : ∃ S, InTurn Wx S ∧ s0 ∈ S.closed ∧ (factoryNow S).cache = [] := by
  obtain ⟨n, S, r, h1, h2, -⟩ := C167_fetch_in_turn (W := Wx) .new id "a.xls".toList (.text "A".toList) none
  obtain ⟨m, S', g1, g2, g3, -⟩ := C167_close_in_turn (W := Wx) S
  refine ⟨S', .close m _ (.fetch id _ _ n r .new idOrder h1) g1, ?_, ?_⟩
  · rw [g3, h2]
    decide +kernel
  · rw [g2]
    rfl

end Props
