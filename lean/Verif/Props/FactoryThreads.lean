import Verif.Lemmas.FactoryAlone
import Verif.Props.FactoryBooks
/-
C152. Threads that fetch sheets from one factory.
-/
namespace Props
open Py Model Spec Lemmas

section
variable {W : Surroundings}

/-- C152. Whatever threads do with a factory at the same time, and however their operations mix, a call that returns a sheet returns the one that
opening the workbook without a factory gives: of that workbook, with that number. -/
theorem C152_right_sheet (hW : ProperBooks W) {asks : List SKey} {c : Crew} (h : AtWork W asks c) (j : Nat) (w : Str) (sh : ShId) (s : SheetObj)
    (hj : asks[j]? = some (w, sh)) (hd : CallEnded c j (.ok s)) :
    ∃ url i, openSheetOf W.ok W.cwd W.plugins w sh = .ok (url, i) ∧ IsSheet s url i := by
  rcases (atWork_safe hW h).2.2 j _ _ hj hd with ⟨s', h1, h2⟩ | ⟨e, h1, -⟩ | h1 | h1 <;> cases h1
  exact h2

/-- C152. So a call that raises what opening raises is one of a workbook or sheet that cannot be opened. -/
theorem C152_raised (hW : ProperBooks W) {asks : List SKey} {c : Crew} (h : AtWork W asks c) (j : Nat) (w : Str) (sh : ShId) (e : PyErr)
    (hj : asks[j]? = some (w, sh)) (hd : CallEnded c j (.error (.raised e))) : openSheetOf W.ok W.cwd W.plugins w sh = .error e := by
  rcases (atWork_safe hW h).2.2 j _ _ hj hd with ⟨s', h1, h2⟩ | ⟨e, h1, h2⟩ | h1 | h1 <;> cases h1
  exact h2

/-- C152, in part: if no two calls ask for the same sheet, then no sheet is ever closed, each sheet that a call returns was opened by it alone, and
no call fails but as opening does. Missing: calls for the same sheet, see `C152_closed_refuted`, `C152_size_refuted` and `C152_missing_refuted`. -/
theorem C152_apart_partial (hW : ProperBooks W) {asks : List SKey} {c : Crew} (h : AtWork W asks c) (hA : AllApart W asks) :
    c.shared.closed = [] ∧
    (∀ (i j : Nat) s, i < asks.length → j < asks.length → CallEnded c i (.ok s) → CallEnded c j (.ok s) → i = j) ∧
    ∀ (j : Nat) w sh r, asks[j]? = some (w, sh) → CallEnded c j r →
      (∃ s, r = .ok s) ∨ ∃ e, r = .error (.raised e) ∧ openSheetOf W.ok W.cwd W.plugins w sh = .error e := by
  obtain ⟨held, h1, h2, h3, h4, h5⟩ := atWork_calm hW h hA
  refine ⟨h5, ?_, ?_⟩
  · intro i j s hi hj ei ej
    have hci := h3 i asks[i] _ (List.getElem?_eq_getElem hi) ei
    have hcj := h3 j asks[j] _ (List.getElem?_eq_getElem hj) ej
    rcases hci with ⟨s1, a1, a2⟩ | ⟨e, a1⟩ <;> cases a1
    rcases hcj with ⟨s2, b1, b2⟩ | ⟨e, b1⟩ <;> cases b1
    obtain ⟨u, n, f1, f2⟩ := h2 i _ s (List.getElem?_eq_getElem hi) a2
    obtain ⟨u', n', g1, g2⟩ := h2 j _ s (List.getElem?_eq_getElem hj) b2
    obtain ⟨rfl, rfl⟩ := isSheet_unique f2 g2
    exact hA i j _ _ _ (List.getElem?_eq_getElem hi) (List.getElem?_eq_getElem hj) f1 g1
  · intro j w sh r hj hd
    rcases h3 j _ _ hj hd with ⟨s, a1, -⟩ | ⟨e, a1⟩
    · exact .inl ⟨s, a1⟩
    · subst a1
      exact .inr ⟨e, rfl, C152_raised hW h j w sh e hj hd⟩

/-- C152. Calls that run one after the other end, do to the factory what `Factory.fetch` says, and return what it returns: the operations of a
call, one by one, are this function. -/
theorem C152_one_by_one {S : SharedFactory} (h : OneByOne W S) (order : List SKey → List SKey) (w : Str) (sh : ShId) (base : Option SheetObj) :
    ∃ n S' r, Crew.run W.opener ⟨S, [fetchT order w sh]⟩ (List.replicate n 0) = ⟨S', [.done r]⟩ ∧
      factorySeen S' = ((factorySeen S).fetch order (Desk.new.openers W) (some w) sh base).1 ∧
      (∀ s, r = .ok s ↔ ((factorySeen S).fetch order (Desk.new.openers W) (some w) sh base).2 = .ok s) ∧
      ∀ e, r = .error e ↔ ∃ e', e = .raised e' ∧ ((factorySeen S).fetch order (Desk.new.openers W) (some w) sh base).2 = .error e' := by
  obtain ⟨n, hn⟩ := run_finish (op := W.opener) (fetchT order w sh) S
  obtain ⟨S', a1, a2, -⟩ := finish_fetch (op := W.opener) (oneByOne_kept h) order w sh
  rw [a1] at hn
  refine ⟨n, S', _, hn, a2, ?_, ?_⟩
  · intro s
    show asRaised (Factory.cachedOr order (factorySeen S) w sh (fun n => W.opener n w sh)).2 = _ ↔
      (Factory.cachedOr order (factorySeen S) w sh (fun n => W.opener n w sh)).2 = _
    cases (Factory.cachedOr order (factorySeen S) w sh (fun n => W.opener n w sh)).2 with
    | ok t => simp [asRaised]
    | error e => simp [asRaised]
  · intro e
    show asRaised (Factory.cachedOr order (factorySeen S) w sh (fun n => W.opener n w sh)).2 = _ ↔
      ∃ e', e = .raised e' ∧ (Factory.cachedOr order (factorySeen S) w sh (fun n => W.opener n w sh)).2 = _
    cases (Factory.cachedOr order (factorySeen S) w sh (fun n => W.opener n w sh)).2 with
    | ok t => simp [asRaised]
    | error e' =>
      simp only [asRaised, Except.error.injEq]
      constructor
      · rintro rfl; exact ⟨e', rfl, rfl⟩
      · rintro ⟨_, rfl, rfl⟩; rfl

private theorem atWork_run {asks : List SKey} {c : Crew} (h : AtWork W asks c) (sched : List Nat) : AtWork W asks (c.run W.opener sched) := by
  induction sched generalizing c with
  | nil => exact h
  | cons j l ih => exact ih (.step j h)

end

/-! ### Threads on a workbook -/

private def kA : SKey := ("a.xls".toList, .text "A".toList)
private def kB : SKey := ("a.xls".toList, .text "B".toList)
private def kA2 : SKey := ("./a.xls".toList, .text "A".toList)
private def kB3 : SKey := ("././a.xls".toList, .text "B".toList)

private def startAll (asks : List SKey) : Crew := ⟨SharedFactory.new, asks.map (fun k => fetchT id k.1 k.2)⟩

private theorem atWork_start (asks : List SKey) : AtWork Wx asks (startAll asks) := by
  have : ∀ (l : List SKey) (done : List SKey), AtWork Wx done (startAll done) → AtWork Wx (done ++ l) (startAll (done ++ l)) := by
    intro l
    induction l with
    | nil => intro done h; rw [List.append_nil]; exact h
    | cons k l ih =>
      intro done h
      have := ih (done ++ [k]) (by
        have := AtWork.call id k.1 k.2 h idOrder
        simpa [startAll] using this)
      simpa using this
  exact this asks [] .new

/-- Whether a call returned this sheet. -/
private def gave (c : Crew) (j : Nat) (s : SheetObj) : Bool :=
  match c.threads[j]? with
  | some (.done (.ok t)) => t == s
  | _ => false

private theorem ended_gave {c : Crew} {j : Nat} {s : SheetObj} (h : gave c j s = true) : CallEnded c j (.ok s) := by
  unfold gave at h
  split at h
  · rename_i t ht
    rw [← beq_iff_eq.1 h]
    exact ht
  · cases h

/-- Whether a call failed in this way. -/
private def failed (c : Crew) (j : Nat) (e : ThreadErr) : Bool :=
  match c.threads[j]? with
  | some (.done (.error t)) => t == e
  | _ => false

private theorem ended_failed {c : Crew} {j : Nat} {e : ThreadErr} (h : failed c j e = true) : CallEnded c j (.error e) := by
  unfold failed at h
  split at h
  · rename_i t ht
    rw [← beq_iff_eq.1 h]
    exact ht
  · cases h

private def rr (n j : Nat) : List Nat := List.replicate n j

/-- Two threads ask for the same sheet, and both find that it is not cached. -/
private def cTwice : Crew := (startAll [kA, kA]).run Wx.opener (rr 2 0 ++ rr 2 1 ++ rr 30 0 ++ rr 60 1)
private def s0 : SheetObj := ⟨0, "file:///w/a.xls".toList, [.text "A".toList, .num 0]⟩
private def s1 : SheetObj := ⟨1, "file:///w/a.xls".toList, [.text "A".toList, .num 0]⟩

/-- C152. Two threads that ask for the same sheet with the same text at the same time may open it twice, and the sheet that one of them was
given is closed. One after the other, the second call returns the sheet of the first: `C47_twice`. -/
theorem C152_closed_refuted : ∃ (W : Surroundings) (k : SKey) (c : Crew) (s s' : SheetObj), ProperBooks W ∧ AtWork W [k, k] c ∧
    CallEnded c 0 (.ok s) ∧ CallEnded c 1 (.ok s') ∧ s ≠ s' ∧ s ∈ c.shared.closed := by
  refine ⟨Wx, kA, cTwice, s0, s1, properWx, atWork_run (atWork_start _) _, ended_gave (by decide +kernel), ended_gave (by decide +kernel),
    by decide, by decide +kernel⟩

/-- One thread closes a sheet as another adds a workbook. -/
private def cSize : Crew := (startAll [kA, kA2, kB3]).run Wx.opener (rr 30 0 ++ rr 8 1 ++ rr 60 2 ++ rr 60 1)

/-- C152. A call for a sheet that can be opened may fail since another thread added a workbook to the factory. -/
theorem C152_size_refuted : ∃ (W : Surroundings) (asks : List SKey) (c : Crew), ProperBooks W ∧ AtWork W asks c ∧
    (∀ k ∈ asks, ∃ x, openSheetOf W.ok W.cwd W.plugins k.1 k.2 = .ok x) ∧ ∃ (j : Nat), CallEnded c j (.error .changedSize) := by
  refine ⟨Wx, [kA, kA2, kB3], cSize, properWx, atWork_run (atWork_start _) _, ?_, 1, ended_failed (by decide +kernel)⟩
  intro k hk
  simp only [List.mem_cons, List.not_mem_nil, or_false] at hk
  rcases hk with rfl | rfl | rfl
  · exact ⟨("file:///w/a.xls".toList, 0), rfl⟩
  · exact ⟨("file:///w/a.xls".toList, 0), rfl⟩
  · exact ⟨("file:///w/a.xls".toList, 1), rfl⟩

/-- Two threads close the same sheet. -/
private def cMissing : Crew := (startAll [kA, kA, kA]).run Wx.opener (rr 3 1 ++ rr 3 2 ++ rr 60 0 ++ rr 10 1 ++ rr 11 2 ++ rr 60 1 ++ rr 60 2)

/-- C152. A call for a sheet that can be opened may fail since another thread closed the sheet that it is about to close. -/
theorem C152_missing_refuted : ∃ (W : Surroundings) (k : SKey) (c : Crew), ProperBooks W ∧ AtWork W [k, k, k] c ∧
    (∃ x, openSheetOf W.ok W.cwd W.plugins k.1 k.2 = .ok x) ∧ ∃ (j : Nat), CallEnded c j (.error .missingKey) :=
  ⟨Wx, kA, cMissing, properWx, atWork_run (atWork_start _) _, ⟨("file:///w/a.xls".toList, 0), rfl⟩, 1, ended_failed (by decide +kernel)⟩

/-- Two threads ask for two sheets of a workbook that the factory does not know yet. -/
private def cLost : Crew := (startAll [kA, kB]).run Wx.opener (rr 16 0 ++ rr 60 1 ++ rr 60 0)
private def sB1 : SheetObj := ⟨1, "file:///w/a.xls".toList, [.text "B".toList, .num 1]⟩

private theorem atLost : AtWork Wx [kA, kB] cLost := atWork_run (atWork_start _) _

private theorem apartAB : AllApart Wx [kA, kB] := by
  have hA : openSheetOf Wx.ok Wx.cwd Wx.plugins kA.1 kA.2 = .ok ("file:///w/a.xls".toList, 0) := by rfl
  have hB : openSheetOf Wx.ok Wx.cwd Wx.plugins kB.1 kB.2 = .ok ("file:///w/a.xls".toList, 1) := by rfl
  intro i j k k' x hi hj h1 h2
  match i, j, hi, hj with
  | 0, 0, _, _ => rfl
  | 1, 1, _, _ => rfl
  | 0, 1, hi, hj =>
    cases hi; cases hj
    rw [hA] at h1
    rw [hB] at h2
    cases h1; cases h2
  | 1, 0, hi, hj =>
    cases hi; cases hj
    rw [hB] at h1
    rw [hA] at h2
    cases h1; cases h2
  | n + 2, _, hi, _ => cases hi
  | _, n + 2, _, hj => cases hj

/-- Each of these calls returns its sheet, and nothing is closed. -/
example : CallEnded cLost 0 (.ok s0) ∧ CallEnded cLost 1 (.ok sB1) ∧ cLost.shared.closed = [] :=
  ⟨ended_gave (by decide +kernel), ended_gave (by decide +kernel),
    (C152_apart_partial properWx atLost apartAB).1⟩

/-- The sheets returned to the threads that ask for the same one are both the right one. -/
example : ∃ url i, openSheetOf Wx.ok Wx.cwd Wx.plugins "a.xls".toList (.text "A".toList) = .ok (url, i) ∧ IsSheet s0 url i ∧ IsSheet s1 url i :=
  ⟨_, _, rfl, ⟨rfl, _, rfl⟩, ⟨rfl, _, rfl⟩⟩

/-- A call for a sheet that is not there. -/
example : CallEnded ((startAll [("a.xls".toList, .text "C".toList), kA]).run Wx.opener (rr 2 1 ++ rr 5 0 ++ rr 40 1)) 0 (.error (.raised .xlrdError)) :=
  ended_failed (by decide +kernel)

/-- One call after the other. -/
private theorem oneByOneA : ∃ S, OneByOne Wx S ∧ (factorySeen S).get kA = some s0 := by
  obtain ⟨n, S', r, h1, h2, -⟩ := C152_one_by_one (W := Wx) .new id kA.1 kA.2 none
  refine ⟨S', .call id _ _ n r .new idOrder h1, ?_⟩
  rw [h2]
  decide +kernel

/-- C152. Even if no two calls ask for the same sheet, a sheet that was fetched may be missing from the factory afterwards, so that the next call
for it opens it again. -/
theorem C152_lost_refuted : ∃ (W : Surroundings) (asks : List SKey) (c : Crew), ProperBooks W ∧ AtWork W asks c ∧ AllApart W asks ∧
    (∀ (j : Nat), j < asks.length → ∃ s, CallEnded c j (.ok s)) ∧ ∃ k ∈ asks, (factorySeen c.shared).get k = none := by
  refine ⟨Wx, [kA, kB], cLost, properWx, atWork_run (atWork_start _) _, apartAB, ?_, kB, by simp, by decide +kernel⟩
  intro j hj
  match j, hj with
  | 0, _ => exact ⟨s0, ended_gave (by decide +kernel)⟩
  | 1, _ => exact ⟨sB1, ended_gave (by decide +kernel)⟩

end Props
