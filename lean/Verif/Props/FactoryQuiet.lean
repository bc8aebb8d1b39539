import Verif.Props.FactoryClose
/-
C167. Closing a factory that other threads only look into.
-/
namespace Props
open Py Model Spec Lemmas

/-- What is left to do only looks into the dictionaries, and closes sheets. -/
private def Reads (n0 : Nat) : Doing → Prop
  | .done _ => True
  | .books k => Reads n0 (k n0)
  | .emptied k => ∃ r, k = .done r
  | .iterBooks o k => o = n0 ∧ ∀ n, Reads n0 (k n)
  | .nextBook o _ _ k => o = n0 ∧ ∀ r, Reads n0 (k r)
  | .iterSheets _ k => ∀ n, Reads n0 (k n)
  | .nextSheet _ _ _ k => ∀ r, Reads n0 (k r)
  | .close _ k => Reads n0 k
  | .hasBook _ _ _ => False
  | .getBook _ _ _ => False
  | .newBook _ _ _ => False
  | .getSheet _ _ _ => False
  | .putSheet _ _ _ _ => False
  | .items _ _ => False
  | .delSheet _ _ _ => False
  | .openBook _ _ _ => False

private theorem reads_dict {n0 : Nat} {d : DictRef} {size : Nat} {k : Except ThreadErr Unit → Doing} (h : ∀ r, Reads n0 (k r)) :
    ∀ left, Reads n0 (closeDictC d size k left)
  | 0 => by
    intro r
    cases r with
    | error e => exact h _
    | ok o => exact h _
  | left + 1 => by
    intro r
    cases r with
    | error e => exact h _
    | ok o =>
      cases o with
      | none => exact h _
      | some s => exact reads_dict h left

private theorem reads_books {n0 size : Nat} : ∀ left, Reads n0 (closeBooksC n0 size left)
  | 0 => by
    refine ⟨rfl, fun r => ?_⟩
    cases r with
    | error e => trivial
    | ok o => exact ⟨_, rfl⟩
  | left + 1 => by
    refine ⟨rfl, fun r => ?_⟩
    cases r with
    | error e => trivial
    | ok o =>
      cases o with
      | none => exact ⟨_, rfl⟩
      | some d =>
        intro n
        refine reads_dict (fun r => ?_) n
        cases r with
        | error e => trivial
        | ok u => exact reads_books left

private theorem reads_closeC (n0 : Nat) : Reads n0 closeC := ⟨rfl, fun size => reads_books size⟩

section
variable {op : Nat → Str → ShId → Except PyErr SheetObj}

private theorem reads_step {t : Doing} {S : OpenFactory} (h : Reads S.now t) : Reads S.now (t.step op S).2 := by
  cases t with
  | done r => trivial
  | books k => exact h
  | emptied k => obtain ⟨r, rfl⟩ := h; trivial
  | iterBooks o k => exact h.2 _
  | nextBook o size pos k => exact h.2 _
  | iterSheets d k => exact h _
  | nextSheet d size pos k => exact h _
  | close s k => exact h
  | hasBook _ _ _ => exact h.elim
  | getBook _ _ _ => exact h.elim
  | newBook _ _ _ => exact h.elim
  | getSheet _ _ _ => exact h.elim
  | putSheet _ _ _ _ => exact h.elim
  | items _ _ => exact h.elim
  | delSheet _ _ _ => exact h.elim
  | openBook _ _ _ => exact h.elim

/-- What only looks into the dictionaries ends alike if they hold the same. -/
private theorem reads_same {t : Doing} : ∀ {S S' : OpenFactory}, Reads S.now t → SameBooks S S' → (∀ s ∈ S.closed, s ∈ S'.closed) →
    (finishC op t S').2 = (finishC op t S).2 ∧ ∀ s ∈ (finishC op t S).1.closed, s ∈ (finishC op t S').1.closed := by
  induction t with
  | done r => exact fun _ _ hc => ⟨rfl, hc⟩
  | books k ih =>
    intro S S' h hs hc
    simp only [finishC]
    rw [hs.1]
    exact ih _ h hs hc
  | emptied k ih =>
    intro S S' h hs hc
    obtain ⟨r, rfl⟩ := h
    exact ⟨rfl, hc⟩
  | iterBooks o k ih =>
    intro S S' h hs hc
    simp only [finishC]
    rw [hs.2.1]
    exact ih _ (h.2 _) hs hc
  | nextBook o size pos k ih =>
    intro S S' h hs hc
    simp only [finishC]
    rw [hs.2.1]
    exact ih _ (h.2 _) hs hc
  | iterSheets d k ih =>
    intro S S' h hs hc
    simp only [finishC]
    rw [hs.2.2]
    exact ih _ (h _) hs hc
  | nextSheet d size pos k ih =>
    intro S S' h hs hc
    simp only [finishC]
    rw [hs.2.2]
    exact ih _ (h _) hs hc
  | close s k ih =>
    intro S S' h hs hc
    refine ih (S := { S with closed := s :: S.closed }) (S' := { S' with closed := s :: S'.closed }) h hs ?_
    intro x hx
    rcases List.mem_cons.1 hx with rfl | hx
    · exact List.mem_cons_self
    · exact List.mem_cons_of_mem _ (hc x hx)
  | hasBook _ _ _ _ => exact fun h => h.elim
  | getBook _ _ _ _ => exact fun h => h.elim
  | newBook _ _ _ _ => exact fun h => h.elim
  | getSheet _ _ _ _ => exact fun h => h.elim
  | putSheet _ _ _ _ _ => exact fun h => h.elim
  | items _ _ _ => exact fun h => h.elim
  | delSheet _ _ _ _ => exact fun h => h.elim
  | openBook _ _ _ _ => exact fun h => h.elim

/-- A sheet that was closed stays so. -/
private theorem closed_step (t : Doing) (S : OpenFactory) (s : SheetObj) (h : s ∈ S.closed) : s ∈ (t.step op S).1.closed := by
  cases t <;> try exact h
  case delSheet d sh k =>
    simp only [Doing.step]
    cases dget (S.inner d) sh <;> exact h
  case close x k => exact List.mem_cons_of_mem _ h

private theorem closed_shift (c : Shift) (i : Nat) (s : SheetObj) (h : s ∈ c.shared.closed) : s ∈ (c.step op i).shared.closed := by
  unfold Shift.step
  cases c.threads[i]? with
  | none => exact h
  | some t => exact closed_step t _ s h

private theorem closing_run (j : Nat) (held : List SheetObj) (js : List Nat) : ∀ (c : Shift) (n0 : Nat) (S0 : OpenFactory) (t : Doing),
    n0 = S0.now → c.threads[j]? = some t → Reads n0 t →
    (finishC op t c.shared).2 = .ok none → (∀ s ∈ held, s ∈ (finishC op t c.shared).1.closed) →
    (∀ ks, ks <+: js → (∀ r, ¬ CallOver (c.run op ks) j r) → SameBooks S0 (c.run op ks).shared) →
    ∀ r, CallOver (c.run op js) j r → r = .ok none ∧ ∀ s ∈ held, s ∈ (c.run op js).shared.closed := by
  induction js with
  | nil =>
    intro c n0 S0 t hn ht hr hg1 hg2 hq r ho
    have : t = .done r := Option.some.inj (ht.symm.trans ho)
    subst this
    exact ⟨hg1, hg2⟩
  | cons i js ih =>
    intro c n0 S0 t hn ht hr hg1 hg2 hq r ho
    have hq' : ∀ ks, ks <+: js → (∀ r, ¬ CallOver ((c.step op i).run op ks) j r) → SameBooks S0 ((c.step op i).run op ks).shared :=
      fun ks hk hx => hq (i :: ks) (List.cons_prefix_cons.2 ⟨rfl, hk⟩) hx
    by_cases hd : ∃ r', t = .done r'
    · obtain ⟨r', rfl⟩ := hd
      have ht' : (c.step op i).threads[j]? = some (.done r') := by
        by_cases e : i = j
        · subst e
          rw [shift_step_own ht]
          exact List.getElem?_set_self (List.getElem?_eq_some_iff.1 ht).1
        · unfold Shift.step
          cases c.threads[i]? with
          | none => exact ht
          | some x => exact (List.getElem?_set_ne e).trans ht
      exact ih (c.step op i) n0 S0 (.done r') hn ht' trivial hg1 (fun s hs => closed_shift c i s (hg2 s hs)) hq' r ho
    · have h0 : SameBooks S0 c.shared := hq [] (List.nil_prefix) (fun r' h' => hd ⟨r', Option.some.inj (ht.symm.trans h')⟩)
      have hnow : c.shared.now = n0 := h0.1.trans hn.symm
      by_cases e : i = j
      · subst e
        have ht' : (c.step op i).threads[i]? = some (t.step op c.shared).2 := by
          rw [shift_step_own ht]
          exact List.getElem?_set_self (List.getElem?_eq_some_iff.1 ht).1
        have hsh : (c.step op i).shared = (t.step op c.shared).1 := by rw [shift_step_own ht]
        refine ih (c.step op i) n0 S0 _ hn ht' ?_ ?_ ?_ hq' r ho
        · rw [← hnow] at hr ⊢
          exact reads_step hr
        · rw [hsh, finishC_step]; exact hg1
        · rw [hsh, finishC_step]; exact hg2
      · have ht' : (c.step op i).threads[j]? = some t := by
          unfold Shift.step
          cases c.threads[i]? with
          | none => exact ht
          | some x => exact (List.getElem?_set_ne e).trans ht
        have h1 : SameBooks S0 (c.step op i).shared :=
          hq [i] (List.cons_prefix_cons.2 ⟨rfl, List.nil_prefix⟩) (fun r' h' => hd ⟨r', Option.some.inj (ht'.symm.trans h')⟩)
        have h2 : SameBooks c.shared (c.step op i).shared :=
          ⟨h1.1.trans h0.1.symm, h1.2.1.trans h0.2.1.symm, h1.2.2.trans h0.2.2.symm⟩
        obtain ⟨g1, g2⟩ := reads_same (op := op) (t := t) (S := c.shared) (S' := (c.step op i).shared) (by rw [hnow]; exact hr) h2
          (fun s hs => closed_shift c i s hs)
        exact ih (c.step op i) n0 S0 t hn ht' hr (g1.trans hg1) (fun s hs => g2 s (hg2 s hs)) hq' r ho

end

section
variable {W : Surroundings}

/-- C167, in part: closing the factory succeeds, and closes all the sheets that it held when the call began, however other threads mix in, if
nothing is put in the factory or taken out of it while the call is under way. Missing: threads that do, see `C167_lost_refuted`,
`C167_size_refuted` and `C167_half_refuted`. -/
theorem C167_quiet_partial {asks : List Ask} {c : Shift} (_ : OnShift W asks c) (j : Nat) (hj : c.threads[j]? = some closeC) (js : List Nat)
    (hq : ∀ ks, ks <+: js → (∀ r, ¬ CallOver (c.run W.opener ks) j r) → SameBooks c.shared (c.run W.opener ks).shared)
    (r : Except ThreadErr (Option SheetObj)) (hr : CallOver (c.run W.opener js) j r) :
    r = .ok none ∧ ∀ s ∈ (factoryNow c.shared).sheets, s ∈ (c.run W.opener js).shared.closed := by
  refine closing_run (op := W.opener) j _ js c c.shared.now c.shared closeC rfl hj (reads_closeC _) ?_ ?_ hq r hr
  · rw [finish_closeC]
  · intro s hs
    rw [finish_closeC]
    simp only [List.mem_append, List.mem_reverse, heldIn, List.mem_flatMap, List.mem_map]
    simp only [Factory.sheets, factoryNow, List.mem_flatMap, List.mem_map] at hs
    obtain ⟨_, ⟨e, h1, rfl⟩, x, h2, h3⟩ := hs
    exact .inl ⟨e, h1, x, h2, h3⟩

end

/-! ### A case that meets the hypotheses -/

/-- Whether an operation only looks into the dictionaries. -/
private def looks : Option Doing → Bool
  | some (.emptied _) => false
  | some (.newBook _ _ _) => false
  | some (.putSheet _ _ _ _) => false
  | some (.delSheet _ _ _) => false
  | _ => true

private def isOver (c : Shift) (j : Nat) : Bool :=
  match c.threads[j]? with
  | some (.done _) => true
  | _ => false

/-- Whether all operations of a schedule only look, until the call of this thread is over. -/
private def quiet (op : Nat → Str → ShId → Except PyErr SheetObj) (j : Nat) : Shift → List Nat → Bool
  | _, [] => true
  | c, i :: js => isOver c j || ((looks c.threads[i]? || isOver (c.step op i) j) && quiet op j (c.step op i) js)

private theorem isOver_true {c : Shift} {j : Nat} (h : isOver c j = true) : ∃ r, CallOver c j r := by
  unfold isOver at h
  split at h
  · rename_i r hr; exact ⟨r, hr⟩
  · cases h

private theorem over_stays {op : Nat → Str → ShId → Except PyErr SheetObj} {j : Nat} {r : Except ThreadErr (Option SheetObj)} (ks : List Nat) :
    ∀ {c : Shift}, CallOver c j r → CallOver (c.run op ks) j r := by
  induction ks with
  | nil => exact fun h => h
  | cons i ks ih =>
    intro c h
    refine ih (c := c.step op i) ?_
    show (c.step op i).threads[j]? = _
    by_cases e : i = j
    · subst e
      rw [shift_step_own h]
      exact List.getElem?_set_self (List.getElem?_eq_some_iff.1 h).1
    · unfold Shift.step
      cases c.threads[i]? with
      | none => exact h
      | some x => exact (List.getElem?_set_ne e).trans h

private theorem looks_same {op : Nat → Str → ShId → Except PyErr SheetObj} {c : Shift} {i : Nat} (h : looks c.threads[i]? = true) :
    SameBooks c.shared (c.step op i).shared := by
  unfold Shift.step
  cases ht : c.threads[i]? with
  | none => exact ⟨rfl, rfl, rfl⟩
  | some t =>
    rw [ht] at h
    cases t <;> first | exact ⟨rfl, rfl, rfl⟩ | cases h

private theorem quiet_same {op : Nat → Str → ShId → Except PyErr SheetObj} {j : Nat} (js : List Nat) : ∀ {c : Shift}, quiet op j c js = true →
    ∀ ks, ks <+: js → (∀ r, ¬ CallOver (c.run op ks) j r) → SameBooks c.shared (c.run op ks).shared := by
  induction js with
  | nil =>
    intro c _ ks hk _
    rw [List.prefix_nil.1 hk]
    exact ⟨rfl, rfl, rfl⟩
  | cons i js ih =>
    intro c h ks hk ho
    cases ks with
    | nil => exact ⟨rfl, rfl, rfl⟩
    | cons i' ks =>
      obtain ⟨e, hk'⟩ := List.cons_prefix_cons.1 hk
      subst e
      unfold quiet at h
      cases h0 : isOver c j with
      | true =>
        obtain ⟨r, hr⟩ := isOver_true h0
        exact (ho r (over_stays (i' :: ks) hr)).elim
      | false =>
        rw [h0, Bool.false_or, Bool.and_eq_true, Bool.or_eq_true] at h
        obtain ⟨h1 | h1, h2⟩ := h
        · have a := looks_same (op := op) h1
          have b := ih h2 ks hk' ho
          exact ⟨b.1.trans a.1, b.2.1.trans a.2.1, b.2.2.trans a.2.2⟩
        · obtain ⟨r, hr⟩ := isOver_true h1
          exact (ho r (over_stays ks hr)).elim

private def sheetA0 : SheetObj := ⟨0, "file:///w/a.xls".toList, [.text "A".toList, .num 0]⟩

/-- The sheet `A` was fetched. -/
private def cFetched : Shift := Shift.run Wx.opener ⟨OpenFactory.new, [] ++ [fetchC id "a.xls".toList (.text "A".toList)]⟩ (List.replicate 60 0)

/-- A thread is about to close the factory, and another to fetch `A` again. -/
private def cBefore : Shift := ⟨cFetched.shared, cFetched.threads ++ [closeC] ++ [fetchC id "a.xls".toList (.text "A".toList)]⟩

private theorem twoMore {asks : List Ask} {c : Shift} (h : OnShift Wx asks c) :
    OnShift Wx (asks ++ [.close] ++ [.fetch "a.xls".toList (.text "A".toList)])
      ⟨c.shared, c.threads ++ [closeC] ++ [fetchC id "a.xls".toList (.text "A".toList)]⟩ := .fetch id _ _ (.close h) idOrder

/-- They take turns. -/
private def turns : List Nat := (List.replicate 30 [1, 2]).flatten

example : OnShift Wx [.fetch "a.xls".toList (.text "A".toList), .close, .fetch "a.xls".toList (.text "A".toList)] cBefore ∧
    cBefore.threads[1]? = some closeC ∧
    (∀ ks, ks <+: turns → (∀ r, ¬ CallOver (cBefore.run Wx.opener ks) 1 r) → SameBooks cBefore.shared (cBefore.run Wx.opener ks).shared) ∧
    isOver (cBefore.run Wx.opener turns) 1 = true ∧ isOver (cBefore.run Wx.opener turns) 2 = true ∧ sheetA0 ∈ (factoryNow cBefore.shared).sheets := by
  refine ⟨?_, ?_, quiet_same turns (by decide +kernel), by decide +kernel, by decide +kernel, by decide +kernel⟩
  · have hrun : ∀ (l : List Nat) {asks : List Ask} {c : Shift}, OnShift Wx asks c → OnShift Wx asks (c.run Wx.opener l) := by
      intro l
      induction l with
      | nil => exact fun h => h
      | cons j l ih => exact fun h => ih (.step j h)
    have h1 : OnShift Wx [.fetch "a.xls".toList (.text "A".toList)] cFetched := by
      unfold cFetched
      exact hrun (List.replicate 60 0) (OnShift.fetch id "a.xls".toList (.text "A".toList) OnShift.new idOrder)
    exact twoMore h1
  · have hlen : ∀ (l : List Nat) (c : Shift), (c.run Wx.opener l).threads.length = c.threads.length := by
      intro l
      induction l with
      | nil => exact fun c => rfl
      | cons j l ih =>
        intro c
        refine (ih (c.step Wx.opener j)).trans ?_
        unfold Shift.step
        cases c.threads[j]? <;> simp
    have hl : cFetched.threads.length = 1 := hlen _ _
    show (cFetched.threads ++ [closeC] ++ [fetchC id "a.xls".toList (.text "A".toList)])[1]? = _
    rw [List.append_assoc, List.getElem?_append_right (by rw [hl]; exact Nat.le_refl _), hl]
    rfl

end Props
