import Verif.Lemmas.FactoryClose
import Verif.Lemmas.FactoryAlone
/-
Lemmas on calls that run alone, among threads that fetch sheets from a factory and close it.
-/
namespace Lemmas
open Py Model Spec Props

/-- A call that runs alone, to its end. -/
def finishC (op : Nat → Str → ShId → Except PyErr SheetObj) : Doing → OpenFactory → OpenFactory × Except ThreadErr (Option SheetObj)
  | .done r, S => (S, r)
  | .books k, S => finishC op (k S.now) S
  | .emptied k, S => finishC op k
    { S with
      now := S.outersMade
      outers := fun o => if o = S.outersMade then [] else S.outers o
      outersMade := S.outersMade + 1 }
  | .hasBook o w k, S => finishC op (k (dget (S.outers o) w).isSome) S
  | .getBook o w k, S => finishC op (k (match dget (S.outers o) w with
      | some n => .ok (w, n)
      | none => .error .missingKey)) S
  | .newBook o w k, S => finishC op (k (w, S.made))
    { S with
      outers := fun o' => if o' = o then dset (S.outers o) w S.made else S.outers o'
      made := S.made + 1 }
  | .iterBooks o k, S => finishC op (k (S.outers o).length) S
  | .nextBook o size pos k, S => finishC op (k (if (S.outers o).length = size then .ok ((S.outers o)[pos]?) else .error .changedSize)) S
  | .getSheet d sh k, S => finishC op (k (dget (S.inner d) sh)) S
  | .putSheet d sh s k, S => finishC op k { S with inner := fun d' => if d' = d then dset (S.inner d) sh s else S.inner d' }
  | .items d k, S => finishC op (k (S.inner d)) S
  | .delSheet d sh k, S =>
    match dget (S.inner d) sh with
    | none => finishC op (k (.error .missingKey)) S
    | some _ => finishC op (k (.ok ())) { S with inner := fun d' => if d' = d then ddel (S.inner d) sh else S.inner d' }
  | .iterSheets d k, S => finishC op (k (S.inner d).length) S
  | .nextSheet d size pos k, S =>
    finishC op (k (if (S.inner d).length = size then .ok (((S.inner d)[pos]?).map (·.2)) else .error .changedSize)) S
  | .close s k, S => finishC op k { S with closed := s :: S.closed }
  | .openBook w sh k, S => finishC op (k (op S.opened w sh)) { S with opened := S.opened + 1 }

section
variable {op : Nat → Str → ShId → Except PyErr SheetObj}

theorem finishC_step (t : Doing) (S : OpenFactory) : finishC op (t.step op S).2 (t.step op S).1 = finishC op t S := by
  cases t <;> try rfl
  case delSheet d sh k =>
    simp only [Doing.step, finishC]
    cases dget (S.inner d) sh <;> rfl

theorem shift_step_own {c : Shift} {j : Nat} {t : Doing} (h : c.threads[j]? = some t) :
    c.step op j = ⟨(t.step op c.shared).1, c.threads.set j (t.step op c.shared).2⟩ := by
  unfold Shift.step
  rw [h]

theorem runC_alone (j : Nat) (n : Nat) : ∀ (c : Shift) (t : Doing), c.threads[j]? = some t →
    ∃ S' t', c.run op (List.replicate n j) = ⟨S', c.threads.set j t'⟩ ∧ finishC op t' S' = finishC op t c.shared := by
  induction n with
  | zero =>
    intro c t h
    refine ⟨c.shared, t, ?_, rfl⟩
    rw [show c.threads.set j t = c.threads from List.ext_getElem? (fun i => by
      rw [List.getElem?_set]
      split
      · next e => subst e; rw [if_pos (List.getElem?_eq_some_iff.1 h).1, h]
      · rfl)]
    rfl
  | succ n ih =>
    intro c t h
    have hl := (List.getElem?_eq_some_iff.1 h).1
    obtain ⟨S', t', h1, h2⟩ := ih (c.step op j) (t.step op c.shared).2 (by
      rw [shift_step_own h]
      exact List.getElem?_set_self hl)
    refine ⟨S', t', ?_, ?_⟩
    · show (c.step op j).run op (List.replicate n j) = _
      rw [h1, shift_step_own h, List.set_set]
    · rw [h2, shift_step_own h]
      exact finishC_step t c.shared

theorem runC_finish (j : Nat) (t : Doing) : ∀ (c : Shift), c.threads[j]? = some t →
    ∃ n, c.run op (List.replicate n j) = ⟨(finishC op t c.shared).1, c.threads.set j (.done (finishC op t c.shared).2)⟩ := by
  have hstep : ∀ (t : Doing), (∀ (S : OpenFactory) (c : Shift), c.threads[j]? = some (t.step op S).2 →
      ∃ n, c.run op (List.replicate n j) = ⟨(finishC op (t.step op S).2 c.shared).1, c.threads.set j (.done (finishC op (t.step op S).2 c.shared).2)⟩) →
      ∀ (c : Shift), c.threads[j]? = some t →
      ∃ n, c.run op (List.replicate n j) = ⟨(finishC op t c.shared).1, c.threads.set j (.done (finishC op t c.shared).2)⟩ := by
    intro t ih c h
    have hl := (List.getElem?_eq_some_iff.1 h).1
    obtain ⟨n, hn⟩ := ih c.shared (c.step op j) (by
      rw [shift_step_own h]
      exact List.getElem?_set_self hl)
    refine ⟨n + 1, ?_⟩
    show (c.step op j).run op (List.replicate n j) = _
    rw [hn, shift_step_own h]
    simp only [List.set_set]
    rw [finishC_step]
  induction t with
  | done r =>
    intro c h
    obtain ⟨S', t', h1, h2⟩ := runC_alone (op := op) j 0 c _ h
    refine ⟨0, ?_⟩
    show c = ⟨c.shared, c.threads.set j (.done r)⟩
    rw [show c.threads.set j (.done r) = c.threads from List.ext_getElem? (fun i => by
      rw [List.getElem?_set]
      split
      · next e => subst e; rw [if_pos (List.getElem?_eq_some_iff.1 h).1, h]
      · rfl)]
  | books k ih => exact hstep _ (fun S => ih _)
  | emptied k ih => exact hstep _ (fun S => ih)
  | hasBook o w k ih => exact hstep _ (fun S => ih _)
  | getBook o w k ih => exact hstep _ (fun S => ih _)
  | newBook o w k ih => exact hstep _ (fun S => ih _)
  | iterBooks o k ih => exact hstep _ (fun S => ih _)
  | nextBook o size pos k ih => exact hstep _ (fun S => ih _)
  | getSheet d sh k ih => exact hstep _ (fun S => ih _)
  | putSheet d sh s k ih => exact hstep _ (fun S => ih)
  | items d k ih => exact hstep _ (fun S => ih _)
  | delSheet d sh k ih =>
    refine hstep _ (fun S => ?_)
    simp only [Doing.step]
    cases dget (S.inner d) sh with
    | none => exact ih _
    | some x => exact ih _
  | iterSheets d k ih => exact hstep _ (fun S => ih _)
  | nextSheet d size pos k ih => exact hstep _ (fun S => ih _)
  | close s k ih => exact hstep _ (fun S => ih)
  | openBook w sh k ih => exact hstep _ (fun S => ih _)

/-! ### Closing -/

theorem finish_closeDict (d : DictRef) (k : Except ThreadErr Unit → Doing) : ∀ (left : Nat) (S : OpenFactory), left ≤ (S.inner d).length →
    finishC op (closeDictC d (S.inner d).length k left) S =
      finishC op (k (.ok ())) { S with closed := (((S.inner d).drop ((S.inner d).length - left)).map (·.2)).reverse ++ S.closed }
  | 0, S, _ => by
    simp [closeDictC, finishC]
  | left + 1, S, h => by
    have hlt : (S.inner d).length - (left + 1) < (S.inner d).length := by omega
    have ih := finish_closeDict d k left { S with closed := (S.inner d)[(S.inner d).length - (left + 1)].2 :: S.closed } (by simpa using Nat.le_of_succ_le h)
    simp only [closeDictC, finishC, if_true, List.getElem?_eq_getElem hlt, Option.map_some]
    simp only at ih
    rw [ih]
    congr 2
    rw [List.drop_eq_getElem_cons hlt, show (S.inner d).length - (left + 1) + 1 = (S.inner d).length - left by omega]
    simp

/-- The sheets in the dictionaries of these workbooks. -/
def heldIn (S : OpenFactory) (l : List (Str × Nat)) : List SheetObj := l.flatMap (fun e => (S.inner e).map (·.2))

theorem finish_closeBooks (o : Nat) : ∀ (left : Nat) (S : OpenFactory), left ≤ (S.outers o).length →
    finishC op (closeBooksC o (S.outers o).length left) S =
      finishC op (.emptied (.done (.ok none))) { S with closed := (heldIn S ((S.outers o).drop ((S.outers o).length - left))).reverse ++ S.closed }
  | 0, S, _ => by
    simp [closeBooksC, finishC, heldIn]
  | left + 1, S, h => by
    have hlt : (S.outers o).length - (left + 1) < (S.outers o).length := by omega
    have hd := finish_closeDict (op := op) (S.outers o)[(S.outers o).length - (left + 1)] (fun r => match r with
      | .error e => .done (.error e)
      | .ok () => closeBooksC o (S.outers o).length left) _ S (Nat.le_refl _)
    have ih := finish_closeBooks o left { S with closed := ((S.inner (S.outers o)[(S.outers o).length - (left + 1)]).map (·.2)).reverse ++ S.closed }
      (by simpa using Nat.le_of_succ_le h)
    refine Eq.trans ?_ (hd.trans ?_)
    · simp only [closeBooksC, finishC, if_true, List.getElem?_eq_getElem hlt]
      rfl
    simp only [Nat.sub_self, List.drop_zero]
    refine ih.trans ?_
    simp only [finishC]
    rw [List.drop_eq_getElem_cons hlt, show (S.outers o).length - (left + 1) + 1 = (S.outers o).length - left by omega]
    simp [heldIn]

/-- What closing does when it runs alone. -/
theorem finish_closeC (S : OpenFactory) : finishC op closeC S =
    ({ S with
      now := S.outersMade
      outers := fun o => if o = S.outersMade then [] else S.outers o
      outersMade := S.outersMade + 1
      closed := (heldIn S (S.outers S.now)).reverse ++ S.closed }, .ok none) := by
  unfold closeC
  rw [finishC, finishC]
  rw [finish_closeBooks S.now _ S (Nat.le_refl _)]
  simp [finishC]

/-! ### Fetching -/

/-- The factory of threads that only fetch. -/
def onlyNow (S : OpenFactory) : SharedFactory := ⟨S.outers S.now, S.inner, S.made, S.closed, S.opened⟩

/-- An outcome of a call that is the same. -/
def SameEnd (o : Nat) (x : OpenFactory × Except ThreadErr (Option SheetObj)) (y : SharedFactory × Except ThreadErr SheetObj) : Prop :=
  onlyNow x.1 = y.1 ∧ x.1.now = o ∧ x.2 = (match y.2 with
    | .ok s => .ok (some s)
    | .error e => .error e)

variable {o : Nat}

theorem same_get {key : SKey} {k : Except ThreadErr (Option SheetObj) → Doing} {k' : Option SheetObj → Todo} {S : OpenFactory}
    (h : ∀ x, SameEnd o (finishC op (k (.ok x)) S) (finish op (k' x) (onlyNow S))) :
    SameEnd o (finishC op (cacheGetC key k) S) (finish op (cacheGetT key k') (onlyNow S)) := by
  unfold cacheGetC cacheGetT
  simp only [finishC, finish]
  have e : (onlyNow S).outer = S.outers S.now := rfl
  rw [e]
  cases hg : dget (S.outers S.now) key.1 with
  | none => exact h none
  | some n =>
    simp only [Option.isSome_some, if_true, finishC, hg, Option.map_some, finish]
    exact h _

theorem same_put {key : SKey} {s : SheetObj} {k : Except ThreadErr Unit → Doing} {k' : Todo} {S : OpenFactory} (hS : S.now = o)
    (h : ∀ S, S.now = o → SameEnd o (finishC op (k (.ok ())) S) (finish op k' (onlyNow S))) :
    SameEnd o (finishC op (cachePutC key s k) S) (finish op (cachePutT key s k') (onlyNow S)) := by
  unfold cachePutC cachePutT
  simp only [finishC, finish]
  have e : (onlyNow S).outer = S.outers S.now := rfl
  rw [e]
  cases hg : dget (S.outers S.now) key.1 with
  | none =>
    simp only [Option.isSome_none, Bool.false_eq_true, if_false, finishC, Option.map_none, finish]
    have := h { S with
      outers := fun o' => if o' = S.now then dset (S.outers S.now) key.1 S.made else S.outers o'
      made := S.made + 1
      inner := fun d' => if d' = (key.1, S.made) then dset (S.inner (key.1, S.made)) key.2 s else S.inner d' } hS
    simp only [onlyNow, if_true] at this
    exact this
  | some n =>
    simp only [Option.isSome_some, if_true, finishC, hg, Option.map_some, finish]
    exact h { S with inner := fun d' => if d' = (key.1, n) then dset (S.inner (key.1, n)) key.2 s else S.inner d' } hS

theorem same_sweepOne {t : SheetObj} {d : DictRef} {k : Except ThreadErr Unit → Doing} {k' : Except ThreadErr Unit → Todo}
    (h : ∀ r S, S.now = o → SameEnd o (finishC op (k r) S) (finish op (k' r) (onlyNow S))) : ∀ (l : List (ShId × SheetObj)) (S : OpenFactory),
    S.now = o → SameEnd o (finishC op (sweepOneC t d k l) S) (finish op (sweepOneT t d k' l) (onlyNow S))
  | [], S, hS => h _ S hS
  | (sh, x) :: l, S, hS => by
    unfold sweepOneC sweepOneT
    by_cases e : x = t
    · rw [if_pos e, if_pos e]
      simp only [finishC, finish]
      have e : (onlyNow S).inner = S.inner := rfl
      rw [e]
      cases hg : dget (S.inner d) sh with
      | none => exact h _ S hS
      | some y =>
        exact same_sweepOne h l { S with inner := fun d' => if d' = d then ddel (S.inner d) sh else S.inner d' } hS
    · rw [if_neg e, if_neg e]
      exact same_sweepOne h l S hS

theorem same_sweep {t : SheetObj} {size : Nat} {k : Except ThreadErr Unit → Doing} {k' : Except ThreadErr Unit → Todo}
    (h : ∀ r S, S.now = o → SameEnd o (finishC op (k r) S) (finish op (k' r) (onlyNow S))) : ∀ (left : Nat) (S : OpenFactory),
    S.now = o → SameEnd o (finishC op (sweepC t o size k left) S) (finish op (sweepT t size k' left) (onlyNow S))
  | 0, S, hS => by
    unfold sweepC sweepT
    simp only [finishC, finish]
    have e : (onlyNow S).outer = S.outers o := by rw [← hS]; rfl
    rw [e]
    by_cases hs : (S.outers o).length = size
    · rw [if_pos hs]
      exact h _ S hS
    · rw [if_neg hs]
      exact h _ S hS
  | left + 1, S, hS => by
    unfold sweepC sweepT
    simp only [finishC, finish]
    have e : (onlyNow S).outer = S.outers o := by rw [← hS]; rfl
    rw [e]
    by_cases hs : (S.outers o).length = size
    · rw [if_pos hs]
      cases (S.outers o)[size - (left + 1)]? with
      | none => exact h _ S hS
      | some d =>
        simp only [finishC, finish]
        refine same_sweepOne (fun r S hS => ?_) _ S hS
        cases r with
        | error e => exact h _ S hS
        | ok u => exact same_sweep h left S hS
    · rw [if_neg hs]
      exact h _ S hS

theorem same_addKeys {s : SheetObj} : ∀ (ks : List SKey) (S : OpenFactory), S.now = o →
    SameEnd o (finishC op (addKeysC s ks) S) (finish op (addKeysT s ks) (onlyNow S))
  | [], S, hS => ⟨rfl, hS, rfl⟩
  | key :: ks, S, hS => by
    have hput : ∀ S : OpenFactory, S.now = o → SameEnd o (finishC op (cachePutC key s (fun r => match r with
          | .error e => .done (.error e)
          | .ok () => addKeysC s ks)) S) (finish op (cachePutT key s (addKeysT s ks)) (onlyNow S)) :=
      fun S hS => same_put hS (fun S hS => same_addKeys ks S hS)
    unfold addKeysC addKeysT
    refine same_get (fun x => ?_)
    cases x with
    | none => exact hput S hS
    | some old =>
      simp only
      by_cases e : old ≠ s
      · rw [if_pos e, if_pos e]
        unfold closeSheetC closeSheetT
        refine same_get (fun x => ?_)
        cases x with
        | none => exact hput S hS
        | some t =>
          subst hS
          simp only [finishC, finish]
          have hn : (onlyNow S).outer.length = (S.outers S.now).length := rfl
          rw [hn]
          refine same_sweep (fun r S hS => ?_) _ { S with closed := t :: S.closed } rfl
          cases r with
          | error e => exact ⟨rfl, hS, rfl⟩
          | ok u => exact hput S hS
      · rw [if_neg e, if_neg e]
        exact hput S hS

theorem same_fetch (order : List SKey → List SKey) (w : Str) (sh : ShId) (S : OpenFactory) (hS : S.now = o) :
    SameEnd o (finishC op (fetchC order w sh) S) (finish op (fetchT order w sh) (onlyNow S)) := by
  unfold fetchC fetchT
  refine same_get (fun x => ?_)
  cases x with
  | some s => exact ⟨rfl, hS, rfl⟩
  | none =>
    simp only [finishC, finish]
    have e : (onlyNow S).opened = S.opened := rfl
    rw [e]
    cases op S.opened w sh with
    | error e => exact ⟨rfl, hS, rfl⟩
    | ok s =>
      simp only
      by_cases he : (deriveKeys s (.one w) (.one sh)).isEmpty = true
      · rw [if_pos he, if_pos he]
        exact ⟨rfl, hS, rfl⟩
      · rw [if_neg he, if_neg he]
        exact same_addKeys _ { S with opened := S.opened + 1 } hS

end

end Lemmas
