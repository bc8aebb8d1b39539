import Verif.Spec.FactoryClose
import Verif.Lemmas.FactoryThreads
/-
Lemmas on threads that fetch sheets from one factory, and threads that close it.
-/
namespace Lemmas
open Py Model Spec Props

/-- What is left to do goes well whatever other threads do: it stores only sheets that fit, and ends with what satisfies `post`. -/
def SafeC (W : Surroundings) (post : Except ThreadErr (Option SheetObj) → Prop) : Doing → Prop
  | .done r => post r
  | .books k => ∀ o, SafeC W post (k o)
  | .emptied k => SafeC W post k
  | .hasBook _ _ k => ∀ b, SafeC W post (k b)
  | .getBook _ w k => SafeC W post (k (.error .missingKey)) ∧ ∀ n, SafeC W post (k (.ok (w, n)))
  | .newBook _ w k => ∀ n, SafeC W post (k (w, n))
  | .iterBooks _ k => ∀ n, SafeC W post (k n)
  | .nextBook _ _ _ k => ∀ r, (∀ e, r = .error e → e = .changedSize) → SafeC W post (k r)
  | .getSheet d sh k => ∀ o, (∀ s, o = some s → Fits W (d.1, sh) s) → SafeC W post (k o)
  | .putSheet d sh s k => Fits W (d.1, sh) s ∧ SafeC W post k
  | .items _ k => ∀ l, SafeC W post (k l)
  | .delSheet _ _ k => ∀ r, (∀ e, r = .error e → e = .missingKey) → SafeC W post (k r)
  | .iterSheets _ k => ∀ n, SafeC W post (k n)
  | .nextSheet _ _ _ k => ∀ r, (∀ e, r = .error e → e = .changedSize) → SafeC W post (k r)
  | .close _ k => SafeC W post k
  | .openBook w sh k => ∀ n, SafeC W post (k (W.opener n w sh))

/-- All that is stored fits. -/
def AllFitC (W : Surroundings) (S : OpenFactory) : Prop := ∀ d sh s, dget (S.inner d) sh = some s → Fits W (d.1, sh) s

section
variable {W : Surroundings} {post : Except ThreadErr (Option SheetObj) → Prop}

theorem safeC_step {S : OpenFactory} {t : Doing} (hS : AllFitC W S) (ht : SafeC W post t) :
    AllFitC W (t.step W.opener S).1 ∧ SafeC W post (t.step W.opener S).2 := by
  cases t with
  | done r => exact ⟨hS, ht⟩
  | books k => exact ⟨hS, ht _⟩
  | emptied k => exact ⟨hS, ht⟩
  | hasBook o w k => exact ⟨hS, ht _⟩
  | getBook o w k =>
    refine ⟨hS, ?_⟩
    simp only [Doing.step]
    cases dget (S.outers o) w with
    | none => exact ht.1
    | some n => exact ht.2 n
  | newBook o w k => exact ⟨hS, ht _⟩
  | iterBooks o k => exact ⟨hS, ht _⟩
  | nextBook o size pos k =>
    refine ⟨hS, ht _ (fun e he => ?_)⟩
    split at he
    · cases he
    · cases he; rfl
  | getSheet d sh k => exact ⟨hS, ht _ (fun s hs => hS d sh s hs)⟩
  | putSheet d sh s k =>
    refine ⟨?_, ht.2⟩
    intro d' sh' s' h
    simp only [Doing.step] at h
    by_cases hd : d' = d
    · subst hd
      rw [if_pos rfl, dget_dset] at h
      split at h
      · rename_i e
        cases h
        rw [e]
        exact ht.1
      · exact hS _ _ _ h
    · rw [if_neg hd] at h
      exact hS _ _ _ h
  | items d k => exact ⟨hS, ht _⟩
  | delSheet d sh k =>
    simp only [Doing.step]
    cases hg : dget (S.inner d) sh with
    | none => exact ⟨hS, ht _ (fun e he => by cases he; rfl)⟩
    | some x =>
      refine ⟨?_, ht _ (fun e he => by cases he)⟩
      intro d' sh' s' h
      simp only at h
      by_cases hd : d' = d
      · subst hd
        rw [if_pos rfl, dget_ddel] at h
        split at h
        · cases h
        · exact hS _ _ _ h
      · rw [if_neg hd] at h
        exact hS _ _ _ h
  | iterSheets d k => exact ⟨hS, ht _⟩
  | nextSheet d size pos k =>
    refine ⟨hS, ht _ (fun e he => ?_)⟩
    split at he
    · cases he
    · cases he; rfl
  | close s k => exact ⟨hS, ht⟩
  | openBook w sh k => exact ⟨hS, ht _⟩

theorem safeC_get {key : SKey} {k : Except ThreadErr (Option SheetObj) → Doing} (h0 : SafeC W post (k (.ok none)))
    (h1 : SafeC W post (k (.error .missingKey))) (h : ∀ s, Fits W key s → SafeC W post (k (.ok (some s)))) :
    SafeC W post (cacheGetC key k) := by
  intro o b
  cases b with
  | false => exact h0
  | true =>
    intro o'
    refine ⟨h1, fun n => ?_⟩
    intro x hx
    cases x with
    | none => exact h0
    | some s => exact h s (hx s rfl)

theorem safeC_put {key : SKey} {s : SheetObj} {k : Except ThreadErr Unit → Doing} (hs : Fits W key s) (h1 : SafeC W post (k (.error .missingKey)))
    (h : SafeC W post (k (.ok ()))) : SafeC W post (cachePutC key s k) := by
  intro o b
  cases b with
  | false => exact fun o' n => ⟨hs, h⟩
  | true => exact fun o' => ⟨h1, fun n => ⟨hs, h⟩⟩

theorem safeC_sweepOne {t : SheetObj} {d : DictRef} {k : Except ThreadErr Unit → Doing} (h0 : SafeC W post (k (.ok ())))
    (h1 : SafeC W post (k (.error .missingKey))) : ∀ l, SafeC W post (sweepOneC t d k l)
  | [] => h0
  | (sh, x) :: l => by
    unfold sweepOneC
    split
    · intro r hr
      cases r with
      | error e => rw [hr e rfl]; exact h1
      | ok u => exact safeC_sweepOne h0 h1 l
    · exact safeC_sweepOne h0 h1 l

theorem safeC_sweep {t : SheetObj} {o size : Nat} {k : Except ThreadErr Unit → Doing} (h0 : SafeC W post (k (.ok ())))
    (h1 : SafeC W post (k (.error .missingKey))) (h2 : SafeC W post (k (.error .changedSize))) : ∀ left, SafeC W post (sweepC t o size k left)
  | 0 => by
    intro r hr
    cases r with
    | error e => rw [hr e rfl]; exact h2
    | ok o => exact h0
  | left + 1 => by
    intro r hr
    cases r with
    | error e => rw [hr e rfl]; exact h2
    | ok x =>
      cases x with
      | none => exact h0
      | some d =>
        intro l
        refine safeC_sweepOne (k := fun r => match r with
          | .error e => k (.error e)
          | .ok () => sweepC t o size k left) ?_ h1 l
        exact safeC_sweep h0 h1 h2 left

theorem safeC_addKeys {s : SheetObj} (h0 : post (.ok (some s))) (h1 : post (.error .missingKey)) (h2 : post (.error .changedSize)) :
    ∀ (ks : List SKey), (∀ k ∈ ks, Fits W k s) → SafeC W post (addKeysC s ks)
  | [], _ => h0
  | key :: ks, hk => by
    have hput := safeC_put (post := post) (k := fun r => match r with
          | .error e => .done (.error e)
          | .ok () => addKeysC s ks) (hk key (by simp)) h1 (safeC_addKeys h0 h1 h2 ks (fun k h => hk k (by simp [h])))
    refine safeC_get hput h1 (fun old ho => ?_)
    simp only
    split
    · refine safeC_get hput h1 (fun t ht => ?_)
      intro o size
      exact safeC_sweep (k := fun r => match r with
            | .error e => .done (.error e)
            | .ok () => cachePutC key s (fun r => match r with
              | .error e => .done (.error e)
              | .ok () => addKeysC s ks)) hput h1 h2 size
    · exact hput

/-- What a call may end with. -/
def EndsWellC (W : Surroundings) : Ask → Except ThreadErr (Option SheetObj) → Prop
  | .fetch w sh, r => (∃ s, r = .ok (some s) ∧ Fits W (w, sh) s) ∨
    (∃ e, r = .error (.raised e) ∧ openSheetOf W.ok W.cwd W.plugins w sh = .error e) ∨ r = .error .changedSize ∨ r = .error .missingKey
  | .close, r => r = .ok none ∨ r = .error .changedSize

theorem safeC_fetch (hW : ProperBooks W) {order : List SKey → List SKey} (ho : IsOrder order) (w : Str) (sh : ShId) :
    SafeC W (EndsWellC W (.fetch w sh)) (fetchC order w sh) := by
  refine safeC_get ?_ (.inr (.inr (.inr rfl))) (fun s hs => .inl ⟨s, rfl, hs⟩)
  intro n
  rcases opener_fits hW n w sh with ⟨e, h1, h2⟩ | ⟨s, h1, -, h2, h3, h4⟩
  · rw [h1]
    exact .inr (.inl ⟨e, rfl, h2⟩)
  · rw [h1]
    simp only [h3]
    refine safeC_addKeys (.inl ⟨s, rfl, h2⟩) (.inr (.inr (.inr rfl))) (.inr (.inr (.inl rfl))) _ (fun k hk => ?_)
    obtain ⟨url, i, e1, e2⟩ := h2
    exact ⟨url, i, by rw [h4 k ((ho _ _).1 hk)]; exact e1, e2⟩

theorem safeC_closeDict {d : DictRef} {size : Nat} {k : Except ThreadErr Unit → Doing} (h0 : SafeC W post (k (.ok ())))
    (h2 : SafeC W post (k (.error .changedSize))) : ∀ left, SafeC W post (closeDictC d size k left)
  | 0 => by
    intro r hr
    cases r with
    | error e => rw [hr e rfl]; exact h2
    | ok o => exact h0
  | left + 1 => by
    intro r hr
    cases r with
    | error e => rw [hr e rfl]; exact h2
    | ok x =>
      cases x with
      | none => exact h0
      | some s => exact safeC_closeDict h0 h2 left

theorem safeC_closeBooks {o size : Nat} : ∀ left, SafeC W (EndsWellC W .close) (closeBooksC o size left)
  | 0 => by
    intro r hr
    cases r with
    | error e => rw [hr e rfl]; exact .inr rfl
    | ok o => exact .inl rfl
  | left + 1 => by
    intro r hr
    cases r with
    | error e => rw [hr e rfl]; exact .inr rfl
    | ok x =>
      cases x with
      | none => exact .inl rfl
      | some d =>
        intro n
        refine safeC_closeDict (k := fun r => match r with
          | .error e => .done (.error e)
          | .ok () => closeBooksC o size left) ?_ (.inr rfl) n
        exact safeC_closeBooks left

theorem safeC_close : SafeC W (EndsWellC W .close) closeC := fun _ size => safeC_closeBooks size

private theorem append_last {α : Type} {l : List α} {a b : α} {j : Nat} (h : (l ++ [a])[j]? = some b) (hl : ¬ j < l.length) : j = l.length ∧ a = b := by
  have h1 := (List.getElem?_eq_some_iff.1 h).1
  simp at h1
  have : j = l.length := by omega
  subst this
  simpa using h

/-- What holds at any moment. -/
theorem onShift_safe (hW : ProperBooks W) {asks : List Ask} {c : Shift} (h : OnShift W asks c) :
    AllFitC W c.shared ∧ asks.length = c.threads.length ∧
    ∀ (j : Nat) a t, asks[j]? = some a → c.threads[j]? = some t → SafeC W (EndsWellC W a) t := by
  have hadd : ∀ (asks : List Ask) (ts : List Doing) (a : Ask) (t : Doing), SafeC W (EndsWellC W a) t → asks.length = ts.length →
      (∀ (j : Nat) a t, asks[j]? = some a → ts[j]? = some t → SafeC W (EndsWellC W a) t) →
      ∀ (j : Nat) a' t', (asks ++ [a])[j]? = some a' → (ts ++ [t])[j]? = some t' → SafeC W (EndsWellC W a') t' := by
    intro asks ts a t h0 h2 h3 j a' t' hj ht
    by_cases hl : j < asks.length
    · rw [List.getElem?_append_left hl] at hj
      rw [List.getElem?_append_left (by omega)] at ht
      exact h3 j a' t' hj ht
    · obtain ⟨-, rfl⟩ := append_last hj hl
      obtain ⟨-, rfl⟩ := append_last ht (by omega)
      exact h0
  induction h with
  | new => exact ⟨fun _ _ _ h => (nomatch h), rfl, fun _ _ _ h => (nomatch h)⟩
  | @fetch asks c order w sh hc ho ih =>
    obtain ⟨h1, h2, h3⟩ := ih
    exact ⟨h1, by simp [h2], hadd _ _ _ _ (safeC_fetch hW ho w sh) h2 h3⟩
  | @close asks c hc ih =>
    obtain ⟨h1, h2, h3⟩ := ih
    exact ⟨h1, by simp [h2], hadd _ _ _ _ safeC_close h2 h3⟩
  | @step asks c i hc ih =>
    obtain ⟨h1, h2, h3⟩ := ih
    unfold Shift.step
    cases ht : c.threads[i]? with
    | none => exact ⟨h1, h2, h3⟩
    | some t =>
      have hi := (List.getElem?_eq_some_iff.1 ht).1
      have hk : asks[i]? = some asks[i] := List.getElem?_eq_getElem (by omega)
      obtain ⟨s1, s2⟩ := safeC_step h1 (h3 i _ t hk ht)
      refine ⟨s1, by simp [h2], ?_⟩
      intro j key t' hj ht'
      simp only at ht'
      by_cases e : i = j
      · subst e
        rw [List.getElem?_set_self hi] at ht'
        cases ht'
        rw [hk] at hj
        cases hj
        exact s2
      · rw [List.getElem?_set_ne e] at ht'
        exact h3 j key t' hj ht'

end

end Lemmas
