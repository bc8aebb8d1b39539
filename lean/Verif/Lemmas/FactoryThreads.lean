import Verif.Spec.FactoryThreads
import Verif.Lemmas.FactoryBooks
/-
Lemmas on threads that fetch sheets from one factory.
-/
namespace Lemmas
open Py Model Spec Props

/-! ### Whatever the order -/

/-- The sheet is the one that the key stands for. -/
def Fits (W : Surroundings) (k : SKey) (s : SheetObj) : Prop :=
  ∃ url i, openSheetOf W.ok W.cwd W.plugins k.1 k.2 = .ok (url, i) ∧ IsSheet s url i

/-- What is left to do goes well whatever other threads do: it stores only sheets that fit, and ends with what satisfies `post`. -/
def Safe (W : Surroundings) (post : Except ThreadErr SheetObj → Prop) : Todo → Prop
  | .done r => post r
  | .outerGet w k => Safe W post (k none) ∧ ∀ n, Safe W post (k (some (w, n)))
  | .outerNew w k => ∀ n, Safe W post (k (w, n))
  | .outerIter k => ∀ n, Safe W post (k n)
  | .outerNext _ _ k => ∀ r, (∀ e, r = .error e → e = .changedSize) → Safe W post (k r)
  | .innerGet d sh k => ∀ o, (∀ s, o = some s → Fits W (d.1, sh) s) → Safe W post (k o)
  | .innerPut d sh s k => Fits W (d.1, sh) s ∧ Safe W post k
  | .innerItems _ k => ∀ l, Safe W post (k l)
  | .innerDel _ _ k => ∀ r, (∀ e, r = .error e → e = .missingKey) → Safe W post (k r)
  | .close _ k => Safe W post k
  | .openBook w sh k => ∀ n, Safe W post (k (W.opener n w sh))

/-- All that is stored fits. -/
def AllFit (W : Surroundings) (S : SharedFactory) : Prop := ∀ d sh s, dget (S.inner d) sh = some s → Fits W (d.1, sh) s

section
variable {W : Surroundings} {post : Except ThreadErr SheetObj → Prop}

theorem safe_step {S : SharedFactory} {t : Todo} (hS : AllFit W S) (ht : Safe W post t) :
    AllFit W (t.step W.opener S).1 ∧ Safe W post (t.step W.opener S).2 := by
  cases t with
  | done r => exact ⟨hS, ht⟩
  | outerGet w k =>
    refine ⟨hS, ?_⟩
    simp only [Todo.step]
    cases dget S.outer w with
    | none => exact ht.1
    | some n => exact ht.2 n
  | outerNew w k => exact ⟨hS, ht _⟩
  | outerIter k => exact ⟨hS, ht _⟩
  | outerNext size pos k =>
    refine ⟨hS, ht _ (fun e he => ?_)⟩
    split at he
    · cases he
    · cases he; rfl
  | innerGet d sh k => exact ⟨hS, ht _ (fun s hs => hS d sh s hs)⟩
  | innerPut d sh s k =>
    refine ⟨?_, ht.2⟩
    intro d' sh' s' h
    simp only [Todo.step] at h
    by_cases hd : d' = d
    · subst hd
      rw [if_pos rfl, dget_dset] at h
      split at h
      · rename_i e
        cases h
        rw [e]
        exact ht.1
      · exact hS _ _ _ h
    · rw [if_neg hd] at h
      exact hS _ _ _ h
  | innerItems d k => exact ⟨hS, ht _⟩
  | innerDel d sh k =>
    simp only [Todo.step]
    cases hg : dget (S.inner d) sh with
    | none => exact ⟨hS, ht _ (fun e he => by cases he; rfl)⟩
    | some x =>
      refine ⟨?_, ht _ (fun e he => by cases he)⟩
      intro d' sh' s' h
      simp only at h
      by_cases hd : d' = d
      · subst hd
        rw [if_pos rfl, dget_ddel] at h
        split at h
        · cases h
        · exact hS _ _ _ h
      · rw [if_neg hd] at h
        exact hS _ _ _ h
  | close s k => exact ⟨hS, ht⟩
  | openBook w sh k => exact ⟨hS, ht _⟩

theorem safe_get {key : SKey} {k : Option SheetObj → Todo} (h0 : Safe W post (k none)) (h : ∀ s, Fits W key s → Safe W post (k (some s))) :
    Safe W post (cacheGetT key k) := by
  refine ⟨h0, fun n => ?_⟩
  intro o ho
  cases o with
  | none => exact h0
  | some s => exact h s (ho s rfl)

theorem safe_put {key : SKey} {s : SheetObj} {k : Todo} (hs : Fits W key s) (h : Safe W post k) : Safe W post (cachePutT key s k) :=
  ⟨fun _ => ⟨hs, h⟩, fun _ => ⟨hs, h⟩⟩

theorem safe_sweepOne {t : SheetObj} {d : DictRef} {k : Except ThreadErr Unit → Todo} (h0 : Safe W post (k (.ok ())))
    (h1 : Safe W post (k (.error .missingKey))) : ∀ l, Safe W post (sweepOneT t d k l)
  | [] => h0
  | (sh, x) :: l => by
    unfold sweepOneT
    split
    · intro r hr
      cases r with
      | error e => rw [hr e rfl]; exact h1
      | ok u => exact safe_sweepOne h0 h1 l
    · exact safe_sweepOne h0 h1 l

theorem safe_sweep {t : SheetObj} {size : Nat} {k : Except ThreadErr Unit → Todo} (h0 : Safe W post (k (.ok ())))
    (h1 : Safe W post (k (.error .missingKey))) (h2 : Safe W post (k (.error .changedSize))) : ∀ left, Safe W post (sweepT t size k left)
  | 0 => by
    intro r hr
    cases r with
    | error e => rw [hr e rfl]; exact h2
    | ok o => exact h0
  | left + 1 => by
    intro r hr
    cases r with
    | error e => rw [hr e rfl]; exact h2
    | ok o =>
      cases o with
      | none => exact h0
      | some d =>
        intro l
        refine safe_sweepOne (k := fun r => match r with
          | .error e => k (.error e)
          | .ok () => sweepT t size k left) ?_ h1 l
        exact safe_sweep h0 h1 h2 left

theorem safe_addKeys {s : SheetObj} (h0 : post (.ok s)) (h1 : post (.error .missingKey)) (h2 : post (.error .changedSize)) :
    ∀ (ks : List SKey), (∀ k ∈ ks, Fits W k s) → Safe W post (addKeysT s ks)
  | [], _ => h0
  | key :: ks, hk => by
    have hput := safe_put (hk key (by simp)) (safe_addKeys h0 h1 h2 ks (fun k h => hk k (by simp [h])))
    refine safe_get hput (fun old ho => ?_)
    simp only
    split
    · refine safe_get hput (fun t ht => ?_)
      intro size
      exact safe_sweep (k := fun r => match r with
            | .error e => .done (.error e)
            | .ok () => cachePutT key s (addKeysT s ks)) hput h1 h2 size
    · exact hput

/-- What a call may end with. -/
def EndsWell (W : Surroundings) (key : SKey) (r : Except ThreadErr SheetObj) : Prop :=
  (∃ s, r = .ok s ∧ Fits W key s) ∨ (∃ e, r = .error (.raised e) ∧ openSheetOf W.ok W.cwd W.plugins key.1 key.2 = .error e) ∨
    r = .error .changedSize ∨ r = .error .missingKey

/-- The keys of a sheet that was opened fit. -/
theorem opener_fits (hW : ProperBooks W) (n : Nat) (w : Str) (sh : ShId) :
    (∃ e, W.opener n w sh = .error e ∧ openSheetOf W.ok W.cwd W.plugins w sh = .error e) ∨
    ∃ s, W.opener n w sh = .ok s ∧ s.oid = n ∧ Fits W (w, sh) s ∧ (deriveKeys s (.one w) (.one sh)).isEmpty = false ∧
      ∀ k ∈ deriveKeys s (.one w) (.one sh), openSheetOf W.ok W.cwd W.plugins k.1 k.2 = openSheetOf W.ok W.cwd W.plugins w sh := by
  rcases book_opener (D := Desk.new) hW n w sh with ⟨e, h1, h2⟩ | ⟨url, names, i, h1, h2, hB, hi, -, hw⟩
  · exact .inl ⟨e, h1, h2⟩
  · right
    refine ⟨_, h1, rfl, ⟨url, i, h2, rfl, _, rfl⟩, ?_, ?_⟩
    · have : (url, ShId.num i) ∈ deriveKeys (sheetAt n url names i) (.one w) (.one sh) :=
        mem_deriveKeys.2 ⟨.inl rfl, hB.1, .inl (by simp [sheetAt])⟩
      cases hd : deriveKeys (sheetAt n url names i) (.one w) (.one sh) with
      | nil => rw [hd] at this; cases this
      | cons a l => rfl
    · intro k hk
      obtain ⟨hk1, -, hk2⟩ := mem_deriveKeys.1 hk
      have e1 : openSheetOf W.ok W.cwd W.plugins k.1 k.2 = openSheetOf W.ok W.cwd W.plugins url k.2 := by
        rcases hk1 with e | e
        · rw [e]; rfl
        · simp only [Gives] at e; rw [← hw, e]
      rw [e1, h2]
      rcases hk2 with e | e | ⟨-, e⟩
      · exact open_own hB hi e
      · simp only [Gives] at e; rw [e, ← hw]; exact h2
      · cases e

theorem safe_fetch (hW : ProperBooks W) {order : List SKey → List SKey} (ho : IsOrder order) (w : Str) (sh : ShId) :
    Safe W (EndsWell W (w, sh)) (fetchT order w sh) := by
  refine safe_get ?_ (fun s hs => .inl ⟨s, rfl, hs⟩)
  intro n
  rcases opener_fits hW n w sh with ⟨e, h1, h2⟩ | ⟨s, h1, -, h2, h3, h4⟩
  · rw [h1]
    exact .inr (.inl ⟨e, rfl, h2⟩)
  · rw [h1]
    simp only [h3]
    refine safe_addKeys (.inl ⟨s, rfl, h2⟩) (.inr (.inr (.inr rfl))) (.inr (.inr (.inl rfl))) _ (fun k hk => ?_)
    obtain ⟨url, i, e1, e2⟩ := h2
    exact ⟨url, i, by rw [h4 k ((ho _ _).1 hk)]; exact e1, e2⟩

/-- What holds at any moment. -/
theorem atWork_safe (hW : ProperBooks W) {asks : List SKey} {c : Crew} (h : AtWork W asks c) :
    AllFit W c.shared ∧ asks.length = c.threads.length ∧
    ∀ (j : Nat) key t, asks[j]? = some key → c.threads[j]? = some t → Safe W (EndsWell W key) t := by
  induction h with
  | new => exact ⟨fun _ _ _ h => (nomatch h), rfl, fun _ _ _ h => (nomatch h)⟩
  | @call asks c order w sh hc ho ih =>
    obtain ⟨h1, h2, h3⟩ := ih
    refine ⟨h1, by simp [h2], ?_⟩
    intro j key t hj ht
    simp only at ht
    by_cases hl : j < asks.length
    · rw [List.getElem?_append_left hl] at hj
      rw [List.getElem?_append_left (by omega)] at ht
      exact h3 j key t hj ht
    · have : j = asks.length := by
        have := (List.getElem?_eq_some_iff.1 hj).1
        simp at this
        omega
      subst this
      rw [List.getElem?_append_right (Nat.le_refl _)] at hj
      rw [h2, List.getElem?_append_right (Nat.le_refl _)] at ht
      simp only [Nat.sub_self, List.getElem?_cons_zero, Option.some.injEq] at hj ht
      subst hj ht
      exact safe_fetch hW ho w sh
  | @step asks c i hc ih =>
    obtain ⟨h1, h2, h3⟩ := ih
    unfold Crew.step
    cases ht : c.threads[i]? with
    | none => exact ⟨h1, h2, h3⟩
    | some t =>
      have hi := (List.getElem?_eq_some_iff.1 ht).1
      have hk : asks[i]? = some asks[i] := List.getElem?_eq_getElem (by omega)
      obtain ⟨s1, s2⟩ := safe_step h1 (h3 i _ t hk ht)
      refine ⟨s1, by simp [h2], ?_⟩
      intro j key t' hj ht'
      simp only at ht'
      by_cases e : i = j
      · subst e
        rw [List.getElem?_set_self hi] at ht'
        cases ht'
        rw [hk] at hj
        cases hj
        exact s2
      · rw [List.getElem?_set_ne e] at ht'
        exact h3 j key t' hj ht'

/-! ### Calls for different sheets -/

/-- What is left to do when no other thread asks for the same sheet: it stores the sheet `held` that it opened, finds only that one, and closes
nothing. -/
def Calm (W : Surroundings) (key : SKey) : Option SheetObj → Todo → Prop
  | held, .done r => (∃ s, r = .ok s ∧ held = some s) ∨ ∃ e, r = .error (.raised e)
  | held, .outerGet w k => Calm W key held (k none) ∧ ∀ n, Calm W key held (k (some (w, n)))
  | held, .outerNew w k => ∀ n, Calm W key held (k (w, n))
  | held, .innerGet d sh k =>
    openSheetOf W.ok W.cwd W.plugins d.1 sh = openSheetOf W.ok W.cwd W.plugins key.1 key.2 ∧
    ∀ o, (∀ t, o = some t → held = some t) → Calm W key held (k o)
  | held, .innerPut d sh s k =>
    held = some s ∧ openSheetOf W.ok W.cwd W.plugins d.1 sh = openSheetOf W.ok W.cwd W.plugins key.1 key.2 ∧ Calm W key held k
  | held, .openBook w sh k =>
    held = none ∧ (w, sh) = key ∧ ∀ n, (∀ e, W.opener n w sh = .error e → Calm W key none (k (.error e))) ∧
      ∀ s, W.opener n w sh = .ok s → Calm W key (some s) (k (.ok s))
  | _, .outerIter _ => False
  | _, .outerNext _ _ _ => False
  | _, .innerItems _ _ => False
  | _, .innerDel _ _ _ => False
  | _, .close _ _ => False

theorem calm_get {key key' : SKey} {held : Option SheetObj} {k : Option SheetObj → Todo}
    (hs : openSheetOf W.ok W.cwd W.plugins key'.1 key'.2 = openSheetOf W.ok W.cwd W.plugins key.1 key.2)
    (h0 : Calm W key held (k none)) (h : ∀ t, held = some t → Calm W key held (k (some t))) : Calm W key held (cacheGetT key' k) := by
  refine ⟨h0, fun n => ⟨hs, fun o ho => ?_⟩⟩
  cases o with
  | none => exact h0
  | some t => exact h t (ho t rfl)

theorem calm_addKeys {key : SKey} {s : SheetObj} : ∀ (ks : List SKey),
    (∀ k ∈ ks, openSheetOf W.ok W.cwd W.plugins k.1 k.2 = openSheetOf W.ok W.cwd W.plugins key.1 key.2) → Calm W key (some s) (addKeysT s ks)
  | [], _ => .inl ⟨s, rfl, rfl⟩
  | key' :: ks, hk => by
    have hput : Calm W key (some s) (cachePutT key' s (addKeysT s ks)) := by
      have := calm_addKeys (s := s) ks (fun k h => hk k (by simp [h]))
      exact ⟨fun n => ⟨rfl, hk key' (by simp), this⟩, fun n => ⟨rfl, hk key' (by simp), this⟩⟩
    refine calm_get (hk key' (by simp)) hput (fun t ht => ?_)
    cases ht
    simp only [ne_eq, not_true_eq_false, if_false]
    exact hput

theorem calm_fetch (hW : ProperBooks W) {order : List SKey → List SKey} (ho : IsOrder order) (w : Str) (sh : ShId) :
    Calm W (w, sh) none (fetchT order w sh) := by
  refine calm_get rfl ?_ (fun t ht => nomatch ht)
  refine ⟨rfl, rfl, fun n => ⟨fun e he => .inr ⟨e, rfl⟩, fun s hs => ?_⟩⟩
  rcases opener_fits hW n w sh with ⟨e, h1, -⟩ | ⟨s', h1, -, -, h3, h4⟩
  · rw [h1] at hs; cases hs
  · rw [h1] at hs
    cases hs
    simp only [h3]
    exact calm_addKeys _ (fun k hk => h4 k ((ho _ _).1 hk))

theorem isSheet_unique {s : SheetObj} {url url' : Str} {i i' : Nat} (h : IsSheet s url i) (h' : IsSheet s url' i') : url = url' ∧ i = i' := by
  obtain ⟨h1, n, h2⟩ := h
  obtain ⟨h1', n', h2'⟩ := h'
  refine ⟨h1.symm.trans h1', ?_⟩
  rw [h2] at h2'
  simp only [List.cons.injEq, ShId.num.injEq, and_true] at h2'
  omega

/-- What holds at any moment if no two calls ask for the same sheet. -/
theorem atWork_calm (hW : ProperBooks W) {asks : List SKey} {c : Crew} (h : AtWork W asks c) (hA : AllApart W asks) :
    ∃ held : Nat → Option SheetObj, (∀ j, asks.length ≤ j → held j = none) ∧
      (∀ (j : Nat) key s, asks[j]? = some key → held j = some s → Fits W key s) ∧
      (∀ (j : Nat) key t, asks[j]? = some key → c.threads[j]? = some t → Calm W key (held j) t) ∧
      (∀ d sh t, dget (c.shared.inner d) sh = some t → ∃ j, held j = some t) ∧ c.shared.closed = [] := by
  induction h with
  | new => exact ⟨fun _ => none, fun _ _ => rfl, fun _ _ _ h => (nomatch h), fun _ _ _ h => (nomatch h), fun _ _ _ h => (nomatch h), rfl⟩
  | @call asks c order w sh hc ho ih =>
    obtain ⟨held, h1, h2, h3, h4, h5⟩ := ih (by
      intro i j k k' x hi hj
      exact hA i j k k' x (by rw [List.getElem?_append_left (List.getElem?_eq_some_iff.1 hi).1]; exact hi)
        (by rw [List.getElem?_append_left (List.getElem?_eq_some_iff.1 hj).1]; exact hj))
    have hlen := (atWork_safe hW hc).2.1
    refine ⟨held, fun j hj => h1 j (by simp at hj; omega), ?_, ?_, h4, h5⟩
    · intro j key s hj hs
      by_cases hl : j < asks.length
      · rw [List.getElem?_append_left hl] at hj
        exact h2 j key s hj hs
      · rw [h1 j (by omega)] at hs; cases hs
    · intro j key t hj ht
      simp only at ht
      by_cases hl : j < asks.length
      · rw [List.getElem?_append_left hl] at hj
        rw [List.getElem?_append_left (by omega)] at ht
        exact h3 j key t hj ht
      · have : j = asks.length := by
          have := (List.getElem?_eq_some_iff.1 hj).1
          simp at this
          omega
        subst this
        rw [List.getElem?_append_right (Nat.le_refl _)] at hj
        rw [hlen, List.getElem?_append_right (Nat.le_refl _)] at ht
        simp only [Nat.sub_self, List.getElem?_cons_zero, Option.some.injEq] at hj ht
        subst hj ht
        rw [h1 _ (Nat.le_refl _)]
        exact calm_fetch hW ho w sh
  | @step asks c i hc ih =>
    obtain ⟨held, h1, h2, h3, h4, h5⟩ := ih hA
    obtain ⟨hfit, hlen, -⟩ := atWork_safe hW hc
    unfold Crew.step
    cases ht : c.threads[i]? with
    | none => exact ⟨held, h1, h2, h3, h4, h5⟩
    | some t =>
      have hi := (List.getElem?_eq_some_iff.1 ht).1
      obtain ⟨key, hk⟩ : ∃ key, asks[i]? = some key := ⟨asks[i], List.getElem?_eq_getElem (by omega)⟩
      have hcalm := h3 i key t hk ht
      have hother : ∀ (j : Nat) key' t' x, i ≠ j → asks[j]? = some key' → (c.threads.set i x)[j]? = some t' → Calm W key' (held j) t' := by
        intro j key' t' x e hj ht'
        rw [List.getElem?_set_ne e] at ht'
        exact h3 j key' t' hj ht'
      -- what is stored and what this thread does afterwards suffice when it opens nothing
      have hsame : ∀ (S' : SharedFactory) (t' : Todo), (∀ d sh x, dget (S'.inner d) sh = some x → ∃ j, held j = some x) → S'.closed = [] → Calm W key (held i) t' →
          ∃ held : Nat → Option SheetObj, (∀ j, asks.length ≤ j → held j = none) ∧
            (∀ (j : Nat) key s, asks[j]? = some key → held j = some s → Fits W key s) ∧
            (∀ (j : Nat) key t, asks[j]? = some key → (c.threads.set i t')[j]? = some t → Calm W key (held j) t) ∧
            (∀ d sh t, dget (S'.inner d) sh = some t → ∃ j, held j = some t) ∧ S'.closed = [] := by
        intro S' t' g1 g2 g3
        refine ⟨held, h1, h2, ?_, g1, g2⟩
        intro j key' t'' hj ht''
        by_cases e : i = j
        · subst e
          rw [List.getElem?_set_self hi] at ht''
          cases ht''
          rw [hk] at hj
          cases hj
          exact g3
        · exact hother j key' t'' _ e hj ht''
      cases t with
      | done r => exact hsame _ _ h4 h5 hcalm
      | outerGet w k =>
        refine hsame _ _ h4 h5 ?_
        simp only [Todo.step]
        cases dget c.shared.outer w with
        | none => exact hcalm.1
        | some n => exact hcalm.2 n
      | outerNew w k => exact hsame _ _ h4 h5 (hcalm _)
      | innerGet d sh k =>
        refine hsame _ _ h4 h5 (hcalm.2 _ (fun x hx => ?_))
        obtain ⟨j, hj⟩ := h4 d sh x hx
        obtain ⟨url, n, f1, f2⟩ := hfit d sh x hx
        have hjl : j < asks.length := Nat.lt_of_not_le (fun hle => by rw [h1 j hle] at hj; cases hj)
        obtain ⟨url', n', f1', f2'⟩ := h2 j asks[j] x (List.getElem?_eq_getElem hjl) hj
        obtain ⟨rfl, rfl⟩ := isSheet_unique f2 f2'
        have := hA i j key asks[j] (url, n) hk (List.getElem?_eq_getElem hjl) (by rw [← hcalm.1]; exact f1) f1'
        rw [this]; exact hj
      | innerPut d sh s k =>
        refine hsame _ _ ?_ h5 hcalm.2.2
        intro d' sh' x hx
        simp only [Todo.step] at hx
        by_cases hd : d' = d
        · subst hd
          rw [if_pos rfl, dget_dset] at hx
          split at hx
          · cases hx
            exact ⟨i, hcalm.1⟩
          · exact h4 _ _ _ hx
        · rw [if_neg hd] at hx
          exact h4 _ _ _ hx
      | openBook w sh k =>
        obtain ⟨g1, g2, g3⟩ := hcalm
        simp only [Todo.step]
        cases ho : W.opener c.shared.opened w sh with
        | error e =>
          refine hsame _ _ h4 h5 ?_
          rw [g1]
          exact (g3 _).1 e ho
        | ok s =>
          obtain ⟨held', e1, e2⟩ : ∃ held' : Nat → Option SheetObj, held' i = some s ∧ ∀ j, j ≠ i → held' j = held j :=
            ⟨fun j => if j = i then some s else held j, by simp, fun j h => by simp [h]⟩
          refine ⟨held', ?_, ?_, ?_, ?_, h5⟩
          · intro j hj
            rw [e2 j (by omega)]
            exact h1 j hj
          · intro j key' s' hj hs'
            by_cases e : j = i
            · subst e
              rw [e1] at hs'
              cases hs'
              rw [hk] at hj
              cases hj
              rcases opener_fits hW c.shared.opened w sh with ⟨e, o1, -⟩ | ⟨s', o1, -, o2, -⟩
              · rw [o1] at ho; cases ho
              · rw [o1] at ho; cases ho; rw [← g2]; exact o2
            · rw [e2 j e] at hs'
              exact h2 j key' s' hj hs'
          · intro j key' t' hj ht'
            by_cases e : i = j
            · subst e
              rw [List.getElem?_set_self hi] at ht'
              cases ht'
              rw [hk] at hj
              cases hj
              rw [e1]
              exact (g3 _).2 s ho
            · rw [e2 j (fun h => e h.symm)]
              exact hother j key' t' _ e hj ht'
          · intro d sh' x hx
            obtain ⟨j, hj⟩ := h4 d sh' x hx
            refine ⟨j, ?_⟩
            rw [e2 j]
            · exact hj
            · rintro rfl
              rw [g1] at hj
              cases hj
      | outerIter k => exact hcalm.elim
      | outerNext a b k => exact hcalm.elim
      | innerItems d k => exact hcalm.elim
      | innerDel d sh k => exact hcalm.elim
      | close s k => exact hcalm.elim

end

end Lemmas
