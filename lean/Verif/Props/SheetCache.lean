import Verif.Spec.SheetCache
import Verif.Props.Sheet
/-
C95: asking a sheet many times.
-/
namespace Props
open Py Model Spec

theorem boxOf_margins (m : Mat) : BoxOf m (marginCoords m).1 (marginCoords m).2 where
  bound := C38_margins_bound m
  attained := C38_margins_attained m
  empty h := by rw [C38_all_empty m h]; exact ⟨rfl, rfl⟩

private theorem keeps_states (o : CachedSheet) (m : Mat) (h : o.states = some m) (e : SheetEvent) : (o.step e).1.states = some m := by
  cases e with
  | states => simp [CachedSheet.step, CachedSheet.getStates, h]
  | change s => exact h
  | margins =>
    simp only [CachedSheet.step, CachedSheet.getMargins, CachedSheet.getStates, h]
    split
    · exact h
    · split <;> first | exact h | rfl

private theorem keeps_margins (o : CachedSheet) (b : Coords × Coords) (h : o.margins = some b) (e : SheetEvent) :
    (o.step e).1.margins = some b := by
  cases e with
  | states =>
    simp only [CachedSheet.step, CachedSheet.getStates]
    split
    · exact h
    · split <;> exact h
  | change s => exact h
  | margins => simp [CachedSheet.step, CachedSheet.getMargins, h]

private theorem run_states (m : Mat) (es : List SheetEvent) : ∀ o : CachedSheet, o.states = some m → ∀ (i : Nat) r,
    (o.run es)[i]? = some (.states r) → r = .ok m := by
  induction es with
  | nil => intro o _ i r hi; simp [CachedSheet.run] at hi
  | cons e es ih =>
    intro o h i r hi
    cases i with
    | zero =>
      simp only [CachedSheet.run, List.getElem?_cons_zero, Option.some.injEq] at hi
      cases e <;> simp [CachedSheet.step, CachedSheet.getStates, h] at hi
      exact hi.symm
    | succ i => exact ih _ (keeps_states o m h e) i r hi

private theorem run_margins (b : Coords × Coords) (es : List SheetEvent) : ∀ o : CachedSheet, o.margins = some b → ∀ (i : Nat) r,
    (o.run es)[i]? = some (.margins r) → r = .ok b := by
  induction es with
  | nil => intro o _ i r hi; simp [CachedSheet.run] at hi
  | cons e es ih =>
    intro o h i r hi
    cases i with
    | zero =>
      simp only [CachedSheet.run, List.getElem?_cons_zero, Option.some.injEq] at hi
      cases e <;> simp [CachedSheet.step, CachedSheet.getMargins, h] at hi
      exact hi.symm
    | succ i => exact ih _ (keeps_margins o b h e) i r hi

private theorem states_cached (o : CachedSheet) (m : Mat) (h : o.getStates.2 = .ok m) : o.getStates.1.states = some m := by
  unfold CachedSheet.getStates at h ⊢
  cases hs : o.states with
  | some m' => rw [hs] at h; cases h; simpa using hs
  | none =>
    rw [hs] at h
    cases hq : o.src.states with
    | error e => rw [hq] at h; cases h
    | ok m' => rw [hq] at h; cases h; rfl

private theorem margins_cached (o : CachedSheet) (b : Coords × Coords) (h : o.getMargins.2 = .ok b) : o.getMargins.1.margins = some b := by
  unfold CachedSheet.getMargins at h ⊢
  cases hs : o.margins with
  | some m' => rw [hs] at h; cases h; simpa using hs
  | none =>
    rw [hs] at h
    cases hq : o.src.reported with
    | error e => rw [hq] at h; cases h
    | ok p =>
      obtain ⟨up, dn⟩ := p
      rw [hq] at h
      cases hm : o.getStates.2 with
      | error e => cases up <;> cases dn <;> simp [hm] at h ⊢ <;> exact h
      | ok m => cases up <;> cases dn <;> simp [hm] at h ⊢ <;> exact h

/-- C95. All successful answers about states are the same, and once one was given there is no failure. -/
theorem C95_states_same (s : SheetContents) (es : List SheetEvent) (i j : Nat) (hij : i ≤ j) (m : Mat) (r : Except PyErr Mat)
    (hi : (CachedSheet.run ⟨s, none, none⟩ es)[i]? = some (.states (.ok m)))
    (hj : (CachedSheet.run ⟨s, none, none⟩ es)[j]? = some (.states r)) : r = .ok m := by
  generalize (⟨s, none, none⟩ : CachedSheet) = o at hi hj
  induction es generalizing o i j with
  | nil => simp [CachedSheet.run] at hi
  | cons e es ih =>
    cases i with
    | succ i =>
      cases j with
      | zero => omega
      | succ j => exact ih i j (by omega) _ hi hj
    | zero =>
      simp only [CachedSheet.run, List.getElem?_cons_zero, Option.some.injEq] at hi
      cases e with
      | margins => cases hi
      | change s => cases hi
      | states =>
        have h1 : o.getStates.2 = .ok m := by injection hi
        cases j with
        | zero =>
          simp only [CachedSheet.run, List.getElem?_cons_zero, Option.some.injEq, CachedSheet.step] at hj
          injection hj with hj; rw [← hj, h1]
        | succ j => exact run_states m es _ (states_cached o m h1) j r hj

/-- C95. All successful answers about margins are the same, and once one was given there is no failure. -/
theorem C95_margins_same (s : SheetContents) (es : List SheetEvent) (i j : Nat) (hij : i ≤ j) (b : Coords × Coords)
    (r : Except PyErr (Coords × Coords))
    (hi : (CachedSheet.run ⟨s, none, none⟩ es)[i]? = some (.margins (.ok b)))
    (hj : (CachedSheet.run ⟨s, none, none⟩ es)[j]? = some (.margins r)) : r = .ok b := by
  generalize (⟨s, none, none⟩ : CachedSheet) = o at hi hj
  induction es generalizing o i j with
  | nil => simp [CachedSheet.run] at hi
  | cons e es ih =>
    cases i with
    | succ i =>
      cases j with
      | zero => omega
      | succ j => exact ih i j (by omega) _ hi hj
    | zero =>
      simp only [CachedSheet.run, List.getElem?_cons_zero, Option.some.injEq] at hi
      cases e with
      | states => cases hi
      | change s => cases hi
      | margins =>
        have h1 : o.getMargins.2 = .ok b := by injection hi
        cases j with
        | zero =>
          simp only [CachedSheet.run, List.getElem?_cons_zero, Option.some.injEq, CachedSheet.step] at hj
          injection hj with hj; rw [← hj, h1]
        | succ j => exact run_margins b es _ (margins_cached o b h1) j r hj

/-- The cache holds what the source had at some time. -/
private structure Past (past : SheetContents → Prop) (o : CachedSheet) : Prop where
  now : past o.src
  states : ∀ m, o.states = some m → ∃ s, past s ∧ s.states = .ok m
  margins : ∀ up dn, o.margins = some (up, dn) → ∃ s rep, past s ∧ s.reported = .ok rep ∧
    ((rep.1 = some up ∧ rep.2 = some dn) ∨ ∃ s' m, past s' ∧ s'.states = .ok m ∧ MarginsOf rep m up dn)

private theorem past_states (past : SheetContents → Prop) (o : CachedSheet) (h : Past past o) :
    Past past o.getStates.1 ∧ (∀ m, o.getStates.2 = .ok m → ∃ s, past s ∧ s.states = .ok m) ∧
    (∀ e, o.getStates.2 = .error e → o.src.states = .error e) ∧ o.getStates.1.src = o.src ∧ o.getStates.1.margins = o.margins := by
  unfold CachedSheet.getStates
  cases hs : o.states with
  | some m =>
    refine ⟨h, ?_, by simp, rfl, rfl⟩
    intro m' e; cases e; exact h.states m hs
  | none =>
    cases hq : o.src.states with
    | error e => exact ⟨h, by simp, by simp, rfl, rfl⟩
    | ok m =>
      refine ⟨⟨h.now, ?_, h.margins⟩, ?_, by simp, rfl, rfl⟩
      · intro m' e; cases e; exact ⟨_, h.now, hq⟩
      · intro m' e; cases e; exact ⟨_, h.now, hq⟩

private theorem past_margins (past : SheetContents → Prop) (o : CachedSheet) (h : Past past o) :
    Past past o.getMargins.1 ∧ (∀ up dn, o.getMargins.2 = .ok (up, dn) → ∃ s rep, past s ∧ s.reported = .ok rep ∧
    ((rep.1 = some up ∧ rep.2 = some dn) ∨ ∃ s' m, past s' ∧ s'.states = .ok m ∧ MarginsOf rep m up dn)) ∧
    (∀ e, o.getMargins.2 = .error e → o.src.reported = .error e ∨ o.src.states = .error e) ∧ o.getMargins.1.src = o.src := by
  obtain ⟨g1, g2, g3, g4, g5⟩ := past_states past o h
  have key : ∀ rep : Option Coords × Option Coords, o.src.reported = .ok rep → (∀ up dn, rep ≠ (some up, some dn)) → o.margins = none →
      o.getMargins = match o.getStates.2 with
      | .error e => (o.getStates.1, .error e)
      | .ok m => ({ o.getStates.1 with margins := some (rep.1.getD (marginCoords m).1, rep.2.getD (marginCoords m).2) },
          .ok (rep.1.getD (marginCoords m).1, rep.2.getD (marginCoords m).2)) := by
    rintro ⟨up, dn⟩ hr hne hm
    unfold CachedSheet.getMargins
    rw [hm, hr]
    cases up <;> cases dn <;> first | rfl | exact absurd rfl (hne _ _)
  cases hm : o.margins with
  | some b =>
    obtain ⟨up, dn⟩ := b
    have e : o.getMargins = (o, .ok (up, dn)) := by unfold CachedSheet.getMargins; rw [hm]
    rw [e]
    refine ⟨h, ?_, by simp, rfl⟩
    intro up' dn' e'; cases e'; exact h.margins up dn hm
  | none =>
    cases hr : o.src.reported with
    | error e =>
      have e' : o.getMargins = (o, .error e) := by unfold CachedSheet.getMargins; rw [hm, hr]
      rw [e']
      exact ⟨h, by simp, by simp, rfl⟩
    | ok rep =>
      by_cases hb : ∃ up dn, rep = (some up, some dn)
      · obtain ⟨up, dn, rfl⟩ := hb
        have e' : o.getMargins = ({ o with margins := some (up, dn) }, .ok (up, dn)) := by
          unfold CachedSheet.getMargins; rw [hm, hr]
        rw [e']
        have w : ∀ up' dn', (up, dn) = (up', dn') → ∃ s rep, past s ∧ s.reported = .ok rep ∧
            ((rep.1 = some up' ∧ rep.2 = some dn') ∨ ∃ s' m, past s' ∧ s'.states = .ok m ∧ MarginsOf rep m up' dn') := by
          rintro up' dn' e; cases e; exact ⟨_, _, h.now, hr, .inl ⟨rfl, rfl⟩⟩
        refine ⟨⟨h.now, h.states, ?_⟩, ?_, by simp, rfl⟩
        · intro up' dn' e; exact w up' dn' (by injection e)
        · intro up' dn' e; exact w up' dn' (by injection e)
      · have hb' : ∀ up dn, rep ≠ (some up, some dn) := fun up dn e => hb ⟨up, dn, e⟩
        rw [key rep hr hb' hm]
        cases hs : o.getStates.2 with
        | error e =>
          refine ⟨g1, by simp, ?_, g4⟩
          intro e' he'; cases he'; exact .inr (g3 _ hs)
        | ok m =>
          obtain ⟨s', p1, p2⟩ := g2 m hs
          have w : ∀ up' dn', (rep.1.getD (marginCoords m).1, rep.2.getD (marginCoords m).2) = (up', dn') →
              ∃ s rep, past s ∧ s.reported = .ok rep ∧
              ((rep.1 = some up' ∧ rep.2 = some dn') ∨ ∃ s' m, past s' ∧ s'.states = .ok m ∧ MarginsOf rep m up' dn') := by
            rintro up' dn' e; cases e
            exact ⟨_, _, h.now, hr, .inr ⟨s', m, p1, p2, _, _, boxOf_margins m, rfl, rfl⟩⟩
          refine ⟨⟨by simpa [g4] using h.now, g1.states, ?_⟩, ?_, by simp, g4⟩
          · intro up' dn' e; exact w up' dn' (by injection e)
          · intro up' dn' e; exact w up' dn' (by injection e)

private theorem past_mono {past past' : SheetContents → Prop} {o : CachedSheet} (h : Past past o) (hp : ∀ s, past s → past' s) : Past past' o := by
  refine ⟨hp _ h.now, ?_, ?_⟩
  · intro m hm; obtain ⟨s, h1, h2⟩ := h.states m hm; exact ⟨s, hp s h1, h2⟩
  · intro up dn hm
    obtain ⟨s, rep, h1, h2, h3⟩ := h.margins up dn hm
    refine ⟨s, rep, hp s h1, h2, h3.imp id ?_⟩
    rintro ⟨s', m, a, b⟩; exact ⟨s', m, hp s' a, b⟩

private theorem step_src (past : SheetContents → Prop) (o : CachedSheet) (h : Past past o) (e : SheetEvent) (es : List SheetEvent) (n : Nat) :
    contentsAt o.src (e :: es) (n + 1) = contentsAt (o.step e).1.src es n := by
  cases e with
  | states => simp only [contentsAt, CachedSheet.step, (past_states past o h).2.2.2.1]
  | margins => simp only [contentsAt, CachedSheet.step, (past_margins past o h).2.2.2]
  | change s => rfl

private theorem run_past (es : List SheetEvent) : ∀ (past : SheetContents → Prop) (o : CachedSheet), Past past o → ∀ i : Nat,
    (∀ r, (o.run es)[i]? = some (.states r) →
      (∀ e, r = .error e → (contentsAt o.src es i).states = .error e) ∧
      (∀ m, r = .ok m → ∃ s, (past s ∨ ∃ j ≤ i, s = contentsAt o.src es j) ∧ s.states = .ok m)) ∧
    (∀ r, (o.run es)[i]? = some (.margins r) →
      (∀ e, r = .error e → (contentsAt o.src es i).reported = .error e ∨ (contentsAt o.src es i).states = .error e) ∧
      (∀ up dn, r = .ok (up, dn) → ∃ s rep, (past s ∨ ∃ j ≤ i, s = contentsAt o.src es j) ∧ s.reported = .ok rep ∧
        ((rep.1 = some up ∧ rep.2 = some dn) ∨
         ∃ s' m, (past s' ∨ ∃ j ≤ i, s' = contentsAt o.src es j) ∧ s'.states = .ok m ∧ MarginsOf rep m up dn))) := by
  induction es with
  | nil => intro past o h i; simp [CachedSheet.run]
  | cons e es ih =>
    intro past o h i
    obtain ⟨a1, a2, a3, a4, _⟩ := past_states past o h
    obtain ⟨b1, b2, b3, b4⟩ := past_margins past o h
    cases i with
    | zero =>
      have hz : contentsAt o.src (e :: es) 0 = o.src := rfl
      simp only [CachedSheet.run, List.getElem?_cons_zero, Option.some.injEq, hz]
      cases e with
      | change s => constructor <;> (intro r hr; cases hr)
      | states =>
        refine ⟨?_, by intro r hr; cases hr⟩
        intro r hr
        have hr : o.getStates.2 = r := by injection hr
        subst hr
        refine ⟨a3, ?_⟩
        intro m hm
        obtain ⟨s, p, q⟩ := a2 m hm
        exact ⟨s, .inl p, q⟩
      | margins =>
        refine ⟨(by intro r hr; cases hr), ?_⟩
        intro r hr
        have hr : o.getMargins.2 = r := by injection hr
        subst hr
        refine ⟨b3, ?_⟩
        intro up dn hm
        obtain ⟨s, rep, p, q, t⟩ := b2 up dn hm
        refine ⟨s, rep, .inl p, q, t.imp id ?_⟩
        rintro ⟨s', m, x, y⟩; exact ⟨s', m, .inl x, y⟩
    | succ i =>
      have hp : Past (fun s => past s ∨ s = (o.step e).1.src) (o.step e).1 := by
        cases e with
        | states => exact past_mono a1 (fun s hs => .inl hs)
        | margins => exact past_mono b1 (fun s hs => .inl hs)
        | change s =>
          have := past_mono (past' := fun x => past x ∨ x = s) h (fun s hs => .inl hs)
          exact ⟨.inr rfl, this.states, this.margins⟩
      have hs : ∀ n, contentsAt o.src (e :: es) (n + 1) = contentsAt (o.step e).1.src es n := step_src past o h e es
      have conv : ∀ s, ((past s ∨ s = (o.step e).1.src) ∨ ∃ j ≤ i, s = contentsAt (o.step e).1.src es j) →
          (past s ∨ ∃ j ≤ i + 1, s = contentsAt o.src (e :: es) j) := by
        rintro s ((p | p) | ⟨j, hj, p⟩)
        · exact .inl p
        · refine .inr ⟨1, by omega, ?_⟩
          rw [p, hs 0]; cases es <;> rfl
        · exact .inr ⟨j + 1, by omega, by rw [p, hs j]⟩
      obtain ⟨c1, c2⟩ := ih _ _ hp i
      simp only [CachedSheet.run, List.getElem?_cons_succ, hs i]
      constructor
      · intro r hr
        obtain ⟨d1, d2⟩ := c1 r hr
        refine ⟨d1, ?_⟩
        intro m hm
        obtain ⟨s, p, q⟩ := d2 m hm
        exact ⟨s, conv s p, q⟩
      · intro r hr
        obtain ⟨d1, d2⟩ := c2 r hr
        refine ⟨d1, ?_⟩
        intro up dn hm
        obtain ⟨s, rep, p, q, t⟩ := d2 up dn hm
        refine ⟨s, rep, conv s p, q, t.imp id ?_⟩
        rintro ⟨s', m, x, y⟩; exact ⟨s', m, conv s' x, y⟩

private theorem start_past (s : SheetContents) : Past (fun x => x = s) ⟨s, none, none⟩ := ⟨rfl, by simp, by simp⟩

private theorem zero_or (s : SheetContents) (es : List SheetEvent) (i : Nat) (x : SheetContents)
    (h : x = s ∨ ∃ j ≤ i, x = contentsAt s es j) : ∃ j ≤ i, x = contentsAt s es j := by
  rcases h with rfl | h
  · exact ⟨0, by omega, by cases es <;> rfl⟩
  · exact h

/-- C95. An answer about states is what the sheet had at some time until then; a failure is one of now. -/
theorem C95_states_true (s : SheetContents) (es : List SheetEvent) (i : Nat) (r : Except PyErr Mat)
    (h : (CachedSheet.run ⟨s, none, none⟩ es)[i]? = some (.states r)) :
    (∀ e, r = .error e → (contentsAt s es i).states = .error e) ∧
    (∀ m, r = .ok m → ∃ j ≤ i, (contentsAt s es j).states = .ok m) := by
  obtain ⟨h1, h2⟩ := (run_past es _ _ (start_past s) i).1 r h
  refine ⟨h1, ?_⟩
  intro m hm
  obtain ⟨x, hx, hq⟩ := h2 m hm
  obtain ⟨j, hj, rfl⟩ := zero_or s es i x hx
  exact ⟨j, hj, hq⟩

/-- C95. An answer about margins has the reported ones of some time until then, and the others from the full
cells of some time until then; a failure is one of now. -/
theorem C95_margins_true (s : SheetContents) (es : List SheetEvent) (i : Nat) (r : Except PyErr (Coords × Coords))
    (h : (CachedSheet.run ⟨s, none, none⟩ es)[i]? = some (.margins r)) :
    (∀ e, r = .error e → (contentsAt s es i).reported = .error e ∨ (contentsAt s es i).states = .error e) ∧
    (∀ up dn, r = .ok (up, dn) → ∃ j ≤ i, ∃ rep, (contentsAt s es j).reported = .ok rep ∧
      ((rep.1 = some up ∧ rep.2 = some dn) ∨
        ∃ k ≤ i, ∃ m, (contentsAt s es k).states = .ok m ∧ MarginsOf rep m up dn)) := by
  obtain ⟨h1, h2⟩ := (run_past es _ _ (start_past s) i).2 r h
  refine ⟨h1, ?_⟩
  intro up dn hm
  obtain ⟨x, rep, hx, hq, ht⟩ := h2 up dn hm
  obtain ⟨j, hj, rfl⟩ := zero_or s es i x hx
  refine ⟨j, hj, rep, hq, ht.imp id ?_⟩
  rintro ⟨y, m, hy, p⟩
  obtain ⟨k, hk, rfl⟩ := zero_or s es i y hy
  exact ⟨k, hk, m, p⟩

private theorem contents_fixed (s : SheetContents) (es : List SheetEvent) (hn : ∀ s', SheetEvent.change s' ∉ es) (i : Nat) :
    contentsAt s es i = s := by
  induction es generalizing i with
  | nil => cases i <;> rfl
  | cons e es ih =>
    have hn' : ∀ s', SheetEvent.change s' ∉ es := fun s' h => hn s' (by simp [h])
    cases i with
    | zero => rfl
    | succ i =>
      cases e with
      | change s' => exact absurd (by simp) (hn s')
      | states => exact ih hn' i
      | margins => exact ih hn' i

/-- C95. As long as a sheet does not change, however often it was asked for whatever, its answers are what it
has. -/
theorem C95_unchanged (s : SheetContents) (es : List SheetEvent) (hn : ∀ s', SheetEvent.change s' ∉ es) (i : Nat) :
    (∀ r, (CachedSheet.run ⟨s, none, none⟩ es)[i]? = some (.states r) → r = s.states) ∧
    (∀ r, (CachedSheet.run ⟨s, none, none⟩ es)[i]? = some (.margins r) →
      (∀ e, r = .error e → s.reported = .error e ∨ s.states = .error e) ∧
      (∀ up dn, r = .ok (up, dn) → ∃ rep, s.reported = .ok rep ∧
        ((rep.1 = some up ∧ rep.2 = some dn) ∨ ∃ m, s.states = .ok m ∧ MarginsOf rep m up dn))) := by
  have hc := contents_fixed s es hn
  constructor
  · intro r hr
    obtain ⟨h1, h2⟩ := C95_states_true s es i r hr
    cases r with
    | error e => rw [← h1 e rfl, hc]
    | ok m => obtain ⟨j, _, h⟩ := h2 m rfl; rw [← h, hc]
  · intro r hr
    obtain ⟨h1, h2⟩ := C95_margins_true s es i r hr
    refine ⟨?_, ?_⟩
    · intro e he; have := h1 e he; rwa [hc] at this
    · intro up dn hq
      obtain ⟨j, _, rep, h3, h4⟩ := h2 up dn hq
      rw [hc] at h3
      refine ⟨rep, h3, h4.imp id ?_⟩
      rintro ⟨k, _, m, h5, h6⟩
      rw [hc] at h5
      exact ⟨m, h5, h6⟩

/-- The cached margins are those of the cached states. -/
private structure Fits (o : CachedSheet) (es : List SheetEvent) : Prop where
  now : o.src.reported = .ok (none, none)
  later : ∀ s, SheetEvent.change s ∈ es → s.reported = .ok (none, none)
  fits : ∀ b, o.margins = some b → ∃ m, o.states = some m ∧ BoxOf m b.1 b.2

private theorem margins_of_fits {o : CachedSheet} {es : List SheetEvent} (h : Fits o es) (b : Coords × Coords)
    (hb : o.getMargins.2 = .ok b) : ∃ m, o.getMargins.1.states = some m ∧ BoxOf m b.1 b.2 := by
  cases hm : o.margins with
  | some b' =>
    have e : o.getMargins = (o, .ok b') := by unfold CachedSheet.getMargins; rw [hm]
    rw [e] at hb ⊢
    cases hb
    exact h.fits _ hm
  | none =>
    unfold CachedSheet.getMargins at hb ⊢
    simp only [hm, h.now] at hb ⊢
    cases hs : o.getStates.2 with
    | error e => simp [hs] at hb
    | ok m =>
      simp only [hs] at hb ⊢
      cases hb
      exact ⟨m, states_cached o m hs, boxOf_margins m⟩

private theorem fits_step {o : CachedSheet} {e : SheetEvent} {es : List SheetEvent} (h : Fits o (e :: es)) : Fits (o.step e).1 es := by
  have hl : ∀ s, SheetEvent.change s ∈ es → s.reported = .ok (none, none) := fun s hs => h.later s (by simp [hs])
  have hp := start_past o.src
  cases e with
  | change s => exact ⟨h.later s (by simp), hl, h.fits⟩
  | states =>
    have e1 : o.getStates.1.src = o.src ∧ o.getStates.1.margins = o.margins := by
      unfold CachedSheet.getStates
      split
      · exact ⟨rfl, rfl⟩
      · split <;> exact ⟨rfl, rfl⟩
    refine ⟨by simp only [CachedSheet.step, e1.1, h.now], hl, ?_⟩
    intro b hb
    simp only [CachedSheet.step, e1.2] at hb
    obtain ⟨m, h1, h2⟩ := h.fits b hb
    exact ⟨m, keeps_states o m h1 .states, h2⟩
  | margins =>
    cases hr : o.getMargins.2 with
    | ok b =>
      obtain ⟨m, h1, h2⟩ := margins_of_fits h b hr
      have h3 := margins_cached o b hr
      refine ⟨?_, hl, ?_⟩
      · simp only [CachedSheet.step]
        have : o.getMargins.1.src = o.src := src_margins o
        rw [this, h.now]
      · intro b' hb'
        simp only [CachedSheet.step] at hb' ⊢
        rw [h3] at hb'
        cases hb'
        exact ⟨m, h1, h2⟩
    | error e =>
      refine ⟨?_, hl, ?_⟩
      · simp only [CachedSheet.step]; rw [src_margins o, h.now]
      · intro b hb
        simp only [CachedSheet.step] at hb ⊢
        have hn : o.margins = none := by
          cases hm : o.margins with
          | none => rfl
          | some b' =>
            have e' : o.getMargins = (o, .ok b') := by unfold CachedSheet.getMargins; rw [hm]
            rw [e'] at hr; cases hr
        have : o.getMargins.1.margins = none := by
          unfold CachedSheet.getMargins at hr ⊢
          simp only [hn, h.now] at hr ⊢
          cases hs : o.getStates.2 with
          | ok m => simp [hs] at hr
          | error e =>
            simp only []
            unfold CachedSheet.getStates
            split
            · exact hn
            · split <;> exact hn
        rw [this] at hb; cases hb
where
  src_margins (o : CachedSheet) : o.getMargins.1.src = o.src := by
    have e1 : o.getStates.1.src = o.src := by
      unfold CachedSheet.getStates
      split
      · rfl
      · split <;> rfl
    unfold CachedSheet.getMargins
    split
    · rfl
    · split
      · rfl
      · rfl
      · cases hs : o.getStates.2 <;> simp only [hs, e1]

private theorem later_margins (m : Mat) (es : List SheetEvent) : ∀ o : CachedSheet, Fits o es → o.states = some m → ∀ (i : Nat) b,
    (o.run es)[i]? = some (.margins (.ok b)) → BoxOf m b.1 b.2 := by
  induction es with
  | nil => intro o _ _ i b hi; simp [CachedSheet.run] at hi
  | cons e es ih =>
    intro o h hs i b hi
    cases i with
    | succ i => exact ih _ (fits_step h) (keeps_states o m hs e) i b hi
    | zero =>
      simp only [CachedSheet.run, List.getElem?_cons_zero, Option.some.injEq] at hi
      cases e with
      | states => cases hi
      | change s => cases hi
      | margins =>
        have h1 : o.getMargins.2 = .ok b := by injection hi
        obtain ⟨m', h2, h3⟩ := margins_of_fits h b h1
        have h4 := keeps_states o m hs .margins
        simp only [CachedSheet.step] at h4
        rw [h4] at h2; cases h2
        exact h3

/-- C95. When a backend reports no margins, as array sheets do not, the margins answered are those of the states
answered, whichever was asked first and whatever changed in between. -/
theorem C95_margins_fit (s : SheetContents) (es : List SheetEvent) (i j : Nat) (hs : s.reported = .ok (none, none))
    (hc : ∀ s', SheetEvent.change s' ∈ es → s'.reported = .ok (none, none)) (m : Mat) (b : Coords × Coords)
    (hi : (CachedSheet.run ⟨s, none, none⟩ es)[i]? = some (.states (.ok m)))
    (hj : (CachedSheet.run ⟨s, none, none⟩ es)[j]? = some (.margins (.ok b))) : BoxOf m b.1 b.2 := by
  have hf : Fits ⟨s, none, none⟩ es := ⟨hs, hc, by simp⟩
  generalize (⟨s, none, none⟩ : CachedSheet) = o at hi hj hf
  clear hc
  induction es generalizing o i j with
  | nil => simp [CachedSheet.run] at hi
  | cons e es ih =>
    cases i with
    | zero =>
      cases j with
      | zero => rw [hi] at hj; cases hj
      | succ j =>
        simp only [CachedSheet.run, List.getElem?_cons_zero, Option.some.injEq] at hi
        cases e with
        | margins => cases hi
        | change s => cases hi
        | states =>
          have h1 : o.getStates.2 = .ok m := by injection hi
          exact later_margins m es _ (fits_step hf) (states_cached o m h1) j b hj
    | succ i =>
      cases j with
      | succ j => exact ih i j _ hi hj (fits_step hf)
      | zero =>
        simp only [CachedSheet.run, List.getElem?_cons_zero, Option.some.injEq] at hj
        cases e with
        | states => cases hj
        | change s => cases hj
        | margins =>
          have h1 : o.getMargins.2 = .ok b := by injection hj
          obtain ⟨m', h2, h3⟩ := margins_of_fits hf b h1
          have := run_states m' es _ h2 i _ hi
          cases this
          exact h3

/-- Two array sheets: an empty one, and one with a full cell. -/
private def noCells : SheetContents := ⟨.error .emptyCapture, .ok (none, none)⟩
private def oneCell : SheetContents := ⟨.ok ⟨1, 1, fun _ _ => true⟩, .ok (none, none)⟩
private def otherCells : SheetContents := ⟨.ok ⟨2, 3, fun _ _ => true⟩, .ok (none, none)⟩

/-- A failure is asked again; a change after a success is not seen. -/
example : CachedSheet.run ⟨noCells, none, none⟩ [.states, .change oneCell, .margins, .states, .change otherCells, .states, .margins] =
    [.states (.error .emptyCapture), .changed, .margins (.ok (⟨0, 0⟩, ⟨0, 0⟩)), .states (.ok ⟨1, 1, fun _ _ => true⟩), .changed,
     .states (.ok ⟨1, 1, fun _ _ => true⟩), .margins (.ok (⟨0, 0⟩, ⟨0, 0⟩))] := rfl

end Props
