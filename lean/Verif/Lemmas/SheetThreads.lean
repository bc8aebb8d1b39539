import Verif.Spec.SheetThreads
namespace Lemmas
open Py Model Spec

/-- What contents there are: the states and failures that may be read, the margins that may be reported, and the margins that may be answered. -/
structure Rules where
  state : Mat → Prop
  stateErr : PyErr → Prop
  report : Option Coords × Option Coords → Prop
  reportErr : PyErr → Prop
  margin : Coords × Coords → Prop
  marginErr : PyErr → Prop
  both : ∀ up dn, report (some up, some dn) → margin (up, dn)
  some : ∀ up dn m, report (up, dn) → state m → margin (up.getD (marginCoords m).1, dn.getD (marginCoords m).2)
  noReport : ∀ e, reportErr e → marginErr e
  noState : ∀ up dn e, report (up, dn) → (up = none ∨ dn = none) → stateErr e → marginErr e

/-- The contents follow the rules. -/
structure Rules.Fits (P : Rules) (s : SheetContents) : Prop where
  state : ∀ m, s.states = .ok m → P.state m
  stateErr : ∀ e, s.states = .error e → P.stateErr e
  report : ∀ r, s.reported = .ok r → P.report r
  reportErr : ∀ e, s.reported = .error e → P.reportErr e

/-- So does an answer. -/
def Rules.Answer (P : Rules) : SheetAnswer → Prop
  | .states (.ok m) => P.state m
  | .states (.error e) => P.stateErr e
  | .margins (.ok b) => P.margin b
  | .margins (.error e) => P.marginErr e
  | .changed => False

/-- Whether the answer is to the question. -/
def fitsQuestion : Question → SheetAnswer → Prop
  | .states, .states _ => True
  | .margins, .margins _ => True
  | _, _ => False

/-- What is left to do leads to good answers, given what is known to be remembered already. -/
def GoodAsking (P : Rules) (q : Question) : Bool → Bool → Asking → Prop
  | _, _, .done a => P.Answer a ∧ fitsQuestion q a
  | ks, km, .loadStates k => (∀ m, P.state m → GoodAsking P q true km (k (some m))) ∧ (ks = false → GoodAsking P q ks km (k none))
  | ks, km, .readStates k => (∀ m, P.state m → GoodAsking P q ks km (k (.ok m))) ∧ (∀ e, P.stateErr e → GoodAsking P q ks km (k (.error e)))
  | _, km, .storeStates m k => P.state m ∧ GoodAsking P q true km k
  | ks, km, .loadMargins k => (∀ b, P.margin b → GoodAsking P q ks true (k (some b))) ∧ (km = false → GoodAsking P q ks km (k none))
  | ks, km, .readReported k => (∀ r, P.report r → GoodAsking P q ks km (k (.ok r))) ∧ (∀ e, P.reportErr e → GoodAsking P q ks km (k (.error e)))
  | ks, _, .storeMargins b k => P.margin b ∧ GoodAsking P q ks true k

theorem good_statesT (P : Rules) (q : Question) (ks km : Bool) (k : Except PyErr Mat → Asking)
    (hok : ∀ ks m, P.state m → GoodAsking P q ks km (k (.ok m))) (herr : ∀ ks e, P.stateErr e → GoodAsking P q ks km (k (.error e))) :
    GoodAsking P q ks km (statesT k) := by
  simp only [statesT, GoodAsking, loaded]
  refine ⟨fun m _ => ⟨fun m hm => hok _ m hm, fun h => nomatch h⟩, fun h => ⟨fun m hm => ⟨hm, fun m hm => hok _ m hm, fun h => nomatch h⟩,
    fun e he => herr _ e he⟩⟩

theorem good_marginsT (P : Rules) (q : Question) (ks km : Bool) (k : Except PyErr (Coords × Coords) → Asking)
    (hok : ∀ ks km b, P.margin b → GoodAsking P q ks km (k (.ok b)))
    (herr : ∀ ks km e, P.marginErr e → GoodAsking P q ks km (k (.error e))) :
    GoodAsking P q ks km (marginsT k) := by
  simp only [marginsT, GoodAsking]
  refine ⟨fun b _ => ⟨fun b hb => hok _ _ b hb, fun h => nomatch h⟩, fun h => ⟨?_, fun e he => herr _ _ e (P.noReport e he)⟩⟩
  intro r hr
  obtain ⟨up, dn⟩ := r
  have hst : ∀ up dn, P.report (up, dn) → (up = none ∨ dn = none) → GoodAsking P q ks km (statesT (fun q => match q with
        | .error e => k (.error e)
        | .ok m => .storeMargins (up.getD (marginCoords m).1, dn.getD (marginCoords m).2) (.loadMargins (fun o => k (loaded o))))) := by
    intro up dn hr hn
    refine good_statesT P q ks km _ (fun ks m hm => ?_) (fun ks e he => herr _ _ e (P.noState up dn e hr hn he))
    simp only [GoodAsking, loaded]
    exact ⟨P.some up dn m hr hm, fun b hb => hok _ _ b hb, fun h => nomatch h⟩
  cases up with
  | none => exact hst none dn hr (.inl rfl)
  | some up =>
    cases dn with
    | none => exact hst (some up) none hr (.inr rfl)
    | some dn =>
      simp only [GoodAsking, loaded]
      exact ⟨P.both up dn hr, fun b hb => hok _ _ b hb, fun h => nomatch h⟩

theorem good_ask (P : Rules) (q : Question) : GoodAsking P q false false q.ask := by
  cases q with
  | states => exact good_statesT P .states false false (fun r => .done (.states r)) (fun _ m hm => And.intro hm trivial) (fun _ e he => And.intro he trivial)
  | margins => exact good_marginsT P .margins false false (fun r => .done (.margins r)) (fun _ _ m hm => And.intro hm trivial) (fun _ _ e he => And.intro he trivial)

/-- The sheet remembers only what follows the rules. -/
structure SheetFine (P : Rules) (o : CachedSheet) : Prop where
  src : P.Fits o.src
  states : ∀ m, o.states = some m → P.state m
  margins : ∀ b, o.margins = some b → P.margin b

/-- The thread is on its way to a good answer, given what the sheet remembers. -/
def OnWay (P : Rules) (o : CachedSheet) (q : Question) (t : Asking) : Prop :=
  ∃ ks km, GoodAsking P q ks km t ∧ (ks = true → o.states ≠ none) ∧ (km = true → o.margins ≠ none)

theorem onWay_mono {P : Rules} {o o' : CachedSheet} {q : Question} {t : Asking} (h : OnWay P o q t)
    (hs : o.states ≠ none → o'.states ≠ none) (hm : o.margins ≠ none → o'.margins ≠ none) : OnWay P o' q t := by
  obtain ⟨ks, km, hg, h1, h2⟩ := h
  exact ⟨ks, km, hg, fun h => hs (h1 h), fun h => hm (h2 h)⟩

theorem step_good {P : Rules} {o : CachedSheet} {q : Question} {t : Asking} (hf : SheetFine P o) (h : OnWay P o q t) :
    SheetFine P (t.step o).1 ∧ OnWay P (t.step o).1 q (t.step o).2 ∧ (o.states ≠ none → (t.step o).1.states ≠ none) ∧
      (o.margins ≠ none → (t.step o).1.margins ≠ none) := by
  obtain ⟨ks, km, hg, h1, h2⟩ := h
  cases t with
  | done a => exact ⟨hf, ⟨ks, km, hg, h1, h2⟩, id, id⟩
  | loadStates k =>
    refine ⟨hf, ?_, id, id⟩
    simp only [GoodAsking] at hg
    simp only [Asking.step]
    cases ho : o.states with
    | none =>
      cases ks with
      | true => exact absurd ho (h1 rfl)
      | false => exact ⟨false, km, hg.2 rfl, (fun h => nomatch h), h2⟩
    | some m => exact ⟨true, km, hg.1 m (hf.states m ho), (fun _ => by rw [ho]; exact fun h => nomatch h), h2⟩
  | readStates k =>
    refine ⟨hf, ?_, id, id⟩
    simp only [GoodAsking] at hg
    simp only [Asking.step]
    cases ho : o.src.states with
    | error e => exact ⟨ks, km, hg.2 e (hf.src.stateErr e ho), h1, h2⟩
    | ok m => exact ⟨ks, km, hg.1 m (hf.src.state m ho), h1, h2⟩
  | storeStates m k =>
    simp only [GoodAsking] at hg
    refine ⟨⟨hf.src, ?_, hf.margins⟩, ⟨true, km, hg.2, ?_, h2⟩, ?_, id⟩
    · intro m' h'
      simp only [Asking.step, Option.some.injEq] at h'
      rw [← h']; exact hg.1
    · exact fun _ h => nomatch h
    · exact fun _ h => nomatch h
  | loadMargins k =>
    refine ⟨hf, ?_, id, id⟩
    simp only [GoodAsking] at hg
    simp only [Asking.step]
    cases ho : o.margins with
    | none =>
      cases km with
      | true => exact absurd ho (h2 rfl)
      | false => exact ⟨ks, false, hg.2 rfl, h1, fun h => nomatch h⟩
    | some m => exact ⟨ks, true, hg.1 m (hf.margins m ho), h1, fun _ => by rw [ho]; exact fun h => nomatch h⟩
  | readReported k =>
    refine ⟨hf, ?_, id, id⟩
    simp only [GoodAsking] at hg
    simp only [Asking.step]
    cases ho : o.src.reported with
    | error e => exact ⟨ks, km, hg.2 e (hf.src.reportErr e ho), h1, h2⟩
    | ok m => exact ⟨ks, km, hg.1 m (hf.src.report m ho), h1, h2⟩
  | storeMargins m k =>
    simp only [GoodAsking] at hg
    refine ⟨⟨hf.src, hf.states, ?_⟩, ⟨ks, true, hg.2, h1, ?_⟩, id, ?_⟩
    · intro m' h'
      simp only [Asking.step, Option.some.injEq] at h'
      rw [← h']; exact hg.1
    · exact fun _ h => nomatch h
    · exact fun _ h => nomatch h

/-- All threads are on their way. -/
def AllOnWay (P : Rules) (qs : List Question) (c : Askers) : Prop :=
  SheetFine P c.sheet ∧ c.threads.length = qs.length ∧ ∀ (j : Nat) t q, c.threads[j]? = some t → qs[j]? = some q → OnWay P c.sheet q t

theorem allOnWay_step {P : Rules} {qs : List Question} {c : Askers} (h : AllOnWay P qs c) (m : Moment)
    (hm : ∀ s, m = .change s → P.Fits s) : AllOnWay P qs (c.step m) := by
  obtain ⟨hf, hl, ht⟩ := h
  cases m with
  | change s => exact ⟨⟨hm s rfl, hf.states, hf.margins⟩, hl, fun j t q h1 h2 => onWay_mono (ht j t q h1 h2) id id⟩
  | thread j =>
    simp only [Askers.step]
    cases hj : c.threads[j]? with
    | none => exact ⟨hf, hl, ht⟩
    | some t =>
      have hjl : j < c.threads.length := by
        rcases Nat.lt_or_ge j c.threads.length with h | h
        · exact h
        · rw [List.getElem?_eq_none h] at hj; cases hj
      obtain ⟨q, hq⟩ : ∃ q, qs[j]? = some q := ⟨qs[j]'(hl ▸ hjl), List.getElem?_eq_getElem (hl ▸ hjl)⟩
      obtain ⟨g1, g2, g3, g4⟩ := step_good hf (ht j t q hj hq)
      refine ⟨g1, by simpa using hl, ?_⟩
      intro i t' q' h1 h2
      by_cases hij : j = i
      · subst hij
        rw [List.getElem?_set_self hjl] at h1
        cases h1
        rw [hq] at h2
        cases h2
        exact g2
      · rw [List.getElem?_set_ne hij] at h1
        exact onWay_mono (ht i t' q' h1 h2) g3 g4

theorem allOnWay_run {P : Rules} {qs : List Question} (ms : List Moment) : ∀ {c : Askers}, AllOnWay P qs c →
    (∀ s, Moment.change s ∈ ms → P.Fits s) → AllOnWay P qs (c.run ms) := by
  induction ms with
  | nil => intro c h _; exact h
  | cons m ms ih =>
    intro c h hm
    exact ih (c := c.step m) (allOnWay_step h m (fun s hs => hm s (by simp [hs]))) (fun s hs => hm s (by simp [hs]))

theorem good_answer {P : Rules} (s : SheetContents) (qs : List Question) (ms : List Moment) (hs : P.Fits s)
    (hm : ∀ c, Moment.change c ∈ ms → P.Fits c) (j : Nat) (a : SheetAnswer) (h : Answered ((Askers.start s qs).run ms) j a) :
    P.Answer a ∧ ∃ q, qs[j]? = some q ∧ fitsQuestion q a := by
  have hstart : AllOnWay P qs (Askers.start s qs) := by
    refine ⟨⟨hs, (fun m h => by cases h), (fun m h => by cases h)⟩, by simp [Askers.start], ?_⟩
    intro j t q h1 h2
    simp only [Askers.start, List.getElem?_map, h2, Option.map_some, Option.some.injEq] at h1
    subst h1
    exact ⟨false, false, good_ask P q, (fun h => nomatch h), (fun h => nomatch h)⟩
  obtain ⟨_, hl, ht⟩ := allOnWay_run ms hstart hm
  have hj : j < qs.length := by
    rw [← hl]
    rcases Nat.lt_or_ge j ((Askers.start s qs).run ms).threads.length with h' | h'
    · exact h'
    · unfold Answered at h; rw [List.getElem?_eq_none h'] at h; cases h
  obtain ⟨_, _, hg, _⟩ := ht j _ (qs[j]) h (List.getElem?_eq_getElem hj)
  exact ⟨hg.1, _, List.getElem?_eq_getElem hj, hg.2⟩

/-- So many operations at most are left. -/
def OpsLeft : Nat → Asking → Prop
  | _, .done _ => True
  | 0, _ => False
  | n + 1, .loadStates k => ∀ o, OpsLeft n (k o)
  | n + 1, .readStates k => ∀ o, OpsLeft n (k o)
  | n + 1, .storeStates _ k => OpsLeft n k
  | n + 1, .loadMargins k => ∀ o, OpsLeft n (k o)
  | n + 1, .readReported k => ∀ o, OpsLeft n (k o)
  | n + 1, .storeMargins _ k => OpsLeft n k

theorem within_step (n : Nat) (o : CachedSheet) (t : Asking) (h : OpsLeft (n + 1) t) : OpsLeft n (t.step o).2 := by
  cases t with
  | done a => cases n <;> trivial
  | loadStates k => exact h _
  | readStates k => exact h _
  | storeStates m k => exact h
  | loadMargins k => exact h _
  | readReported k => exact h _
  | storeMargins m k => exact h

theorem within_statesT (n : Nat) (k : Except PyErr Mat → Asking) (h : ∀ r, OpsLeft n (k r)) (h2 : ∀ r, OpsLeft (n + 2) (k r)) :
    OpsLeft (n + 4) (statesT k) := by
  intro o
  cases o with
  | some m =>
    intro o
    exact h2 _
  | none =>
    intro r
    cases r with
    | error e => exact h2 _
    | ok m => exact fun o => h _

theorem within_done (n : Nat) (a : SheetAnswer) : OpsLeft n (.done a) := by cases n <;> trivial

theorem within_ask (q : Question) : OpsLeft 8 q.ask := by
  cases q with
  | states =>
    exact within_statesT 4 _ (fun r => within_done _ _) (fun r => within_done _ _)
  | margins =>
    intro o
    cases o with
    | some b => exact fun o => within_done _ _
    | none =>
      intro r
      cases r with
      | error e => exact within_done _ _
      | ok r =>
        obtain ⟨up, dn⟩ := r
        have hst : ∀ (up dn : Option Coords), OpsLeft 6 (statesT (fun q => match q with
            | .error e => .done (.margins (.error e))
            | .ok m => .storeMargins (up.getD (marginCoords m).1, dn.getD (marginCoords m).2)
              (.loadMargins (fun o => .done (.margins (loaded o)))))) := by
          intro up dn
          refine within_statesT 2 _ ?_ ?_ <;> (intro r; cases r with
            | error e => exact within_done _ _
            | ok m => exact fun o => within_done _ _)
        cases up with
        | none => exact hst none dn
        | some up =>
          cases dn with
          | none => exact hst (some up) none
          | some dn => exact fun o => within_done _ _

theorem run_within (ms : List Moment) (j : Nat) : ∀ (n : Nat) (c : Askers), (∀ t, c.threads[j]? = some t → OpsLeft n t) → n ≤ turns ms j →
    ∀ t, (c.run ms).threads[j]? = some t → ∃ a, t = .done a := by
  have hzero : ∀ t, OpsLeft 0 t → ∃ a, t = .done a := by
    intro t h
    cases t with
    | done a => exact ⟨a, rfl⟩
    | _ => exact h.elim
  have hmono : ∀ (n : Nat) t, OpsLeft n t → OpsLeft (n + 1) t := by
    intro n
    induction n with
    | zero => intro t h; obtain ⟨a, rfl⟩ := hzero t h; trivial
    | succ n ih =>
      intro t h
      cases t with
      | done a => trivial
      | loadStates k => exact fun o => ih _ (h o)
      | readStates k => exact fun o => ih _ (h o)
      | storeStates m k => exact ih _ h
      | loadMargins k => exact fun o => ih _ (h o)
      | readReported k => exact fun o => ih _ (h o)
      | storeMargins m k => exact ih _ h
  induction ms with
  | nil =>
    intro n c h hn t ht
    have : n = 0 := by simp [turns] at hn; exact hn
    subst this
    exact hzero t (h t ht)
  | cons m ms ih =>
    intro n c h hn t ht
    cases m with
    | change s => exact ih n (c.step (.change s)) h (by simpa [turns] using hn) t ht
    | thread i =>
      by_cases hij : i = j
      · subst hij
        refine ih (n - 1) (c.step (.thread i)) ?_ ?_ t ht
        · intro t' ht'
          simp only [Askers.step] at ht'
          cases hi : c.threads[i]? with
          | none => rw [hi] at ht'; simp only at ht'; rw [hi] at ht'; cases ht'
          | some t0 =>
            rw [hi] at ht'
            simp only at ht'
            have hlt : i < c.threads.length := by
              rcases Nat.lt_or_ge i c.threads.length with h' | h'
              · exact h'
              · rw [List.getElem?_eq_none h'] at hi; cases hi
            rw [List.getElem?_set_self hlt] at ht'
            cases ht'
            cases n with
            | zero => obtain ⟨a, rfl⟩ := hzero t0 (h t0 hi); exact within_done _ _
            | succ n => exact within_step n _ _ (h t0 hi)
        · simp only [turns, List.countP_cons] at hn ⊢
          simp at hn
          omega
      · refine ih n (c.step (.thread i)) ?_ ?_ t ht
        · intro t' ht'
          refine h t' ?_
          simp only [Askers.step] at ht'
          cases hi : c.threads[i]? with
          | none => rw [hi] at ht'; exact ht'
          | some t0 => rw [hi] at ht'; simp only at ht'; rwa [List.getElem?_set_ne hij] at ht'
        · simp only [turns, List.countP_cons] at hn ⊢
          simp [hij] at hn
          exact hn

end Lemmas
