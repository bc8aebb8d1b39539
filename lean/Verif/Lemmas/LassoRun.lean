import Verif.Props.Backend
import Verif.Spec.LassoRun
/-
Lemmas about programs on a sheets factory.
-/
namespace Lemmas
open Py Model Spec

theorem cached_of_get {f : Factory} {k : SKey} {t : SheetObj} (h : f.get k = some t) : t ∈ f.cached := by
  unfold Factory.get at h
  unfold Factory.cached
  simp only [List.mem_flatMap, List.mem_map]
  cases e : dget f.cache k.1 with
  | none => rw [e] at h; simp at h
  | some l =>
    rw [e] at h
    exact ⟨_, mem_of_dget e, _, mem_of_dget h, rfl⟩

theorem cached_put {f : Factory} {k : SKey} {s t : SheetObj} (h : t ∈ (f.put k s).cached) :
    t ∈ f.cached ∨ t = s := by
  unfold Factory.cached Factory.put at h
  simp only [List.mem_flatMap, List.mem_map] at h
  obtain ⟨w, hw, e, he, rfl⟩ := h
  have inner : ∀ e ∈ dset ((dget f.cache k.1).getD []) k.2 s, e.2 ∈ f.cached ∨ e.2 = s := by
    intro e he
    rcases mem_dset he with h1 | h1 | h1
    · left
      cases hd : dget f.cache k.1 with
      | none => rw [hd] at h1; simp at h1
      | some l =>
        rw [hd] at h1
        unfold Factory.cached
        simp only [List.mem_flatMap, List.mem_map]
        exact ⟨_, mem_of_dget hd, _, h1, rfl⟩
    · right; rw [h1]
    · right; exact h1.2
  rcases mem_dset hw with h1 | h1 | h1
  · left
    unfold Factory.cached
    simp only [List.mem_flatMap, List.mem_map]
    exact ⟨_, h1, _, he, rfl⟩
  · rw [h1] at he; exact inner e he
  · rw [h1.2] at he; exact inner e he

theorem cached_closeSheet {f : Factory} {k : SKey} {t : SheetObj} (h : t ∈ (f.closeSheet k).cached) :
    t ∈ f.cached := by
  unfold Factory.closeSheet at h
  cases hg : f.get k with
  | none => rw [hg] at h; exact h
  | some s =>
    rw [hg] at h
    unfold Factory.cached at h ⊢
    simp only [List.mem_flatMap, List.mem_map] at h ⊢
    obtain ⟨w, ⟨w', hw', rfl⟩, e, he, rfl⟩ := h
    exact ⟨w', hw', e, (List.mem_filter.1 he).1, rfl⟩

theorem cached_addKeys (s : SheetObj) (ks : List SKey) : ∀ {f : Factory} {t : SheetObj},
    t ∈ (f.addKeys s ks).cached → t ∈ f.cached ∨ t = s := by
  induction ks with
  | nil => intro f t h; exact .inl h
  | cons k ks ih =>
    intro f t h
    unfold Factory.addKeys at h
    rcases ih h with h | h
    · rcases cached_put h with h | h
      · left
        split at h
        · split at h
          · exact cached_closeSheet h
          · exact h
        · exact h
      · exact .inr h
    · exact .inr h

/-- What a program did to a factory. -/
structure Did (f0 : Factory) (ev : List Event) (f : Factory) : Prop where
  ok : FOk f
  kept : ∀ k t, f0.get k = some t → (f.get k = some t ∧ (t ∈ f.closed → t ∈ f0.closed)) ∨
    (t ∈ f.closed ∧ ∃ e ∈ ev, e.sheet ≠ t)
  evs : ∀ e ∈ ev, (∃ k, f.get k = some e.sheet) ∨ (e.sheet ∈ f.closed ∧ ∃ e' ∈ ev, e'.sheet ≠ e.sheet)
  closedFrom : ∀ t, t ∈ f.closed → t ∈ f0.closed ∨ t ∈ f0.cached ∨ ∃ e ∈ ev, e.sheet = t
  cachedFrom : ∀ t, t ∈ f.cached → t ∈ f0.cached ∨ ∃ e ∈ ev, e.sheet = t
  mono : ∀ t, t ∈ f0.closed → t ∈ f.closed
  quiet : ev = [] → f.cache = f0.cache ∧ f.closed = f0.closed

theorem Did.same {f f' : Factory} (h : FOk f) (h1 : f'.cache = f.cache) (h2 : f'.closed = f.closed) : Did f [] f' where
  ok := by intro w hw; rw [h1] at hw; exact h w hw
  kept := by
    intro k t hg
    left
    refine ⟨?_, by rw [h2]; exact id⟩
    unfold Factory.get at hg ⊢; rw [h1]; exact hg
  evs := by simp
  closedFrom := by intro t ht; rw [h2] at ht; exact .inl ht
  cachedFrom := by
    intro t ht
    left
    unfold Factory.cached at ht ⊢; rw [h1] at ht; exact ht
  mono := by intro t ht; rw [h2]; exact ht
  quiet := fun _ => ⟨h1, h2⟩

theorem Did.trans {f0 f1 f2 : Factory} {ev1 ev2 : List Event} (a : Did f0 ev1 f1) (b : Did f1 ev2 f2) :
    Did f0 (ev1 ++ ev2) f2 where
  ok := b.ok
  kept := by
    intro k t hg
    rcases a.kept k t hg with ⟨h1, h2⟩ | ⟨h1, e, he, h2⟩
    · rcases b.kept k t h1 with ⟨h3, h4⟩ | ⟨h3, e, he, h4⟩
      · exact .inl ⟨h3, fun h => h2 (h4 h)⟩
      · exact .inr ⟨h3, e, by simp [he], h4⟩
    · exact .inr ⟨b.mono t h1, e, by simp [he], h2⟩
  evs := by
    intro e he
    rcases List.mem_append.1 he with h | h
    · rcases a.evs e h with ⟨k, hk⟩ | ⟨h1, e', he', h2⟩
      · rcases b.kept k _ hk with ⟨h3, -⟩ | ⟨h3, e', he', h4⟩
        · exact .inl ⟨k, h3⟩
        · exact .inr ⟨h3, e', by simp [he'], h4⟩
      · exact .inr ⟨b.mono _ h1, e', by simp [he'], h2⟩
    · rcases b.evs e h with h1 | ⟨h1, e', he', h2⟩
      · exact .inl h1
      · exact .inr ⟨h1, e', by simp [he'], h2⟩
  closedFrom := by
    intro t ht
    rcases b.closedFrom t ht with h | h | ⟨e, he, h⟩
    · rcases a.closedFrom t h with h | h | ⟨e, he, h⟩
      · exact .inl h
      · exact .inr (.inl h)
      · exact .inr (.inr ⟨e, by simp [he], h⟩)
    · rcases a.cachedFrom t h with h | ⟨e, he, h⟩
      · exact .inr (.inl h)
      · exact .inr (.inr ⟨e, by simp [he], h⟩)
    · exact .inr (.inr ⟨e, by simp [he], h⟩)
  cachedFrom := by
    intro t ht
    rcases b.cachedFrom t ht with h | ⟨e, he, h⟩
    · rcases a.cachedFrom t h with h | ⟨e, he, h⟩
      · exact .inl h
      · exact .inr ⟨e, by simp [he], h⟩
    · exact .inr ⟨e, by simp [he], h⟩
  mono := fun t h => b.mono t (a.mono t h)
  quiet := by
    intro h
    have h1 := List.append_eq_nil_iff.1 h
    obtain ⟨x, y⟩ := a.quiet h1.1
    obtain ⟨z, w⟩ := b.quiet h1.2
    exact ⟨z.trans x, w.trans y⟩

theorem Did.add {order : List SKey → List SKey} (ho : IsOrder order) {f f' : Factory} (hf : FOk f) {s : SheetObj}
    {ws : Ids Str} {ss : Ids ShId} {e : Event} (he : e.sheet = s) (h : f.add order s ws ss = .ok f') :
    Did f [e] f' := by
  obtain ⟨a1, a2, a3, -⟩ := Props.add_facts ho hf h
  have hreg : ∃ k, Registers s ws ss k := by
    unfold Factory.add at h
    simp only at h
    split at h
    · simp at h
    · rename_i hne
      cases hd : deriveKeys s ws ss with
      | nil => rw [hd] at hne; simp at hne
      | cons k ks => exact ⟨k, Props.mem_deriveKeys.1 (by rw [hd]; simp)⟩
  have hc : ∀ t, t ∈ f'.cached → t ∈ f.cached ∨ t = s := by
    unfold Factory.add at h
    simp only at h
    split at h
    · simp at h
    · simp only [Except.ok.injEq] at h
      subst h
      intro t ht
      exact cached_addKeys s _ ht
  refine ⟨a1, ?_, ?_, ?_, ?_, ?_, by simp⟩
  · intro k t hg
    by_cases hts : t = s
    · subst hts
      left
      refine ⟨(a2 k t).2 ?_, ?_⟩
      · by_cases hk : Registers t ws ss k
        · exact .inl ⟨hk, rfl⟩
        · exact .inr ⟨hk, hg, .inl rfl⟩
      · intro hc
        rcases (a3 t).1 hc with h1 | ⟨h1, -⟩
        · exact h1
        · exact absurd rfl h1
    · by_cases hk : ∃ k', Registers s ws ss k' ∧ f.get k' = some t
      · right
        exact ⟨(a3 t).2 (.inr ⟨hts, hk⟩), e, by simp, by rw [he]; exact fun h => hts h.symm⟩
      · left
        have hn : ∀ k', Registers s ws ss k' → f.get k' ≠ some t := fun k' h1 h2 => hk ⟨k', h1, h2⟩
        refine ⟨(a2 k t).2 (.inr ⟨fun h => hn k h hg, hg, .inr hn⟩), ?_⟩
        intro hc
        rcases (a3 t).1 hc with h1 | ⟨-, h1⟩
        · exact h1
        · exact absurd h1 hk
  · intro e' he'
    simp only [List.mem_singleton] at he'
    subst he'
    left
    obtain ⟨k, hk⟩ := hreg
    exact ⟨k, (a2 k _).2 (.inl ⟨hk, he⟩)⟩
  · intro t ht
    rcases (a3 t).1 ht with h1 | ⟨-, k, -, hk⟩
    · exact .inl h1
    · exact .inr (.inl (cached_of_get hk))
  · intro t ht
    rcases hc t ht with h | h
    · exact .inl h
    · exact .inr ⟨e, by simp, by rw [he, h]⟩
  · intro t ht; exact (a3 t).2 (.inl ht)

theorem add_named {order : List SKey → List SKey} (f : Factory) {s : SheetObj} (h : s.wb ≠ [])
    (w : Str) (sh : ShId) : ∃ f', f.add order s (.one w) (.one sh) = .ok f' := by
  unfold Factory.add
  have : deriveKeys s (.one w) (.one sh) ≠ [] := by
    intro hn
    have : (s.wb, sh) ∈ deriveKeys s (.one w) (.one sh) :=
      Props.mem_deriveKeys.2 ⟨.inl rfl, h, .inr (.inl rfl)⟩
    rw [hn] at this; simp at this
  simp [this]

theorem Did.opened {f : Factory} {n : Nat} {ev : List Event} {f' : Factory}
    (h : Did { f with opened := n } ev f') : Did f ev f' := ⟨h.1, h.2, h.3, h.4, h.5, h.6, h.7⟩

theorem cachedOr_did {order : List SKey → List SKey} (ho : IsOrder order) {f : Factory} (hf : FOk f) (w : Str) (sh : ShId)
    (op : Nat → Except PyErr SheetObj) (hop : ∀ s, op f.opened = .ok s → s.wb ≠ []) (ev : SheetObj → Event)
    (hev : ∀ s, (ev s).sheet = s) :
    Did f (match f.get (w, sh) with
      | some _ => []
      | none => match op f.opened with
        | .ok s => [ev s]
        | .error _ => []) (f.cachedOr order w sh op).1 := by
  unfold Factory.cachedOr
  cases hg : f.get (w, sh) with
  | some s => exact Did.same hf rfl rfl
  | none =>
    simp only
    cases ho' : op f.opened with
    | error e => exact Did.same hf rfl rfl
    | ok s =>
      simp only
      obtain ⟨f2, h2⟩ := add_named (order := order) { f with opened := f.opened + 1 } (hop s ho') w sh
      rw [h2]
      exact (Did.add ho (by exact hf) (hev s) h2).opened

theorem fetch_did {order : List SKey → List SKey} (ho : IsOrder order) {o : Openers} (hn : NamesBooks o) {f : Factory}
    (hf : FOk f) (wb : Option Str) (sh : ShId) (base : Option SheetObj) :
    Did f (fetchEvents o f wb sh base) (f.fetch order o wb sh base).1 := by
  cases wb with
  | some w =>
    have e : f.fetch order o (some w) sh base = f.cachedOr order w sh (fun n => o.book n (some w) sh) := by
      unfold Factory.fetch; cases base <;> rfl
    have e2 : fetchEvents o f (some w) sh base = (match f.get (w, sh) with
      | some _ => []
      | none => match o.book f.opened (some w) sh with
        | .ok s => [.opened s]
        | .error _ => []) := by
      unfold fetchEvents; cases base <;> rfl
    rw [e, e2]
    exact cachedOr_did ho hf w sh (fun n => o.book n (some w) sh) (fun s h => hn.1 _ _ _ _ h) .opened (fun _ => rfl)
  | none =>
    cases base with
    | none =>
      unfold fetchEvents Factory.fetch
      simp only
      cases h : o.book f.opened none sh with
      | ok s => exact absurd h (hn.2.2 _ _ _)
      | error e => exact Did.same hf rfl rfl
    | some b =>
      unfold fetchEvents Factory.fetch
      simp only
      split
      · exact Did.same hf rfl rfl
      · exact cachedOr_did ho hf b.wb sh (fun n => o.sibling n b sh) (fun s h => hn.2.1 _ _ _ _ h) (.sibling b)
          (fun _ => rfl)

theorem exec_did {α : Type} {order : List SKey → List SKey} (ho : IsOrder order) {o : Openers} (hn : NamesBooks o)
    (p : Run α) : ∀ {f : Factory}, FOk f → Did f (p.exec order o f).2.1 (p.exec order o f).1 := by
  induction p with
  | done r => intro f hf; exact Did.same hf rfl rfl
  | fetch wb sh b k ih =>
    intro f hf
    have h := fetch_did ho hn hf wb sh b
    exact h.trans (ih _ h.ok)
  | add s ws ss k ih =>
    intro f hf
    unfold Run.exec
    cases ha : f.add order s ws ss with
    | error e => exact ih _ hf
    | ok f' =>
      have h := Did.add ho hf (e := .added s) rfl ha
      exact h.trans (ih (.ok ()) h.ok)

end Lemmas
