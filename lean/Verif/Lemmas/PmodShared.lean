import Verif.Spec.PmodShared
import Verif.Lemmas.PmodHeap
/-
Lemmas on mappings with shared dictionaries.
-/
namespace Lemmas
open Py Model Spec

theorem untouched_refl (h : PmHeap) : Untouched h h := ⟨fun _ _ => rfl, fun _ _ => rfl⟩

theorem untouched_le {h h' : PmHeap} (u : Untouched h h') :
    h.objs.length ≤ h'.objs.length ∧ h.dicts.length ≤ h'.dicts.length := by
  constructor
  · apply Nat.le_of_not_lt
    intro hlt
    have := u.objs h'.objs.length hlt
    rw [List.getElem?_eq_getElem hlt] at this
    simp at this
  · apply Nat.le_of_not_lt
    intro hlt
    have := u.dicts h'.dicts.length hlt
    rw [List.getElem?_eq_getElem hlt] at this
    simp at this

theorem untouched_trans {a b c : PmHeap} (u : Untouched a b) (v : Untouched b c) : Untouched a c := by
  have := untouched_le u
  exact ⟨fun i hi => (v.objs i (by omega)).trans (u.objs i hi), fun d hd => (v.dicts d (by omega)).trans (u.dicts d hd)⟩

theorem untouched_dict {h h' : PmHeap} (u : Untouched h h') {d : Nat} (hd : d < h.dicts.length) : h'.dict d = h.dict d := by
  unfold PmHeap.dict; rw [u.dicts d hd]

theorem view_get (h : PmHeap) (r : Nat) :
    h.view[r]? = (h.objs[r]?).map (fun o => ⟨o.alias, h.dict o.steps, h.dict o.regxs⟩) := by
  simp [PmHeap.view]

theorem view_length (h : PmHeap) : h.view.length = h.objs.length := by simp [PmHeap.view]

/-- What was there looks the same. -/
theorem untouched_view {h h' : PmHeap} (u : Untouched h h') (w : Sound h) {r : Nat} (hr : r < h.objs.length) :
    h'.view[r]? = h.view[r]? := by
  rw [view_get, view_get, u.objs r hr]
  cases e : h.objs[r]? with
  | none => rfl
  | some o =>
    have := w.refs o (List.mem_of_getElem? e)
    simp [untouched_dict u this.1, untouched_dict u this.2]

theorem untouched_ext {h h' : PmHeap} (u : Untouched h h') (w : Sound h) : Ext h.view h'.view := by
  refine ⟨h'.view.drop h.view.length, ?_⟩
  apply List.ext_getElem?
  intro i
  by_cases hi : i < h.objs.length
  · rw [List.getElem?_append_left (by rw [view_length]; exact hi)]
    exact untouched_view u w hi
  · rw [List.getElem?_append_right (by rw [view_length]; omega), List.getElem?_drop, view_length]
    congr 1; omega

theorem untouched_means {h h' : PmHeap} (u : Untouched h h') (w : Sound h) {r : Nat} {t : Pmod} (d : Means h r t) :
    Means h' r t := den_ext (untouched_ext u w) d

theorem sound_loaded : Sound PmHeap.loaded := ⟨rfl, rfl, by simp [PmHeap.loaded]⟩

/-! ### Merging -/

theorem newDict_untouched (h : PmHeap) (kvs : List (Str × Nat)) : Untouched h (h.newDict kvs).1 :=
  ⟨fun _ _ => rfl, fun d hd => by simp [PmHeap.newDict, List.getElem?_append_left hd]⟩

theorem newDict_sound {h : PmHeap} (w : Sound h) (kvs : List (Str × Nat)) : Sound (h.newDict kvs).1 := by
  have l := w.steps; have l' := w.regxs
  refine ⟨?_, ?_, ?_⟩
  · simp only [PmHeap.newDict]; rw [List.getElem?_append_left (List.getElem?_eq_some_iff.1 l).1, l]
  · simp only [PmHeap.newDict]; rw [List.getElem?_append_left (List.getElem?_eq_some_iff.1 l').1, l']
  · intro o ho
    have := w.refs o ho
    simp only [PmHeap.newDict, List.length_append, List.length_singleton]; omega

theorem newDict_view {h : PmHeap} (w : Sound h) (kvs : List (Str × Nat)) : (h.newDict kvs).1.view = h.view := by
  apply List.ext_getElem?
  intro i
  by_cases hi : i < h.objs.length
  · exact untouched_view (newDict_untouched h kvs) w hi
  · have : (h.newDict kvs).1.objs = h.objs := rfl
    rw [List.getElem?_eq_none (by rw [view_length, this]; omega), List.getElem?_eq_none (by rw [view_length]; omega)]

theorem newDict_dict (h : PmHeap) (kvs : List (Str × Nat)) : (h.newDict kvs).1.dict (h.newDict kvs).2 = kvs := by
  simp [PmHeap.newDict, PmHeap.dict]

theorem newObj_untouched (h : PmHeap) (o : PmRef) : Untouched h { h with objs := h.objs ++ [o] } :=
  ⟨fun i hi => by simp [List.getElem?_append_left hi], fun _ _ => rfl⟩

theorem newObj_sound {h : PmHeap} (w : Sound h) (o : PmRef) (hs : o.steps < h.dicts.length) (hr : o.regxs < h.dicts.length) :
    Sound { h with objs := h.objs ++ [o] } := by
  refine ⟨w.steps, w.regxs, ?_⟩
  intro o' ho
  rcases List.mem_append.1 ho with ho | ho
  · exact w.refs o' ho
  · rw [List.mem_singleton.1 ho]; exact ⟨hs, hr⟩

/-- The outcome looks as it does with dictionaries held by value, and nothing that was there is touched. -/
def MergesLike (mg : PmHeap → Nat → Nat → Option (PmHeap × Nat)) (mv : List PmodObj → Nat → Nat → Option (List PmodObj × Nat)) :
    Prop :=
  ∀ h a b, Sound h → ((mg h a b).map (fun p => (p.1.view, p.2)) = mv h.view a b) ∧
    ∀ h' m, mg h a b = some (h', m) → Untouched h h' ∧ Sound h'

theorem overrideSteps_like {mg mv} (hm : MergesLike mg mv) (os : List (Str × Nat)) : ∀ h s, Sound h →
    ((overrideSteps mg h s os).map (fun p => (p.1.view, p.2)) = mergeStepsH mv h.view s os) ∧
    ∀ h' s', overrideSteps mg h s os = some (h', s') → Untouched h h' ∧ Sound h' := by
  induction os with
  | nil =>
    intro h s w
    refine ⟨rfl, ?_⟩
    intro h' s' e
    simp only [overrideSteps, Option.some.injEq, Prod.mk.injEq] at e
    obtain ⟨rfl, rfl⟩ := e
    exact ⟨untouched_refl _, w⟩
  | cons x t ih =>
    obtain ⟨k, o⟩ := x
    intro h s w
    simp only [overrideSteps, mergeStepsH]
    cases hg : dget s k with
    | none => exact ih h _ w
    | some sp =>
      simp only
      have h1 := hm h sp o w
      cases e : mg h sp o with
      | none =>
        rw [e] at h1
        rw [← h1.1]
        exact ⟨rfl, by simp⟩
      | some p =>
        obtain ⟨h', m⟩ := p
        rw [e] at h1
        rw [← h1.1]
        obtain ⟨u, w'⟩ := h1.2 h' m rfl
        simp only [Option.map_some]
        have h2 := ih h' (dset s k m) w'
        exact ⟨h2.1, fun h'' s'' e2 => ⟨untouched_trans u (h2.2 h'' s'' e2).1, (h2.2 h'' s'' e2).2⟩⟩

theorem overrideRegxs_like {mg mv} (hm : MergesLike mg mv) (s : List (Str × Nat)) (os : List (Str × Nat)) : ∀ h, Sound h →
    ((overrideRegxs mg h s os).map (fun p => (p.1.view, p.2)) = mergeRegxsH mv h.view s os) ∧
    ∀ h' s', overrideRegxs mg h s os = some (h', s') → Untouched h h' ∧ Sound h' := by
  induction os with
  | nil =>
    intro h w
    refine ⟨rfl, ?_⟩
    intro h' s' e
    simp only [overrideRegxs, Option.some.injEq, Prod.mk.injEq] at e
    obtain ⟨rfl, rfl⟩ := e
    exact ⟨untouched_refl _, w⟩
  | cons x t ih =>
    obtain ⟨k, o⟩ := x
    intro h w
    simp only [overrideRegxs, mergeRegxsH]
    cases hg : dget s k with
    | none =>
      simp only
      have h2 := ih h w
      rw [← h2.1]
      cases e : overrideRegxs mg h s t with
      | none => exact ⟨rfl, by simp⟩
      | some p =>
        refine ⟨rfl, ?_⟩
        intro h' s' e2
        simp only [Option.some.injEq, Prod.mk.injEq] at e2
        obtain ⟨rfl, rfl⟩ := e2
        exact h2.2 _ _ e
    | some sp =>
      simp only
      have h1 := hm h sp o w
      cases e : mg h sp o with
      | none =>
        rw [e] at h1
        rw [← h1.1]
        exact ⟨rfl, by simp⟩
      | some p =>
        obtain ⟨h', m⟩ := p
        rw [e] at h1
        rw [← h1.1]
        obtain ⟨u, w'⟩ := h1.2 h' m rfl
        simp only [Option.map_some]
        have h2 := ih h' w'
        rw [← h2.1]
        cases e2 : overrideRegxs mg h' s t with
        | none => exact ⟨rfl, by simp⟩
        | some p =>
          refine ⟨rfl, ?_⟩
          intro h'' s'' e3
          simp only [Option.some.injEq, Prod.mk.injEq] at e3
          obtain ⟨rfl, rfl⟩ := e3
          exact ⟨untouched_trans u (h2.2 _ _ e2).1, (h2.2 _ _ e2).2⟩

theorem pmergeRef_like : ∀ F, MergesLike (pmergeRef F) (pmergeH F) := by
  intro F
  induction F with
  | zero => intro h a b w; exact ⟨rfl, by simp [pmergeRef]⟩
  | succ F ih =>
    intro h a b w
    simp only [pmergeRef, pmergeH, view_get]
    cases ea : h.objs[a]? with
    | none => exact ⟨rfl, by simp⟩
    | some A =>
      cases eb : h.objs[b]? with
      | none => exact ⟨rfl, by simp⟩
      | some B =>
        simp only [Option.map_some]
        have wA := w.refs A (List.mem_of_getElem? ea)
        have wB := w.refs B (List.mem_of_getElem? eb)
        -- the steps
        have hs : ∃ x : Option (PmHeap × Nat), (if (h.dict B.steps).isEmpty then some (h, A.steps)
              else if (h.dict A.steps).isEmpty then some (h, B.steps)
              else (overrideSteps (pmergeRef F) h (h.dict A.steps) (h.dict B.steps)).map (fun p => p.1.newDict p.2)) = x ∧
            (if (h.dict B.steps).isEmpty then some (h.view, h.dict A.steps)
              else if (h.dict A.steps).isEmpty then some (h.view, h.dict B.steps)
              else mergeStepsH (pmergeH F) h.view (h.dict A.steps) (h.dict B.steps)) =
              x.map (fun p => (p.1.view, p.1.dict p.2)) ∧
            ∀ p, x = some p → Untouched h p.1 ∧ Sound p.1 ∧ p.2 < p.1.dicts.length := by
          refine ⟨_, rfl, ?_, ?_⟩
          · split
            · rfl
            · split
              · rfl
              · have := overrideSteps_like ih (h.dict B.steps) h (h.dict A.steps) w
                rw [← this.1]
                cases e : overrideSteps (pmergeRef F) h (h.dict A.steps) (h.dict B.steps) with
                | none => rfl
                | some p =>
                  have w' := (this.2 p.1 p.2 e).2
                  simp [newDict_view w', newDict_dict]
          · intro p
            split
            · rintro ⟨⟩; exact ⟨untouched_refl h, w, wA.1⟩
            · split
              · rintro ⟨⟩; exact ⟨untouched_refl h, w, wB.1⟩
              · have := overrideSteps_like ih (h.dict B.steps) h (h.dict A.steps) w
                cases e : overrideSteps (pmergeRef F) h (h.dict A.steps) (h.dict B.steps) with
                | none => simp
                | some q =>
                  obtain ⟨u', w'⟩ := this.2 q.1 q.2 e
                  rintro ⟨⟩
                  exact ⟨untouched_trans u' (newDict_untouched _ _), newDict_sound w' _, by simp [PmHeap.newDict]⟩
        obtain ⟨x, ex, ev, hx⟩ := hs
        rw [ex, ev]
        cases x with
        | none => exact ⟨rfl, by simp⟩
        | some p =>
          obtain ⟨h1, s⟩ := p
          obtain ⟨u1, w1, ls⟩ := hx _ rfl
          simp only [Option.map_some] at u1 w1 ls ⊢
          have le1 := untouched_le u1
          have hr : ∃ x : Option (PmHeap × Nat), (if (h.dict B.regxs).isEmpty then some (h1, A.regxs)
                else if (h.dict A.regxs).isEmpty then some (h1, B.regxs)
                else (overrideRegxs (pmergeRef F) h1 (h.dict A.regxs) (h.dict B.regxs)).map (fun p =>
                  p.1.newDict ((h.dict A.regxs).filter (fun kv => !(dkeys (h.dict B.regxs)).contains kv.1) ++ p.2))) = x ∧
              (if (h.dict B.regxs).isEmpty then some (h1.view, h.dict A.regxs)
                else if (h.dict A.regxs).isEmpty then some (h1.view, h.dict B.regxs)
                else (mergeRegxsH (pmergeH F) h1.view (h.dict A.regxs) (h.dict B.regxs)).map (fun p =>
                  (p.1, (h.dict A.regxs).filter (fun kv => !(dkeys (h.dict B.regxs)).contains kv.1) ++ p.2))) =
                x.map (fun p => (p.1.view, p.1.dict p.2)) ∧
              ∀ p, x = some p → Untouched h1 p.1 ∧ Sound p.1 ∧ p.2 < p.1.dicts.length := by
            refine ⟨_, rfl, ?_, ?_⟩
            · split
              · simp [untouched_dict u1 wA.2]
              · split
                · simp [untouched_dict u1 wB.2]
                · have := overrideRegxs_like ih (h.dict A.regxs) (h.dict B.regxs) h1 w1
                  rw [← this.1]
                  cases e : overrideRegxs (pmergeRef F) h1 (h.dict A.regxs) (h.dict B.regxs) with
                  | none => rfl
                  | some p =>
                    have w' := (this.2 p.1 p.2 e).2
                    simp [newDict_view w', newDict_dict]
            · intro p
              split
              · rintro ⟨⟩; exact ⟨untouched_refl h1, w1, by show A.regxs < h1.dicts.length; omega⟩
              · split
                · rintro ⟨⟩; exact ⟨untouched_refl h1, w1, by show B.regxs < h1.dicts.length; omega⟩
                · have := overrideRegxs_like ih (h.dict A.regxs) (h.dict B.regxs) h1 w1
                  cases e : overrideRegxs (pmergeRef F) h1 (h.dict A.regxs) (h.dict B.regxs) with
                  | none => simp
                  | some q =>
                    obtain ⟨u', w'⟩ := this.2 q.1 q.2 e
                    rintro ⟨⟩
                    exact ⟨untouched_trans u' (newDict_untouched _ _), newDict_sound w' _, by simp [PmHeap.newDict]⟩
          obtain ⟨x, ex, ev, hx⟩ := hr
          rw [ex, ev]
          cases x with
          | none => exact ⟨rfl, by simp⟩
          | some p =>
            obtain ⟨h2, r⟩ := p
            obtain ⟨u2, w2, lr⟩ := hx _ rfl
            simp only [Option.map_some] at u2 w2 lr ⊢
            have le2 := untouched_le u2
            refine ⟨?_, ?_⟩
            · simp only [view_length, Option.some.injEq, Prod.mk.injEq, and_true]
              simp only [PmHeap.view, List.map_append, List.map_cons, List.map_nil]
              rw [← untouched_dict u2 ls]
              rfl
            · intro h' m e
              simp only [Option.some.injEq, Prod.mk.injEq] at e
              obtain ⟨rfl, rfl⟩ := e
              exact ⟨untouched_trans u1 (untouched_trans u2 (newObj_untouched h2 _)),
                newObj_sound w2 _ (by show s < _; omega) lr⟩

end Lemmas
