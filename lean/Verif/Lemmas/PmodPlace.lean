import Verif.Lemmas.PmodShared
/-
Lemmas on building mappings in place: every new object has one place in the tree, and a change at one place leaves the others.
-/
namespace Lemmas
open Py Model Spec

/-- The place of an object: the keys from the root, with whether each is a pattern. -/
abbrev Place := List (Bool × Str)

/-- The dictionary of steps or of patterns. -/
def fld : Bool → PmRef → Nat
  | false, o => o.steps
  | true, o => o.regxs

/-- Another dictionary. -/
def setFld : Bool → PmRef → Nat → PmRef
  | false, o, d => { o with steps := d }
  | true, o, d => { o with regxs := d }

theorem fld_setFld (b : Bool) (o : PmRef) (d : Nat) : fld b (setFld b o d) = d := by cases b <;> rfl
theorem fld_setFld_other (b : Bool) (o : PmRef) (d : Nat) : fld (!b) (setFld b o d) = fld (!b) o := by cases b <;> rfl
theorem fld_setFld_ne {b b' : Bool} (hb : b' ≠ b) (o : PmRef) (d : Nat) : fld b' (setFld b o d) = fld b' o := by
  cases b <;> cases b' <;> first | rfl | simp at hb
theorem setFld_alias (b : Bool) (o : PmRef) (d : Nat) : (setFld b o d).alias = o.alias := by cases b <;> rfl

/-- Objects and dictionaries that were built since `h0` have one place each. -/
structure Owned (h0 h : PmHeap) (A : Nat → Place) (D : Nat → Place × Bool) : Prop where
  two : 2 ≤ h0.dicts.length
  sound : Sound h
  base : Untouched h0 h
  inj : ∀ i j, h0.objs.length ≤ i → i < h.objs.length → h0.objs.length ≤ j → j < h.objs.length → A i = A j → i = j
  owner : ∀ i o b, h0.objs.length ≤ i → h.objs[i]? = some o →
    h.dict (fld b o) = [] ∨ (h0.dicts.length ≤ fld b o ∧ D (fld b o) = (A i, b))
  nodup : ∀ i o b, h0.objs.length ≤ i → h.objs[i]? = some o → (dkeys (h.dict (fld b o))).Nodup
  kids : ∀ i o b, h0.objs.length ≤ i → h.objs[i]? = some o → ∀ k c, (k, c) ∈ h.dict (fld b o) →
    h0.objs.length ≤ c ∧ c < h.objs.length ∧ A c = A i ++ [(b, k)]
  real : ∀ i q b k, h0.objs.length ≤ i → i < h.objs.length → A i = q ++ [(b, k)] →
    ∃ j o, h0.objs.length ≤ j ∧ h.objs[j]? = some o ∧ A j = q ∧ (k, i) ∈ h.dict (fld b o)

/-- Only what is at places `P` changes. -/
structure Frame (h0 : PmHeap) (P : Place → Prop) (h : PmHeap) (A : Nat → Place) (D : Nat → Place × Bool)
    (h' : PmHeap) (A' : Nat → Place) (D' : Nat → Place × Bool) : Prop where
  lo : h.objs.length ≤ h'.objs.length
  ld : h.dicts.length ≤ h'.dicts.length
  sameA : ∀ i, i < h.objs.length → A' i = A i
  sameD : ∀ d, d < h.dicts.length → D' d = D d
  objs : ∀ j, h0.objs.length ≤ j → j < h.objs.length → ¬ P (A j) → h'.objs[j]? = h.objs[j]?
  dicts : ∀ d, d < h.dicts.length → h.dict d = [] ∨ ¬ P (D d).1 → h'.dict d = h.dict d

theorem frame_refl (h0 : PmHeap) (P : Place → Prop) (h : PmHeap) (A : Nat → Place) (D : Nat → Place × Bool) :
    Frame h0 P h A D h A D :=
  ⟨Nat.le_refl _, Nat.le_refl _, fun _ _ => rfl, fun _ _ => rfl, fun _ _ _ _ => rfl, fun _ _ _ => rfl⟩

theorem frame_mono {h0 : PmHeap} {P Q : Place → Prop} {h : PmHeap} {A : Nat → Place} {D : Nat → Place × Bool}
    {h' : PmHeap} {A' : Nat → Place} {D' : Nat → Place × Bool} (f : Frame h0 P h A D h' A' D') (hPQ : ∀ a, P a → Q a) :
    Frame h0 Q h A D h' A' D' :=
  ⟨f.lo, f.ld, f.sameA, f.sameD, fun j h1 h2 h3 => f.objs j h1 h2 (fun x => h3 (hPQ _ x)),
    fun d h1 h2 => f.dicts d h1 (h2.imp id (fun h3 x => h3 (hPQ _ x)))⟩

theorem frame_trans {h0 : PmHeap} {P : Place → Prop} {h : PmHeap} {A : Nat → Place} {D : Nat → Place × Bool}
    {h' : PmHeap} {A' : Nat → Place} {D' : Nat → Place × Bool} {h'' : PmHeap} {A'' : Nat → Place} {D'' : Nat → Place × Bool}
    (f : Frame h0 P h A D h' A' D') (g : Frame h0 P h' A' D' h'' A'' D'') : Frame h0 P h A D h'' A'' D'' := by
  have a1 := f.lo; have a2 := g.lo; have a3 := f.ld; have a4 := g.ld
  refine ⟨by omega, by omega, ?_, ?_, ?_, ?_⟩
  · intro i hi; rw [g.sameA i (by omega), f.sameA i hi]
  · intro d hd; rw [g.sameD d (by omega), f.sameD d hd]
  · intro j h1 h2 h3
    rw [g.objs j h1 (by omega) (by rw [f.sameA j h2]; exact h3), f.objs j h1 h2 h3]
  · intro d h1 h2
    have e := f.dicts d h1 h2
    rw [g.dicts d (by omega) (h2.imp (fun x => e.trans x) (fun x => by rw [f.sameD d h1]; exact x)), e]

theorem sound_fld {h : PmHeap} (w : Sound h) {i : Nat} {o : PmRef} (ho : h.objs[i]? = some o) (b : Bool) :
    fld b o < h.dicts.length := by
  have := w.refs o (List.mem_of_getElem? ho)
  cases b
  · exact this.1
  · exact this.2

/-- What is at other places keeps its meaning. -/
theorem frame_den {h0 h h' : PmHeap} {P : Place → Prop} {A A' : Nat → Place} {D D' : Nat → Place × Bool}
    (w : Owned h0 h A D) (f : Frame h0 P h A D h' A' D') {r : Nat} {t : Pmod} (hd : Den h.view r t)
    (hr : h0.objs.length ≤ r) (hp : ∀ e, ¬ P (A r ++ e)) : Den h'.view r t := by
  refine Den.rec (motive_1 := fun r t _ => h0.objs.length ≤ r → (∀ e, ¬ P (A r ++ e)) → Den h'.view r t)
    (motive_2 := fun rs ts _ => (∀ k c, (k, c) ∈ rs → h0.objs.length ≤ c ∧ ∀ e, ¬ P (A c ++ e)) → DenAll h'.view rs ts)
    ?_ ?_ ?_ hd hr hp
  · intro r o st rg ho _ _ h1 h2 hr hp
    rw [view_get] at ho
    cases eo : h.objs[r]? with
    | none => rw [eo] at ho; cases ho
    | some o' =>
      rw [eo] at ho
      simp only [Option.map_some, Option.some.injEq] at ho
      subst ho
      have lr : r < h.objs.length := (List.getElem?_eq_some_iff.1 eo).1
      have hpr : ¬ P (A r) := by have := hp []; simpa using this
      have hdict : ∀ b, h'.dict (fld b o') = h.dict (fld b o') := by
        intro b
        apply f.dicts _ (sound_fld w.sound eo b)
        rcases w.owner r o' b hr eo with e | ⟨_, e⟩
        · exact .inl e
        · right; rw [e]; exact hpr
      have hk : ∀ b k c, (k, c) ∈ h.dict (fld b o') → h0.objs.length ≤ c ∧ ∀ e, ¬ P (A c ++ e) := by
        intro b k c hkc
        obtain ⟨l1, _, e⟩ := w.kids r o' b hr eo k c hkc
        refine ⟨l1, ?_⟩
        intro ee
        rw [e, List.append_assoc]
        exact hp _
      have := Den.mk (h := h'.view) r ⟨o'.alias, h.dict o'.steps, h.dict o'.regxs⟩ st rg (by
        rw [view_get, f.objs r hr lr hpr, eo]
        have a := hdict false; have b := hdict true
        simp only [fld] at a b
        simp [a, b]) (h1 (hk false)) (h2 (hk true))
      exact this
  · intro _; exact .nil
  · intro k r t rs ts _ _ h1 h2 hk
    obtain ⟨a, b⟩ := hk k r (by simp)
    exact .cons k r t rs ts (h1 a b) (h2 (fun k' c hc => hk k' c (by simp [hc])))

theorem frame_denAll {h0 h h' : PmHeap} {P : Place → Prop} {A A' : Nat → Place} {D D' : Nat → Place × Bool}
    (w : Owned h0 h A D) (f : Frame h0 P h A D h' A' D') {rs : List (Str × Nat)} {ts : List (Str × Pmod)}
    (hd : DenAll h.view rs ts) (hk : ∀ k c, (k, c) ∈ rs → h0.objs.length ≤ c ∧ ∀ e, ¬ P (A c ++ e)) : DenAll h'.view rs ts := by
  induction rs generalizing ts with
  | nil => cases hd; exact .nil
  | cons x t ih =>
    cases hd with
    | cons k r p _ ts h1 h2 =>
      obtain ⟨a, b⟩ := hk k r (by simp)
      exact .cons k r p _ _ (frame_den w f h1 a b) (ih h2 (fun k' c hc => hk k' c (by simp [hc])))

/-! ### The two changes -/

theorem dict_set {h : PmHeap} {x : Nat} (hx : x < h.dicts.length) (os : List PmRef) (L : List (Str × Nat)) (d : Nat) :
    (PmHeap.mk os (h.dicts.set x L)).dict d = if d = x then L else h.dict d := by
  unfold PmHeap.dict
  split
  · next e => subst e; simp [List.getElem?_set_self hx]
  · next e => rw [List.getElem?_set_ne (Ne.symm e)]

theorem new_dict {h : PmHeap} (w : Sound h) (b : Bool) : h.dict (fld b .new) = [] := by
  unfold PmHeap.dict
  cases b
  · show (h.dicts[0]?).getD [] = []; rw [w.steps]; rfl
  · show (h.dicts[1]?).getD [] = []; rw [w.regxs]; rfl

/-- A dictionary of one place only is given other entries: the same, or one more with a new object. -/
theorem own_put {h0 h : PmHeap} {A : Nat → Place} {D : Nat → Place × Bool} (w : Owned h0 h A D) {r : Nat} {o : PmRef} {b : Bool}
    {k : Str} (hr : h0.objs.length ≤ r) (ho : h.objs[r]? = some o) (hx0 : h0.dicts.length ≤ fld b o)
    (hD : D (fld b o) = (A r, b))
    (huns : ∀ i o' b', h0.objs.length ≤ i → h.objs[i]? = some o' → fld b' o' = fld b o → i = r ∧ b' = b)
    {N : List PmRef} {L : List (Str × Nat)} (hN : N = [] ∨ (N = [.new] ∧ dget (h.dict (fld b o)) k = none))
    (hL : (dkeys L).Nodup)
    (hmem : ∀ k' c', (k', c') ∈ L ↔ (k', c') ∈ h.dict (fld b o) ∨ (N = [.new] ∧ k' = k ∧ c' = h.objs.length)) :
    Owned h0 ⟨h.objs ++ N, h.dicts.set (fld b o) L⟩ (fun i => if i = h.objs.length then A r ++ [(b, k)] else A i) D ∧
    (h.dict (fld b o) ≠ [] → Frame h0 (· = A r) h A D ⟨h.objs ++ N, h.dicts.set (fld b o) L⟩
      (fun i => if i = h.objs.length then A r ++ [(b, k)] else A i) D) := by
  have lx := sound_fld w.sound ho b
  have hu := untouched_le w.base
  have two := w.two
  have lr : r < h.objs.length := (List.getElem?_eq_some_iff.1 ho).1
  have hlen : ∀ i, i < (h.objs ++ N).length → i < h.objs.length ∨ (i = h.objs.length ∧ N = [.new]) := by
    intro i hi
    rcases hN with rfl | ⟨rfl, _⟩
    · left; simpa using hi
    · simp at hi
      rcases Nat.lt_or_ge i h.objs.length with hl | hl
      · exact .inl hl
      · exact .inr ⟨by omega, rfl⟩
  have hget : ∀ i o', (h.objs ++ N)[i]? = some o' → (i < h.objs.length ∧ h.objs[i]? = some o') ∨
      (i = h.objs.length ∧ N = [.new] ∧ o' = .new) := by
    intro i o' hi
    rcases hlen i (List.getElem?_eq_some_iff.1 hi).1 with hl | ⟨rfl, e⟩
    · rw [List.getElem?_append_left hl] at hi; exact .inl ⟨hl, hi⟩
    · subst e; simp at hi; exact .inr ⟨rfl, rfl, hi.symm⟩
  have hdict := dict_set lx (h.objs ++ N) L
  have snd : Sound ⟨h.objs ++ N, h.dicts.set (fld b o) L⟩ := by
    refine ⟨?_, ?_, ?_⟩
    · show (h.dicts.set _ _)[0]? = _; rw [List.getElem?_set_ne (by omega)]; exact w.sound.steps
    · show (h.dicts.set _ _)[1]? = _; rw [List.getElem?_set_ne (by omega)]; exact w.sound.regxs
    · intro o' ho'
      simp only [List.length_set]
      rcases List.mem_append.1 ho' with ho' | ho'
      · exact w.sound.refs o' ho'
      · rcases hN with rfl | ⟨rfl, _⟩
        · cases ho'
        · rw [List.mem_singleton.1 ho']; simp [PmRef.new]; omega
  -- the entries of an object that was there
  have hne : ∀ i, i < h.objs.length → i ≠ h.objs.length := by intro i hi; omega
  have fresh : N = [.new] → ∀ i, h0.objs.length ≤ i → i < h.objs.length → A i ≠ A r ++ [(b, k)] := by
    intro eN i h1 h2 e
    rcases hN with rfl | ⟨_, hg⟩
    · cases eN
    · obtain ⟨j, oj, j1, j2, j3, j4⟩ := w.real i _ b k h1 h2 e
      have : j = r := w.inj j r j1 (List.getElem?_eq_some_iff.1 j2).1 hr lr j3
      subst this
      rw [ho] at j2; cases j2
      rw [dget_eq_none_iff] at hg
      exact hg (List.mem_map.2 ⟨_, j4, rfl⟩)
  refine ⟨⟨two, snd, ?_, ?_, ?_, ?_, ?_, ?_⟩, fun hfull => ⟨by simp, by simp, ?_, fun _ _ => rfl, ?_, ?_⟩⟩
  · refine ⟨?_, ?_⟩
    · intro i hi
      show (h.objs ++ N)[i]? = _
      rw [List.getElem?_append_left (by omega), w.base.objs i hi]
    · intro d hd
      show (h.dicts.set _ _)[d]? = _
      rw [List.getElem?_set_ne (by omega), w.base.dicts d hd]
  · intro i j i1 i2 j1 j2 e
    rcases hlen i i2 with hi | ⟨rfl, eN⟩
    · rcases hlen j j2 with hj | ⟨rfl, eN⟩
      · rw [if_neg (hne i hi), if_neg (hne j hj)] at e
        exact w.inj i j i1 hi j1 hj e
      · rw [if_neg (hne i hi), if_pos rfl] at e
        exact absurd e (fresh eN i i1 hi)
    · rcases hlen j j2 with hj | ⟨rfl, _⟩
      · rw [if_neg (hne j hj), if_pos rfl] at e
        exact absurd e.symm (fresh eN j j1 hj)
      · rfl
  · intro i o' b' i1 hi
    rcases hget i o' hi with ⟨hl, ho'⟩ | ⟨rfl, eN, rfl⟩
    · rw [hdict, if_neg (hne i hl)]
      by_cases hx : fld b' o' = fld b o
      · obtain ⟨rfl, rfl⟩ := huns i o' b' i1 ho' hx
        right; rw [hx]; exact ⟨hx0, hD⟩
      · rw [if_neg hx]; exact w.owner i o' b' i1 ho'
    · left; exact new_dict snd b'
  · intro i o' b' i1 hi
    rcases hget i o' hi with ⟨hl, ho'⟩ | ⟨rfl, eN, rfl⟩
    · rw [hdict]
      by_cases hx : fld b' o' = fld b o
      · rw [if_pos hx]; exact hL
      · rw [if_neg hx]; exact w.nodup i o' b' i1 ho'
    · rw [new_dict snd b']; exact List.nodup_nil
  · intro i o' b' i1 hi k' c' hkc
    rcases hget i o' hi with ⟨hl, ho'⟩ | ⟨rfl, eN, rfl⟩
    · rw [hdict] at hkc
      rw [if_neg (hne i hl)]
      have old : (k', c') ∈ h.dict (fld b' o') → h0.objs.length ≤ c' ∧ c' < (h.objs ++ N).length ∧
          (if c' = h.objs.length then A r ++ [(b, k)] else A c') = A i ++ [(b', k')] := by
        intro hm
        obtain ⟨a1, a2, a3⟩ := w.kids i o' b' i1 ho' k' c' hm
        rw [if_neg (hne c' a2)]
        exact ⟨a1, by simp; omega, a3⟩
      by_cases hx : fld b' o' = fld b o
      · rw [if_pos hx] at hkc
        obtain ⟨rfl, rfl⟩ := huns i o' b' i1 ho' hx
        rcases (hmem k' c').1 hkc with hm | ⟨eN, rfl, rfl⟩
        · rw [← hx] at hm; exact old hm
        · rw [if_pos rfl]
          exact ⟨by omega, by simp [eN], rfl⟩
      · rw [if_neg hx] at hkc; exact old hkc
    · rw [new_dict snd b'] at hkc; cases hkc
  · intro i q b' k' i1 i2 e
    rcases hlen i i2 with hl | ⟨rfl, eN⟩
    · rw [if_neg (hne i hl)] at e
      obtain ⟨j, oj, j1, j2, j3, j4⟩ := w.real i q b' k' i1 hl e
      have jl := (List.getElem?_eq_some_iff.1 j2).1
      refine ⟨j, oj, j1, by show (h.objs ++ N)[j]? = _; rw [List.getElem?_append_left jl]; exact j2, by rw [if_neg (hne j jl)]; exact j3, ?_⟩
      rw [hdict]
      split
      · next hx => rw [hx] at j4; exact (hmem k' i).2 (.inl j4)
      · exact j4
    · rw [if_pos rfl] at e
      obtain ⟨rfl, e2⟩ := List.append_inj' e rfl
      simp only [List.cons.injEq, Prod.mk.injEq, and_true] at e2
      obtain ⟨rfl, rfl⟩ := e2
      refine ⟨r, o, hr, by show (h.objs ++ N)[r]? = _; rw [List.getElem?_append_left lr]; exact ho, by rw [if_neg (hne r lr)], ?_⟩
      rw [hdict, if_pos rfl]
      exact (hmem _ _).2 (.inr ⟨eN, rfl, rfl⟩)
  · intro i hi; rw [if_neg (hne i hi)]
  · intro j _ hj _
    show (h.objs ++ N)[j]? = _
    rw [List.getElem?_append_left hj]
  · intro d hd hor
    rw [hdict]
    split
    · next e =>
      subst e
      rcases hor with e | hn
      · exact absurd e hfull
      · rw [hD] at hn; exact absurd rfl hn
    · rfl

/-- An object gets an empty dictionary of its own. -/
theorem own_fresh {h0 h : PmHeap} {A : Nat → Place} {D : Nat → Place × Bool} (w : Owned h0 h A D) {r : Nat} {o : PmRef} {b : Bool}
    (hr : h0.objs.length ≤ r) (ho : h.objs[r]? = some o) (he : h.dict (fld b o) = []) :
    Owned h0 ⟨h.objs.set r (setFld b o h.dicts.length), h.dicts ++ [[]]⟩ A
      (fun d => if d = h.dicts.length then (A r, b) else D d) ∧
    ∀ i o' b', h0.objs.length ≤ i → (h.objs.set r (setFld b o h.dicts.length))[i]? = some o' →
      fld b' o' = h.dicts.length → i = r ∧ b' = b := by
  have lr : r < h.objs.length := (List.getElem?_eq_some_iff.1 ho).1
  have hu := untouched_le w.base
  have two := w.two
  have hdict : ∀ d, (PmHeap.mk (h.objs.set r (setFld b o h.dicts.length)) (h.dicts ++ [[]])).dict d = h.dict d := by
    intro d
    unfold PmHeap.dict
    show ((h.dicts ++ [[]])[d]?).getD [] = _
    rcases Nat.lt_trichotomy d h.dicts.length with hd | rfl | hd
    · rw [List.getElem?_append_left hd]
    · simp
    · rw [List.getElem?_eq_none (by simp; omega), List.getElem?_eq_none (by omega)]
  have hfr : h.dict h.dicts.length = [] := by unfold PmHeap.dict; simp
  have hget : ∀ (i : Nat) (o' : PmRef), (h.objs.set r (setFld b o h.dicts.length))[i]? = some o' →
      (i = r ∧ o' = setFld b o h.dicts.length) ∨ (i ≠ r ∧ h.objs[i]? = some o') := by
    intro i o' hi
    by_cases e : i = r
    · subst e
      rw [List.getElem?_set_self lr] at hi
      exact .inl ⟨rfl, (Option.some.inj hi).symm⟩
    · rw [List.getElem?_set_ne (Ne.symm e)] at hi
      exact .inr ⟨e, hi⟩
  -- the dictionaries of an object look as before
  have hlook : ∀ (i : Nat) (o' : PmRef), (h.objs.set r (setFld b o h.dicts.length))[i]? = some o' →
      ∃ o0, h.objs[i]? = some o0 ∧ ∀ b', h.dict (fld b' o') = h.dict (fld b' o0) := by
    intro i o' hi
    rcases hget i o' hi with ⟨rfl, rfl⟩ | ⟨_, hi⟩
    · refine ⟨o, ho, ?_⟩
      intro b'
      by_cases hb : b' = b
      · subst hb; rw [fld_setFld, he, hfr]
      · rw [fld_setFld_ne hb]
    · exact ⟨o', hi, fun _ => rfl⟩
  refine ⟨⟨two, ?_, ?_, ?_, ?_, ?_, ?_, ?_⟩, ?_⟩
  · refine ⟨?_, ?_, ?_⟩
    · show (h.dicts ++ [[]])[0]? = _; rw [List.getElem?_append_left (by omega)]; exact w.sound.steps
    · show (h.dicts ++ [[]])[1]? = _; rw [List.getElem?_append_left (by omega)]; exact w.sound.regxs
    · intro o' ho'
      simp only [List.length_append, List.length_singleton]
      rcases List.mem_or_eq_of_mem_set ho' with hm | rfl
      · have := w.sound.refs o' hm; omega
      · have := w.sound.refs o (List.mem_of_getElem? ho)
        cases b <;> simp [setFld] <;> omega
  · refine ⟨?_, ?_⟩
    · intro i hi
      show (h.objs.set _ _)[i]? = _
      rw [List.getElem?_set_ne (by omega), w.base.objs i hi]
    · intro d hd
      show (h.dicts ++ [[]])[d]? = _
      rw [List.getElem?_append_left (by omega), w.base.dicts d hd]
  · intro i j i1 i2 j1 j2
    simp only [List.length_set] at i2 j2
    exact w.inj i j i1 i2 j1 j2
  · intro i o' b' i1 hi
    rw [hdict]
    rcases hget i o' hi with ⟨rfl, rfl⟩ | ⟨_, hi⟩
    · by_cases hb : b' = b
      · subst hb; left; rw [fld_setFld, hfr]
      · rw [fld_setFld_ne hb]
        rcases w.owner i o b' i1 ho with e | ⟨e1, e2⟩
        · exact .inl e
        · have := sound_fld w.sound ho b'
          right; rw [if_neg (by omega)]; exact ⟨e1, e2⟩
    · rcases w.owner i o' b' i1 hi with e | ⟨e1, e2⟩
      · exact .inl e
      · have := sound_fld w.sound hi b'
        right; rw [if_neg (by omega)]; exact ⟨e1, e2⟩
  · intro i o' b' i1 hi
    obtain ⟨o0, h1, h2⟩ := hlook i o' hi
    rw [hdict, h2]; exact w.nodup i o0 b' i1 h1
  · intro i o' b' i1 hi k c hkc
    obtain ⟨o0, h1, h2⟩ := hlook i o' hi
    rw [hdict, h2] at hkc
    simp only [List.length_set]
    exact w.kids i o0 b' i1 h1 k c hkc
  · intro i q b' k i1 i2 e
    simp only [List.length_set] at i2
    obtain ⟨j, oj, j1, j2, j3, j4⟩ := w.real i q b' k i1 i2 e
    by_cases ej : j = r
    · subst ej
      rw [ho] at j2; cases j2
      refine ⟨j, setFld b o h.dicts.length, j1, List.getElem?_set_self lr, j3, ?_⟩
      rw [hdict]
      by_cases hb : b' = b
      · subst hb; rw [he] at j4; cases j4
      · rw [fld_setFld_ne hb]; exact j4
    · exact ⟨j, oj, j1, by show (h.objs.set _ _)[j]? = _; rw [List.getElem?_set_ne (Ne.symm ej)]; exact j2, j3, by rw [hdict]; exact j4⟩
  · intro i o' b' i1 hi hf
    rcases hget i o' hi with ⟨rfl, rfl⟩ | ⟨_, hi⟩
    · refine ⟨rfl, ?_⟩
      by_cases hb : b' = b
      · exact hb
      · rw [fld_setFld_ne hb] at hf
        have := sound_fld w.sound ho b'; omega
    · have := sound_fld w.sound hi b'; omega

/-- What appending a key to the steps or the patterns of an object does. -/
structure Appended (h0 h : PmHeap) (A : Nat → Place) (D : Nat → Place × Bool) (r : Nat) (o : PmRef) (b : Bool) (k : Str)
    (h1 : PmHeap) (c : Nat) (A1 : Nat → Place) (D1 : Nat → Place × Bool) (o1 : PmRef) : Prop where
  owned : Owned h0 h1 A1 D1
  frame : Frame h0 (· = A r) h A D h1 A1 D1
  obj : h1.objs[r]? = some o1
  alias : o1.alias = o.alias
  other : h1.dict (fld (!b) o1) = h.dict (fld (!b) o)
  entries :
    (dget (h.dict (fld b o)) k = none ∧ c = h.objs.length ∧ h1.objs[c]? = some .new ∧
      h1.dict (fld b o1) = h.dict (fld b o) ++ [(k, c)]) ∨
    (dget (h.dict (fld b o)) k = some c ∧
      h1.dict (fld b o1) = if b then ddel (h.dict (fld b o)) k ++ [(k, c)] else h.dict (fld b o))

/-- The first entry: a dictionary is made. -/
theorem appended_first {h0 h : PmHeap} {A : Nat → Place} {D : Nat → Place × Bool} (w : Owned h0 h A D) {r : Nat} {o : PmRef}
    (b : Bool) (k : Str) (hr : h0.objs.length ≤ r) (ho : h.objs[r]? = some o) (he : h.dict (fld b o) = []) :
    ∃ A1 D1 o1, Appended h0 h A D r o b k
      ⟨h.objs.set r (setFld b o h.dicts.length) ++ [.new], h.dicts ++ [[(k, h.objs.length)]]⟩ h.objs.length A1 D1 o1 := by
  have lr : r < h.objs.length := (List.getElem?_eq_some_iff.1 ho).1
  have hu := untouched_le w.base
  obtain ⟨w1, huns⟩ := own_fresh w hr ho he
  have hfd : (PmHeap.mk (h.objs.set r (setFld b o h.dicts.length)) (h.dicts ++ [[]])).dict h.dicts.length = [] := by
    simp [PmHeap.dict]
  have hset : (h.dicts ++ [[]]).set h.dicts.length [(k, h.objs.length)] = h.dicts ++ [[(k, h.objs.length)]] := by simp
  have hoo : (h.objs.set r (setFld b o h.dicts.length))[r]? = some (setFld b o h.dicts.length) := List.getElem?_set_self lr
  have h2 := own_put (k := k) (b := b) w1 hr hoo (by rw [fld_setFld]; exact hu.2) (by rw [fld_setFld]; simp)
    (by rw [fld_setFld]; exact huns) (N := [.new]) (L := [(k, h.objs.length)])
    (.inr ⟨rfl, by rw [fld_setFld, hfd]; rfl⟩) (by simp [dkeys])
    (by
      intro k' c'
      rw [fld_setFld, hfd]
      simp)
  rw [fld_setFld] at h2
  simp only [hset, List.length_set] at h2
  have hdict : ∀ d, d < h.dicts.length → (PmHeap.mk (h.objs.set r (setFld b o h.dicts.length) ++ [.new])
      (h.dicts ++ [[(k, h.objs.length)]])).dict d = h.dict d := by
    intro d hd
    unfold PmHeap.dict
    show ((h.dicts ++ [[(k, h.objs.length)]])[d]?).getD [] = _
    rw [List.getElem?_append_left hd]
  refine ⟨_, _, setFld b o h.dicts.length, h2.1, ⟨by simp, by simp, ?_, ?_, ?_, ?_⟩, ?_, setFld_alias b o _, ?_, ?_⟩
  · intro i hi; rw [if_neg (by omega)]
  · intro d hd; rw [if_neg (by omega)]
  · intro j _ hj hne
    have : j ≠ r := fun e => hne (by rw [e])
    show (h.objs.set _ _ ++ [.new])[j]? = _
    rw [List.getElem?_append_left (by simpa using hj), List.getElem?_set_ne (Ne.symm this)]
  · intro d hd _; exact hdict d hd
  · show (h.objs.set _ _ ++ [.new])[r]? = _
    rw [List.getElem?_append_left (by simpa using lr)]; exact hoo
  · rw [fld_setFld_other]; exact hdict _ (sound_fld w.sound ho _)
  · left
    refine ⟨by rw [he]; rfl, rfl, ?_, ?_⟩
    · show (h.objs.set _ _ ++ [.new])[h.objs.length]? = _
      rw [List.getElem?_append_right (by simp)]; simp
    · rw [fld_setFld, he]; simp [PmHeap.dict]

theorem unshared {h0 h : PmHeap} {A : Nat → Place} {D : Nat → Place × Bool} (w : Owned h0 h A D) {r : Nat} {o : PmRef}
    {b : Bool} (hr : h0.objs.length ≤ r) (ho : h.objs[r]? = some o) (he : h.dict (fld b o) ≠ []) :
    h0.dicts.length ≤ fld b o ∧ D (fld b o) = (A r, b) ∧
    ∀ i o' b', h0.objs.length ≤ i → h.objs[i]? = some o' → fld b' o' = fld b o → i = r ∧ b' = b := by
  obtain ⟨h1, h2⟩ := (w.owner r o b hr ho).resolve_left he
  refine ⟨h1, h2, ?_⟩
  intro i o' b' i1 hi e
  obtain ⟨_, h3⟩ := (w.owner i o' b' i1 hi).resolve_left (by rw [e]; exact he)
  rw [e, h2] at h3
  simp only [Prod.mk.injEq] at h3
  exact ⟨w.inj i r i1 (List.getElem?_eq_some_iff.1 hi).1 hr (List.getElem?_eq_some_iff.1 ho).1 h3.1.symm, h3.2.symm⟩

/-- One more entry. -/
theorem appended_more {h0 h : PmHeap} {A : Nat → Place} {D : Nat → Place × Bool} (w : Owned h0 h A D) {r : Nat} {o : PmRef}
    (b : Bool) (k : Str) (hr : h0.objs.length ≤ r) (ho : h.objs[r]? = some o) (he : h.dict (fld b o) ≠ [])
    (hk : dget (h.dict (fld b o)) k = none) :
    ∃ A1 D1 o1, Appended h0 h A D r o b k
      ⟨h.objs ++ [.new], h.dicts.set (fld b o) (h.dict (fld b o) ++ [(k, h.objs.length)])⟩ h.objs.length A1 D1 o1 := by
  have lr : r < h.objs.length := (List.getElem?_eq_some_iff.1 ho).1
  obtain ⟨u1, u2, u3⟩ := unshared w hr ho he
  have h2 := own_put (k := k) (b := b) w hr ho u1 u2 u3 (N := [.new]) (L := h.dict (fld b o) ++ [(k, h.objs.length)])
    (.inr ⟨rfl, hk⟩) (by
      have := w.nodup r o b hr ho
      have hk' := (dget_eq_none_iff _ _).1 hk
      simp only [dkeys, List.map_append, List.map_cons, List.map_nil] at this ⊢
      rw [List.nodup_append]
      refine ⟨this, by simp, ?_⟩
      intro x hx y hy e
      rw [List.mem_singleton] at hy
      subst hy; subst e; exact hk' hx)
    (by intro k' c'; simp)
  refine ⟨_, _, o, h2.1, h2.2 he, ?_, rfl, ?_, ?_⟩
  · show (h.objs ++ [.new])[r]? = _
    rw [List.getElem?_append_left lr]; exact ho
  · rw [dict_set (sound_fld w.sound ho b), if_neg]
    intro e
    have := (u3 r o (!b) hr ho e).2
    cases b <;> simp at this
  · left
    refine ⟨hk, rfl, by simp, ?_⟩
    rw [dict_set (sound_fld w.sound ho b), if_pos rfl]

theorem mem_ddel_snoc {l : List (Str × Nat)} (hn : (dkeys l).Nodup) {k : Str} {c : Nat} (hg : dget l k = some c) (k' : Str) (c' : Nat) :
    (k', c') ∈ ddel l k ++ [(k, c)] ↔ (k', c') ∈ l := by
  simp only [ddel, List.mem_append, List.mem_filter, List.mem_singleton, Prod.mk.injEq]
  constructor
  · rintro (⟨h, _⟩ | ⟨rfl, rfl⟩)
    · exact h
    · exact mem_of_dget hg
  · intro h
    by_cases e : k' = k
    · subst e
      right
      refine ⟨rfl, ?_⟩
      have := dget_of_mem hn h
      rw [hg] at this
      exact (Option.some.inj this).symm
    · left; exact ⟨h, by simpa using e⟩

theorem nodup_ddel_snoc {l : List (Str × Nat)} (hn : (dkeys l).Nodup) (k : Str) (c : Nat) : (dkeys (ddel l k ++ [(k, c)])).Nodup := by
  simp only [dkeys, ddel, List.map_append, List.map_cons, List.map_nil]
  rw [List.nodup_append]
  refine ⟨List.Nodup.sublist (List.Sublist.map _ List.filter_sublist) hn, by simp, ?_⟩
  intro x hx y hy e
  rw [List.mem_singleton] at hy
  subst hy; subst e
  obtain ⟨p, hp, rfl⟩ := List.mem_map.1 hx
  have := (List.mem_filter.1 hp).2
  simp at this

/-- A pattern that is there goes to the end. -/
theorem appended_again {h0 h : PmHeap} {A : Nat → Place} {D : Nat → Place × Bool} (w : Owned h0 h A D) {r : Nat} {o : PmRef}
    (k : Str) {c : Nat} (hr : h0.objs.length ≤ r) (ho : h.objs[r]? = some o)
    (hk : dget (h.dict o.regxs) k = some c) :
    ∃ A1 D1 o1, Appended h0 h A D r o true k
      ⟨h.objs, h.dicts.set o.regxs (ddel (h.dict o.regxs) k ++ [(k, c)])⟩ c A1 D1 o1 := by
  have lr : r < h.objs.length := (List.getElem?_eq_some_iff.1 ho).1
  have he : h.dict (fld true o) ≠ [] := by
    intro e
    have e' : h.dict o.regxs = [] := e
    rw [e'] at hk; cases hk
  obtain ⟨u1, u2, u3⟩ := unshared w hr ho he
  have hn := w.nodup r o true hr ho
  have h2 := own_put (k := k) (b := true) w hr ho u1 u2 u3 (N := []) (L := ddel (h.dict (fld true o)) k ++ [(k, c)])
    (.inl rfl) (nodup_ddel_snoc hn k c) (by
      intro k' c'
      rw [mem_ddel_snoc hn hk]; simp)
  simp only [List.append_nil] at h2
  refine ⟨_, _, o, h2.1, h2.2 he, ho, rfl, ?_, ?_⟩
  · show (PmHeap.mk _ (h.dicts.set (fld true o) _)).dict _ = _
    rw [dict_set (sound_fld w.sound ho true), if_neg]
    intro e
    have := (u3 r o (!true) hr ho e).2
    simp at this
  · right
    refine ⟨hk, ?_⟩
    show (PmHeap.mk _ (h.dicts.set (fld true o) _)).dict _ = _
    rw [dict_set (sound_fld w.sound ho true), if_pos rfl, if_pos rfl]; rfl

theorem dset_absent {β : Type} {l : List (Str × β)} {k : Str} (h : dget l k = none) (v : β) : dset l k v = l ++ [(k, v)] := by
  induction l with
  | nil => rfl
  | cons x t ih =>
    obtain ⟨k', v'⟩ := x
    rw [dget_cons] at h
    split at h
    · cases h
    · next hne => simp [dset, hne, ih h]

theorem appendIntoSteps_appended {h0 h : PmHeap} {A : Nat → Place} {D : Nat → Place × Bool} (w : Owned h0 h A D) {r : Nat} {o : PmRef}
    (k : Str) (hr : h0.objs.length ≤ r) (ho : h.objs[r]? = some o) :
    ∃ A1 D1 o1, Appended h0 h A D r o false k (appendIntoSteps h r k).1 (appendIntoSteps h r k).2 A1 D1 o1 := by
  unfold appendIntoSteps
  simp only [ho]
  split
  · next e => exact appended_first w false k hr ho (List.isEmpty_iff.1 e)
  · next e =>
    have he : h.dict (fld false o) ≠ [] := fun x => e (List.isEmpty_iff.2 x)
    cases hg : dget (h.dict o.steps) k with
    | some c =>
      exact ⟨A, D, o, w, frame_refl _ _ _ _ _, ho, rfl, rfl, .inr ⟨hg, rfl⟩⟩
    | none =>
      simp only
      rw [dset_absent hg]
      exact appended_more w false k hr ho he hg

theorem appendIntoRegxs_appended {h0 h : PmHeap} {A : Nat → Place} {D : Nat → Place × Bool} (w : Owned h0 h A D) {r : Nat} {o : PmRef}
    (k : Str) (hr : h0.objs.length ≤ r) (ho : h.objs[r]? = some o) :
    ∃ A1 D1 o1, Appended h0 h A D r o true k (appendIntoRegxs h r k).1 (appendIntoRegxs h r k).2 A1 D1 o1 := by
  unfold appendIntoRegxs
  simp only [ho]
  split
  · next e => exact appended_first w true k hr ho (List.isEmpty_iff.1 e)
  · next e =>
    have he : h.dict (fld true o) ≠ [] := fun x => e (List.isEmpty_iff.2 x)
    cases hg : dget (h.dict o.regxs) k with
    | some c =>
      simp only
      rw [dset_absent (by rw [dget_ddel]; simp)]
      exact appended_again w k hr ho hg
    | none =>
      simp only
      rw [dset_absent hg]
      exact appended_more w true k hr ho he hg

/-! ### Down a path -/

theorem dset_snoc_absent {β : Type} {l : List (Str × β)} {k : Str} (h : dget l k = none) (x v : β) :
    dset (l ++ [(k, x)]) k v = l ++ [(k, v)] := by
  induction l with
  | nil => simp [dset]
  | cons y t ih =>
    obtain ⟨k', v'⟩ := y
    rw [dget_cons] at h
    split at h
    · cases h
    · next hne => simp [dset, hne, ih h]

theorem ddel_absent {β : Type} {l : List (Str × β)} {k : Str} (h : dget l k = none) : ddel l k = l := by
  unfold ddel
  rw [List.filter_eq_self]
  intro x hx
  have := (dget_eq_none_iff _ _).1 h
  simp only [ne_eq, decide_not, Bool.not_eq_true', decide_eq_false_iff_not]
  intro e
  exact this (List.mem_map.2 ⟨x, hx, e⟩)

theorem denAll_replace {h1 h2 : List PmodObj} {k : Str} {c : Nat} {t' : Pmod} (hc : Den h2 c t') :
    ∀ (rs : List (Str × Nat)) (ts : List (Str × Pmod)), DenAll h1 rs ts → (dkeys rs).Nodup → dget rs k = some c →
    (∀ k' c' t, (k', c') ∈ rs → k' ≠ k → Den h1 c' t → Den h2 c' t) → DenAll h2 rs (dset ts k t') := by
  have rest : ∀ (rs : List (Str × Nat)) (ts : List (Str × Pmod)), DenAll h1 rs ts → k ∉ dkeys rs →
      (∀ k' c' t, (k', c') ∈ rs → k' ≠ k → Den h1 c' t → Den h2 c' t) → DenAll h2 rs ts := by
    intro rs
    induction rs with
    | nil => intro ts d _ _; cases d; exact .nil
    | cons x rs ih =>
      intro ts d hn hf
      cases d with
      | cons k0 c0 t0 _ ts0 d1 d2 =>
        simp only [dkeys, List.map_cons, List.mem_cons, not_or] at hn
        exact .cons k0 c0 t0 _ _ (hf k0 c0 t0 (by simp) (Ne.symm hn.1) d1)
          (ih ts0 d2 hn.2 (fun k' c' t hm => hf k' c' t (by simp [hm])))
  intro rs
  induction rs with
  | nil => intro ts _ _ hg; cases hg
  | cons x rs ih =>
    intro ts d hn hg hf
    cases d with
    | cons k0 c0 t0 _ ts0 d1 d2 =>
      simp only [dkeys, List.map_cons, List.nodup_cons] at hn
      rw [dget_cons] at hg
      by_cases e : k0 = k
      · subst e
        rw [if_pos rfl] at hg
        cases hg
        simp only [dset, if_pos]
        exact .cons k0 c t' _ _ hc (rest rs ts0 d2 hn.1 (fun k' c' t hm => hf k' c' t (by simp [hm])))
      · rw [if_neg e] at hg
        simp only [dset, if_neg e]
        exact .cons k0 c0 t0 _ _ (hf k0 c0 t0 (by simp) e d1) (ih ts0 d2 hn.2 hg (fun k' c' t hm => hf k' c' t (by simp [hm])))

theorem den_inv {h : PmHeap} {r : Nat} {t : Pmod} (d : Den h.view r t) :
    ∃ o, h.objs[r]? = some o ∧ t.alias = o.alias ∧ DenAll h.view (h.dict (fld false o)) t.steps ∧
      DenAll h.view (h.dict (fld true o)) t.regxs := by
  cases d with
  | mk _ o' st rg ho h1 h2 =>
    rw [view_get] at ho
    cases eo : h.objs[r]? with
    | none => rw [eo] at ho; cases ho
    | some o =>
      rw [eo] at ho
      simp only [Option.map_some, Option.some.injEq] at ho
      subst ho
      exact ⟨o, rfl, rfl, h1, h2⟩

theorem den_intro {h : PmHeap} {r : Nat} {o : PmRef} {st rg : List (Str × Pmod)} (ho : h.objs[r]? = some o)
    (h1 : DenAll h.view (h.dict (fld false o)) st) (h2 : DenAll h.view (h.dict (fld true o)) rg) :
    Den h.view r (.mk o.alias st rg) :=
  Den.mk (h := h.view) r ⟨o.alias, h.dict o.steps, h.dict o.regxs⟩ st rg (by rw [view_get, ho]; rfl) h1 h2

/-- The entries of steps or of patterns in a tree. -/
def kidsOf : Bool → Pmod → List (Str × Pmod)
  | false, t => t.steps
  | true, t => t.regxs

theorem den_new {h : PmHeap} (w : Sound h) {c : Nat} (hc : h.objs[c]? = some .new) : Den h.view c Pmod.empty := by
  have := den_intro hc (st := []) (rg := []) (by rw [new_dict w]; exact .nil) (by rw [new_dict w]; exact .nil)
  exact this

/-- After a key is appended: the child stands for what was there, or for nothing. -/
theorem appended_den {h0 h : PmHeap} {A : Nat → Place} {D : Nat → Place × Bool} (w : Owned h0 h A D) {r : Nat} {o : PmRef} {b : Bool}
    {k : Str} {h1 : PmHeap} {c : Nat} {A1 : Nat → Place} {D1 : Nat → Place × Bool} {o1 : PmRef}
    (a : Appended h0 h A D r o b k h1 c A1 D1 o1) (hr : h0.objs.length ≤ r) (ho : h.objs[r]? = some o)
    {ts us : List (Str × Pmod)} (d1 : DenAll h.view (h.dict (fld b o)) ts) (d2 : DenAll h.view (h.dict (fld (!b) o)) us) :
    Den h1.view c ((dget ts k).getD Pmod.empty) ∧ DenAll h1.view (h1.dict (fld (!b) o1)) us ∧
    (k, c) ∈ h1.dict (fld b o1) ∧ dget (h1.dict (fld b o1)) k = some c ∧
    ∃ ts1, DenAll h1.view (h1.dict (fld b o1)) ts1 ∧
      ∀ v, dset ts1 k v = if b then ddel ts k ++ [(k, v)] else dset ts k v := by
  have kids : ∀ b' ts', DenAll h.view (h.dict (fld b' o)) ts' → DenAll h1.view (h.dict (fld b' o)) ts' := by
    intro b' ts' d
    apply frame_denAll w a.frame d
    intro k' c' hm
    obtain ⟨l1, _, e⟩ := w.kids r o b' hr ho k' c' hm
    refine ⟨l1, ?_⟩
    intro ee he
    rw [e, List.append_assoc] at he
    have := congrArg List.length he
    simp at this
  have e1 := kids b ts d1
  have e2 := kids (!b) us d2
  rw [← a.other] at e2
  rcases a.entries with ⟨g, rfl, hn, hL⟩ | ⟨g, hL⟩
  · have gt : dget ts k = none := by
      rcases denAll_get d1 k with ⟨_, x⟩ | ⟨_, _, x, _⟩
      · exact x
      · rw [g] at x; cases x
    rw [gt, hL]
    refine ⟨den_new a.owned.sound hn, e2, by simp, by rw [dget_append, g]; simp [dget], ts ++ [(k, Pmod.empty)],
      denAll_append e1 (.cons k _ _ [] [] (den_new a.owned.sound hn) .nil), ?_⟩
    intro v
    rw [dset_snoc_absent gt]
    cases b
    · simp [dset_absent gt]
    · simp [ddel_absent gt]
  · obtain ⟨c0, tc, g1, g2, dc⟩ : ∃ r t, dget (h.dict (fld b o)) k = some r ∧ dget ts k = some t ∧ Den h1.view r t := by
      rcases denAll_get e1 k with ⟨x, _⟩ | x
      · rw [g] at x; cases x
      · exact x
    rw [g] at g1
    cases g1
    rw [g2, hL]
    cases b with
    | false =>
      simp only [Option.getD_some, Bool.false_eq_true, if_false]
      exact ⟨dc, e2, mem_of_dget g, g, ts, e1, fun v => rfl⟩
    | true =>
      simp only [Option.getD_some, if_true]
      have gd : dget (ddel ts k) k = none := by rw [dget_ddel]; simp
      refine ⟨dc, e2, by simp, by rw [dget_append, dget_ddel]; simp [dget], ddel ts k ++ [(k, tc)],
        denAll_append (denAll_filter (fun x => decide (x ≠ k)) e1) (.cons k _ _ [] [] dc .nil), ?_⟩
      intro v
      rw [dset_snoc_absent gd]

theorem not_prefix_longer (p : Place) (x : Bool × Str) : ¬ (p ++ [x]) <+: p := by
  intro h
  have := h.length_le
  simp at this
  omega

theorem not_prefix_sibling {p : Place} {x y : Bool × Str} (hne : x ≠ y) (e : Place) : ¬ (p ++ [x]) <+: (p ++ [y] ++ e) := by
  rw [List.append_assoc, List.prefix_append_right_inj]
  intro h
  obtain ⟨s, hs⟩ := h
  simp at hs
  exact hne hs.1

/-- All patterns of a path compile. -/
def pathOk (E : RegexLib) (ks : List Str) : Bool := ks.all (fun s => !startsWith ['~'] s || E.compiles s.tail)

theorem insertTuple_den (E : RegexLib) (t : Str) (h0 : PmHeap) (ks : List Str) : ∀ h A D r tree, Owned h0 h A D →
    h0.objs.length ≤ r → Den h.view r tree →
    ∃ A' D', Owned h0 (insertTuple E t ks h r).1 A' D' ∧
      Frame h0 (A r <+: ·) h A D (insertTuple E t ks h r).1 A' D' ∧
      (pathOk E ks = true → (insertTuple E t ks h r).2 = none ∧ Den (insertTuple E t ks h r).1.view r (tree.insert t ks)) ∧
      (pathOk E ks = false → (insertTuple E t ks h r).2 = some .valueError) := by
  induction ks with
  | nil =>
    intro h A D r tree w hr d
    obtain ⟨o, ho, _, h1, h2⟩ := den_inv d
    have lr : r < h.objs.length := (List.getElem?_eq_some_iff.1 ho).1
    have hu := untouched_le w.base
    simp only [insertTuple, ho]
    have hget : ∀ (i : Nat) (o' : PmRef), (h.objs.set r { o with alias := some t })[i]? = some o' →
        ∃ o0, h.objs[i]? = some o0 ∧ ∀ b, fld b o' = fld b o0 := by
      intro i o' hi
      by_cases e : i = r
      · subst e
        rw [List.getElem?_set_self lr] at hi
        cases hi
        exact ⟨o, ho, fun b => by cases b <;> rfl⟩
      · rw [List.getElem?_set_ne (Ne.symm e)] at hi
        exact ⟨o', hi, fun _ => rfl⟩
    have hback : ∀ (i : Nat) (o0 : PmRef), h.objs[i]? = some o0 →
        ∃ o', (h.objs.set r { o with alias := some t })[i]? = some o' ∧ ∀ b, fld b o' = fld b o0 := by
      intro i o0 hi
      by_cases e : i = r
      · subst e
        rw [ho] at hi; cases hi
        exact ⟨_, List.getElem?_set_self lr, fun b => by cases b <;> rfl⟩
      · exact ⟨o0, by rw [List.getElem?_set_ne (Ne.symm e)]; exact hi, fun _ => rfl⟩
    have w' : Owned h0 { h with objs := h.objs.set r { o with alias := some t } } A D := by
      refine ⟨w.two, ⟨w.sound.steps, w.sound.regxs, ?_⟩, ⟨?_, w.base.dicts⟩, ?_, ?_, ?_, ?_, ?_⟩
      · intro o' ho'
        rcases List.mem_or_eq_of_mem_set ho' with hm | rfl
        · exact w.sound.refs o' hm
        · exact w.sound.refs o (List.mem_of_getElem? ho)
      · intro i hi
        show (h.objs.set _ _)[i]? = _
        rw [List.getElem?_set_ne (by omega), w.base.objs i hi]
      · intro i j i1 i2 j1 j2
        simp only [List.length_set] at i2 j2
        exact w.inj i j i1 i2 j1 j2
      · intro i o' b i1 hi
        obtain ⟨o0, a, e⟩ := hget i o' hi
        rw [e]; exact w.owner i o0 b i1 a
      · intro i o' b i1 hi
        obtain ⟨o0, a, e⟩ := hget i o' hi
        rw [e]; exact w.nodup i o0 b i1 a
      · intro i o' b i1 hi
        obtain ⟨o0, a, e⟩ := hget i o' hi
        rw [e]
        simp only [List.length_set]
        exact w.kids i o0 b i1 a
      · intro i q b k i1 i2 e
        simp only [List.length_set] at i2
        obtain ⟨j, oj, j1, j2, j3, j4⟩ := w.real i q b k i1 i2 e
        obtain ⟨o', a, e'⟩ := hback j oj j2
        exact ⟨j, o', j1, a, j3, by rw [e']; exact j4⟩
    have f : Frame h0 (· = A r) h A D { h with objs := h.objs.set r { o with alias := some t } } A D := by
      refine ⟨by simp, Nat.le_refl _, fun _ _ => rfl, fun _ _ => rfl, ?_, fun _ _ _ => rfl⟩
      intro j _ _ hne
      have : j ≠ r := fun e => hne (by rw [e])
      show (h.objs.set _ _)[j]? = _
      rw [List.getElem?_set_ne (Ne.symm this)]
    refine ⟨A, D, w', frame_mono f (fun a e => by rw [e]; exact List.prefix_rfl), ?_, ?_⟩
    · intro _
      refine ⟨trivial, ?_⟩
      have kids : ∀ b' ts', DenAll h.view (h.dict (fld b' o)) ts' →
          DenAll (PmHeap.view { h with objs := h.objs.set r { o with alias := some t } }) (h.dict (fld b' o)) ts' := by
        intro b' ts' d
        apply frame_denAll w f d
        intro k' c' hm
        obtain ⟨l1, _, e⟩ := w.kids r o b' hr ho k' c' hm
        refine ⟨l1, ?_⟩
        intro ee he
        rw [e, List.append_assoc] at he
        have := congrArg List.length he
        simp at this
      have := den_intro (h := { h with objs := h.objs.set r { o with alias := some t } }) (r := r)
        (o := { o with alias := some t }) (List.getElem?_set_self lr) (kids false _ h1) (kids true _ h2)
      obtain ⟨a0, s0, r0⟩ := tree
      exact this
    · intro e; simp [pathOk] at e
  | cons s ks ih =>
    intro h A D r tree w hr d
    obtain ⟨o, ho, ha, d1, d2⟩ := den_inv d
    have lr : r < h.objs.length := (List.getElem?_eq_some_iff.1 ho).1
    -- one key, of steps or of patterns
    have key : ∀ (b : Bool) (k : Str) (h1 : PmHeap) (c : Nat) (A1 : Nat → Place) (D1 : Nat → Place × Bool) (o1 : PmRef),
        Appended h0 h A D r o b k h1 c A1 D1 o1 →
        ∃ A' D', Owned h0 (insertTuple E t ks h1 c).1 A' D' ∧
          Frame h0 (A r <+: ·) h A D (insertTuple E t ks h1 c).1 A' D' ∧
          (pathOk E ks = true → (insertTuple E t ks h1 c).2 = none ∧
            ∃ o2, (insertTuple E t ks h1 c).1.objs[r]? = some o2 ∧ o2.alias = o.alias ∧
            DenAll (insertTuple E t ks h1 c).1.view ((insertTuple E t ks h1 c).1.dict (fld (!b) o2)) (kidsOf (!b) tree) ∧
            DenAll (insertTuple E t ks h1 c).1.view ((insertTuple E t ks h1 c).1.dict (fld b o2))
              (if b then ddel (kidsOf b tree) k ++ [(k, Pmod.insert t ks ((dget (kidsOf b tree) k).getD Pmod.empty))]
               else dset (kidsOf b tree) k (Pmod.insert t ks ((dget (kidsOf b tree) k).getD Pmod.empty)))) ∧
          (pathOk E ks = false → (insertTuple E t ks h1 c).2 = some .valueError) := by
      intro b k h1 c A1 D1 o1 a
      have db : ∀ b', DenAll h.view (h.dict (fld b' o)) (kidsOf b' tree) := by
        intro b'; cases b'
        · exact d1
        · exact d2
      obtain ⟨dc, dother, hmem, hg, ts1, dts, hset⟩ := appended_den w a hr ho (db b) (db (!b))
      obtain ⟨c1, c2, c3⟩ := a.owned.kids r o1 b hr a.obj k c hmem
      have hAr : A1 r = A r := a.frame.sameA r lr
      obtain ⟨A', D', w', f', hok, hbad⟩ := ih h1 A1 D1 c _ a.owned c1 dc
      generalize hres : insertTuple E t ks h1 c = res at *
      obtain ⟨h2, out⟩ := res
      simp only at w' f' hok hbad ⊢
      rw [c3] at f'
      refine ⟨A', D', w', ?_, ?_, hbad⟩
      · refine frame_trans (frame_mono a.frame (fun x e => by rw [e]; exact List.prefix_rfl)) (frame_mono f' ?_)
        intro x hx
        rw [hAr] at hx
        exact (List.prefix_append _ _).trans hx
      · intro hp
        obtain ⟨hn, dc'⟩ := hok hp
        have lr1 : r < h1.objs.length := (List.getElem?_eq_some_iff.1 a.obj).1
        have hobj : h2.objs[r]? = some o1 := by
          rw [f'.objs r hr lr1 (not_prefix_longer _ _)]; exact a.obj
        have hdict : ∀ b', h2.dict (fld b' o1) = h1.dict (fld b' o1) := by
          intro b'
          apply f'.dicts _ (sound_fld a.owned.sound a.obj b')
          rcases a.owned.owner r o1 b' hr a.obj with e | ⟨_, e⟩
          · exact .inl e
          · right; rw [e]; exact not_prefix_longer _ _
        refine ⟨hn, o1, hobj, a.alias, ?_, ?_⟩
        · rw [hdict]
          apply frame_denAll a.owned f' dother
          intro k' c' hm
          obtain ⟨l1, _, e⟩ := a.owned.kids r o1 (!b) hr a.obj k' c' hm
          refine ⟨l1, ?_⟩
          intro ee
          rw [e]
          apply not_prefix_sibling
          cases b <;> simp
        · rw [hdict, ← hset]
          refine denAll_replace dc' _ _ dts (a.owned.nodup r o1 b hr a.obj) hg ?_
          intro k' c' t' hm hne dt
          obtain ⟨l1, _, e⟩ := a.owned.kids r o1 b hr a.obj k' c' hm
          apply frame_den a.owned f' dt l1
          intro ee
          rw [e]
          apply not_prefix_sibling
          simp only [ne_eq, Prod.mk.injEq, true_and]
          exact fun x => hne x.symm
    obtain ⟨a0, s0, r0⟩ := tree
    by_cases hs : startsWith ['~'] s = true
    · by_cases hc : E.compiles s.tail = true
      · obtain ⟨A1, D1, o1, a⟩ := appendIntoRegxs_appended w s.tail hr ho
        obtain ⟨A', D', x1, x2, x3, x4⟩ := key true s.tail _ _ A1 D1 o1 a
        have hstep : insertTuple E t (s :: ks) h r =
            insertTuple E t ks (appendIntoRegxs h r s.tail).1 (appendIntoRegxs h r s.tail).2 := by
          simp [insertTuple, hs, hc]
        have hpath : pathOk E (s :: ks) = pathOk E ks := by simp [pathOk, hs, hc]
        rw [hstep, hpath]
        refine ⟨A', D', x1, x2, ?_, x4⟩
        intro hp
        obtain ⟨y1, o2, y2, y3, y4, y5⟩ := x3 hp
        refine ⟨y1, ?_⟩
        have := den_intro y2 (by simpa using y4) y5
        rw [y3, ← ha] at this
        simpa [Pmod.insert, hs, kidsOf, Pmod.alias, Pmod.steps, Pmod.regxs] using this
      · have hstep : insertTuple E t (s :: ks) h r = (h, some .valueError) := by
          simp [insertTuple, hs, hc]
        have hpath : pathOk E (s :: ks) = false := by simp [pathOk, hs, hc]
        rw [hstep, hpath]
        exact ⟨A, D, w, frame_refl _ _ _ _ _, by simp, by simp⟩
    · obtain ⟨A1, D1, o1, a⟩ := appendIntoSteps_appended w s hr ho
      obtain ⟨A', D', x1, x2, x3, x4⟩ := key false s _ _ A1 D1 o1 a
      have hstep : insertTuple E t (s :: ks) h r =
          insertTuple E t ks (appendIntoSteps h r s).1 (appendIntoSteps h r s).2 := by
        simp [insertTuple, hs]
      have hpath : pathOk E (s :: ks) = pathOk E ks := by simp [pathOk, hs]
      rw [hstep, hpath]
      refine ⟨A', D', x1, x2, ?_, x4⟩
      intro hp
      obtain ⟨y1, o2, y2, y3, y4, y5⟩ := x3 hp
      refine ⟨y1, ?_⟩
      have := den_intro y2 y5 (by simpa using y4)
      rw [y3, ← ha] at this
      simpa [Pmod.insert, hs, kidsOf, Pmod.alias, Pmod.steps, Pmod.regxs] using this

/-- The outcome of building. -/
def Outcome (r : Nat) (res : PmHeap × Except PyErr Nat) : Except PyErr Pmod → Prop
  | .ok t => res.2 = .ok r ∧ Den res.1.view r t
  | .error e => res.2 = .error e

theorem insertTuples_den (E : RegexLib) (h0 : PmHeap) (ts : List (Option Str × Option Str)) : ∀ h A D r tree, Owned h0 h A D →
    h0.objs.length ≤ r → Den h.view r tree →
    Untouched h0 (insertTuples E r ts h).1 ∧ Sound (insertTuples E r ts h).1 ∧
    Outcome r (insertTuples E r ts h) (pmodsLoop E tree ts) := by
  induction ts with
  | nil =>
    intro h A D r tree w hr d
    exact ⟨w.base, w.sound, rfl, d⟩
  | cons x ts ih =>
    intro h A D r tree w hr d
    obtain ⟨f, t⟩ := x
    cases f with
    | none => exact ih h A D r tree w hr d
    | some f =>
      cases t with
      | none => exact ih h A D r tree w hr d
      | some t =>
        simp only [insertTuples, pmodsLoop]
        split
        · exact ih h A D r tree w hr d
        · obtain ⟨A', D', w', _, hok, hbad⟩ := insertTuple_den E t h0 (iterPartsRelaxed f) h A D r tree w hr d
          generalize hres : insertTuple E t (iterPartsRelaxed f) h r = res at *
          obtain ⟨h2, out⟩ := res
          simp only at w' hok hbad
          by_cases hp : pathOk E (iterPartsRelaxed f) = true
          · obtain ⟨rfl, d'⟩ := hok hp
            have hp' := hp
            unfold pathOk at hp'
            rw [if_pos hp']
            exact ih h2 A' D' r _ w' hr d'
          · have hp2 : pathOk E (iterPartsRelaxed f) = false := by simpa using hp
            have hp' := hp2
            unfold pathOk at hp'
            rw [hp', hbad hp2]
            exact ⟨w'.base, w'.sound, rfl⟩

/-- One new object, at the root. -/
theorem owned_root {h : PmHeap} (w : Sound h) :
    Owned h { h with objs := h.objs ++ [.new] } (fun _ => []) (fun _ => ([], false)) := by
  have two : 2 ≤ h.dicts.length := by
    have := (List.getElem?_eq_some_iff.1 w.regxs).1; omega
  have snd : Sound { h with objs := h.objs ++ [.new] } :=
    newObj_sound w _ (by show 0 < _; omega) (by show 1 < _; omega)
  have hlast : ∀ (i : Nat) (o : PmRef), h.objs.length ≤ i → (h.objs ++ [PmRef.new])[i]? = some o → o = .new := by
    intro i o hi ho
    rw [List.getElem?_append_right hi] at ho
    have := (List.getElem?_eq_some_iff.1 ho).1
    simp at this
    simp [this] at ho
    exact ho.symm
  refine ⟨two, snd, newObj_untouched h _, ?_, ?_, ?_, ?_, ?_⟩
  · intro i j i1 i2 j1 j2 _
    simp at i2 j2; omega
  · intro i o b i1 hi
    rw [hlast i o i1 hi]; left; exact new_dict snd b
  · intro i o b i1 hi
    rw [hlast i o i1 hi, new_dict snd b]; exact List.nodup_nil
  · intro i o b i1 hi k c hm
    rw [hlast i o i1 hi, new_dict snd b] at hm; cases hm
  · intro i q b k _ _ e
    have := congrArg List.length e
    simp at this

theorem fromTuplesH_den (E : RegexLib) (ts : List (Option Str × Option Str)) {h : PmHeap} (w : Sound h) :
    Untouched h (fromTuplesH E ts h).1 ∧ Sound (fromTuplesH E ts h).1 ∧
    Outcome h.objs.length (fromTuplesH E ts h) (pmodsFromTuples E ts) := by
  have w' := owned_root w
  have := insertTuples_den E h ts _ _ _ h.objs.length Pmod.empty w' (Nat.le_refl _) (den_new w'.sound (by simp))
  exact this

end Lemmas
