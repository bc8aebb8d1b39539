import Verif.Spec.SetMany
import Verif.Lemmas.JsonPointerResolve
import Verif.Lemmas.JsonPointer
/-
C137: setting many values at json-pointers.
-/
namespace Props
open Py Model Spec

private def items : Doc → List (Str × Doc)
  | .dict kvs => kvs
  | _ => []

private def child (d : Doc) (p : Str) : Doc := (dget (items d) p).getD .null

/-- Setting where no list is met. -/
private def setK (v : Doc) (d : Doc) : List Str → Doc
  | [] => v
  | p :: ps => .dict (dset (items d) p (setK v (child d p) ps))

private def NoList (d : Doc) : List Str → Prop
  | [] => True
  | p :: ps => (∀ xs, d ≠ .list xs) ∧ NoList (child d p) ps

private theorem setK_null (v : Doc) (ps : List Str) : setK v .null ps = mkBranch v ps := by
  induction ps with
  | nil => rfl
  | cons p ps ih =>
    have : child .null p = .null := rfl
    simp only [setK, this, ih, mkBranch, items, dset]

private theorem setParts_eq (v : Doc) : ∀ (ps : List Str) (d : Doc) (r : Bool), NoList d ps → (r = true → ∃ kvs, d = .dict kvs) →
    setParts r v d ps = .ok (setK v d ps) := by
  intro ps
  induction ps with
  | nil => intro d r _ _; rfl
  | cons p ps ih =>
    intro d r hn hr
    have other : (∀ kvs, d ≠ .dict kvs) → setIdx d p = .ok (.s p) → d.getItem (.s p) = .error .type →
        setParts r v d (p :: ps) = .ok (setK v d (p :: ps)) := by
      intro h1 h2 h3
      have hf : r = false := by
        cases r with
        | false => rfl
        | true => obtain ⟨kvs, e⟩ := hr rfl; exact absurd e (h1 kvs)
      have hi : items d = [] := by cases d <;> first | rfl | exact absurd rfl (h1 _)
      have hc : child d p = .null := by simp [child, hi]
      simp only [setParts, h2, h3, hf, setK, hi, hc, setK_null, dset]
      rfl
    cases d with
    | list xs => exact absurd rfl (hn.1 xs)
    | dict kvs =>
      simp only [setParts, setIdx, Doc.getItem]
      cases hg : dget kvs p with
      | none =>
        have hc : child (.dict kvs) p = .null := by simp [child, items, hg]
        simp only [setK, hc, setK_null, attach, items]
      | some c =>
        have hc : child (.dict kvs) p = c := by simp [child, items, hg]
        have := ih c false (by have := hn.2; rw [hc] at this; exact this) (by simp)
        simp only [this, setK, hc, attach, items]
    | _ => exact other (by intro kvs e; cases e) rfl rfl

private theorem noList_of (parts : List Str) : ∀ d, MeetsNoList d parts → NoList d parts := by
  induction parts with
  | nil => intro d _; trivial
  | cons p ps ih =>
    intro d h
    refine ⟨?_, ih _ ?_⟩
    · rintro xs rfl
      have := h [] (p :: ps) xs rfl (.nil _)
      cases this
    · intro pre post xs e hr
      unfold child at hr
      cases hg : dget (items d) p with
      | none =>
        rw [hg] at hr
        change Reach .null pre (.list xs) at hr
        cases hr
      | some c =>
        rw [hg] at hr
        change Reach c pre (.list xs) at hr
        cases d with
        | dict kvs =>
          obtain ⟨b, a, e1, e2⟩ := (dget_eq_some_iff kvs p c).1 hg
          subst e1
          exact h (p :: pre) post xs (by rw [e]; rfl) (.key b a p c pre _ e2 hr)
        | _ => cases hg

/-- Reading through objects. -/
private def getK (d : Doc) : List Str → Option Doc
  | [] => some d
  | p :: ps => (dget (items d) p).bind (fun c => getK c ps)

private theorem getK_resolve (ps : List Str) : ∀ d v, getK d ps = some v → resolveParts d ps = some v := by
  induction ps with
  | nil => intro d v h; exact h
  | cons p ps ih =>
    intro d v h
    simp only [getK, Option.bind_eq_some_iff] at h
    obtain ⟨c, h1, h2⟩ := h
    cases d with
    | dict kvs => rw [resolveParts_dict]; change dget kvs p = some c at h1; rw [h1]; exact ih c v h2
    | _ => cases h1

private theorem getK_self (v : Doc) (ps : List Str) : ∀ d, getK (setK v d ps) ps = some v := by
  induction ps with
  | nil => intro d; rfl
  | cons p ps ih => intro d; simp only [setK, getK, items, dget_dset_self, Option.bind_some, ih]

private theorem getK_cons (d : Doc) (p : Str) (ps : List Str) (h : ps ≠ []) : getK d (p :: ps) = getK (child d p) ps := by
  simp only [getK, child]
  cases dget (items d) p with
  | some c => rfl
  | none =>
    cases ps with
    | nil => exact absurd rfl h
    | cons q qs => rfl

private theorem unrelated_cons {p : Str} {ps qs : List Str} (h : Unrelated (p :: ps) (p :: qs)) : Unrelated ps qs :=
  ⟨fun e => h.1 ((List.cons_prefix_cons).2 ⟨rfl, e⟩), fun e => h.2 ((List.cons_prefix_cons).2 ⟨rfl, e⟩)⟩

private theorem unrelated_ne {ps qs : List Str} (h : Unrelated ps qs) : ps ≠ [] ∧ qs ≠ [] :=
  ⟨by rintro rfl; exact h.1 List.nil_prefix, by rintro rfl; exact h.2 List.nil_prefix⟩

private theorem child_set (v : Doc) (d : Doc) (p q : Str) (ps : List Str) :
    child (setK v d (p :: ps)) q = if q = p then setK v (child d p) ps else child d q := by
  simp only [setK]
  unfold child
  simp only [items, dget_dset]
  split
  · rfl
  · rfl

private theorem getK_frame (v : Doc) : ∀ (ps qs : List Str), Unrelated ps qs → ∀ d, getK (setK v d ps) qs = getK d qs := by
  intro ps
  induction ps with
  | nil => intro qs h; exact absurd rfl (unrelated_ne h).1
  | cons p ps ih =>
    intro qs h d
    cases qs with
    | nil => exact absurd rfl (unrelated_ne h).2
    | cons q qs =>
      by_cases e : q = p
      · subst e
        have hu := unrelated_cons h
        rw [getK_cons _ _ _ (unrelated_ne hu).2, getK_cons _ _ _ (unrelated_ne hu).2, child_set, if_pos rfl]
        exact ih qs hu _
      · simp only [setK, getK, items, dget_dset, if_neg e]

private theorem noList_frame (v : Doc) : ∀ (ps qs : List Str), Unrelated ps qs → ∀ d, NoList d qs → NoList (setK v d ps) qs := by
  intro ps
  induction ps with
  | nil => intro qs h; exact absurd rfl (unrelated_ne h).1
  | cons p ps ih =>
    intro qs h d hn
    cases qs with
    | nil => trivial
    | cons q qs =>
      refine ⟨(by intro xs e; cases e), ?_⟩
      rw [child_set]
      split
      · next e => subst e; exact ih qs (unrelated_cons h) _ hn.2
      · exact hn.2

private theorem set_eq {d v : Doc} {parts : List Str} (hd : ∃ kvs, d = .dict kvs) (hne : parts ≠ []) (hn : NoList d parts) :
    setJsonPointer d (pointerOf parts) v = .ok (setK v d parts) ∧ ∃ kvs, setK v d parts = .dict kvs := by
  unfold setJsonPointer
  rw [iterParts_pointerOf]
  cases parts with
  | nil => exact absurd rfl hne
  | cons p ps => exact ⟨setParts_eq v _ d true hn (fun _ => hd), ⟨_, rfl⟩⟩

private theorem walk_getK (qs : List Str) : ∀ d w, Walk d (qs.map Step.key) w ↔ getK d qs = some w := by
  induction qs with
  | nil =>
    intro d w
    constructor
    · intro h; cases h; rfl
    · intro h; injection h with h; subst h; exact .nil _
  | cons q qs ih =>
    intro d w
    constructor
    · intro h
      generalize hs : (q :: qs).map Step.key = s at h
      cases h with
      | nil => cases hs
      | key b a k c st _ h1 h2 =>
        injection hs with hs1 hs2
        injection hs1 with hs1
        subst hs1 hs2
        simp only [getK, items, dget_append_mid h1, Option.bind_some]
        exact (ih c w).1 h2
      | idx => injection hs with hs1 hs2; cases hs1
    · intro h
      simp only [getK, Option.bind_eq_some_iff] at h
      obtain ⟨c, h1, h2⟩ := h
      cases d with
      | dict kvs =>
        obtain ⟨b, a, e1, e2⟩ := (dget_eq_some_iff kvs q c).1 h1
        subst e1
        exact .key b a q c _ w e2 ((ih c w).2 h2)
      | _ => cases h1

private theorem all_sets : ∀ (sets : List (List Str × Doc)) (d : Doc), (∃ kvs, d = .dict kvs) → (∀ s ∈ sets, s.1 ≠ []) →
    (∀ s ∈ sets, NoList d s.1) → sets.Pairwise (fun a b => Unrelated a.1 b.1) →
    ∃ d', SetAll d sets d' ∧ (∀ s ∈ sets, getK d' s.1 = some s.2) ∧
      ∀ q, (∀ s ∈ sets, Unrelated s.1 q) → getK d' q = getK d q := by
  intro sets
  induction sets with
  | nil => intro d _ _ _ _; exact ⟨d, .nil d, by simp, fun _ _ => rfl⟩
  | cons s sets ih =>
    intro d hd hne hn hp
    obtain ⟨parts, v⟩ := s
    have hp' := List.pairwise_cons.1 hp
    obtain ⟨e1, e2⟩ := set_eq (v := v) hd (hne (parts, v) (by simp)) (hn (parts, v) (by simp))
    obtain ⟨d', i1, i2, i3⟩ := ih (setK v d parts) e2 (fun s hs => hne s (by simp [hs]))
      (fun s hs => noList_frame v parts s.1 (hp'.1 s hs) d (hn s (by simp [hs]))) hp'.2
    refine ⟨d', .cons _ _ _ _ _ _ e1 i1, ?_, ?_⟩
    · intro s hs
      rcases List.mem_cons.1 hs with rfl | hs
      · rw [i3 parts (fun s hs => ⟨(hp'.1 s hs).2, (hp'.1 s hs).1⟩)]
        exact getK_self v parts d
      · exact i2 s hs
    · intro q hq
      rw [i3 q (fun s hs => hq s (by simp [hs]))]
      exact getK_frame v parts q (hq (parts, v) (by simp)) d

private theorem setAll_unique {d : Doc} {sets} {d1 : Doc} (h1 : SetAll d sets d1) : ∀ {d2}, SetAll d sets d2 → d1 = d2 := by
  induction h1 with
  | nil => intro d2 h2; cases h2; rfl
  | cons d a b parts v rest e _ ih =>
    intro d2 h2
    cases h2 with
    | cons _ a' _ _ _ _ e' h2 =>
      rw [e] at e'
      injection e' with e'
      subst e'
      exact ih h2

/-- C137. Values can be set at any number of pointers into an object that meet no list, if none is the beginning of another: setting
succeeds, and afterwards every pointer reads the value set there. -/
theorem C137_all (kvs : List (Str × Doc)) (sets : List (List Str × Doc)) (hne : ∀ s ∈ sets, s.1 ≠ [])
    (hl : ∀ s ∈ sets, MeetsNoList (.dict kvs) s.1) (hp : sets.Pairwise (fun a b => Unrelated a.1 b.1)) :
    ∃ d', SetAll (.dict kvs) sets d' ∧ ∀ s ∈ sets, resolveJsonPointer d' (pointerOf s.1) none = .ok s.2 := by
  obtain ⟨d', h1, h2, -⟩ := all_sets sets (.dict kvs) ⟨kvs, rfl⟩ hne (fun s hs => noList_of _ _ (hl s hs)) hp
  refine ⟨d', h1, fun s hs => ?_⟩
  simp only [resolveJsonPointer, iterParts_pointerOf, getK_resolve _ _ _ (h2 s hs)]

/-- C137. These values are found by following the keys, one after the other. -/
theorem C137_keys (kvs : List (Str × Doc)) (sets : List (List Str × Doc)) (hne : ∀ s ∈ sets, s.1 ≠ [])
    (hl : ∀ s ∈ sets, MeetsNoList (.dict kvs) s.1) (hp : sets.Pairwise (fun a b => Unrelated a.1 b.1)) (d' : Doc)
    (h : SetAll (.dict kvs) sets d') : ∀ s ∈ sets, Walk d' (s.1.map Step.key) s.2 := by
  obtain ⟨d'', h1, h2, -⟩ := all_sets sets (.dict kvs) ⟨kvs, rfl⟩ hne (fun s hs => noList_of _ _ (hl s hs)) hp
  have := setAll_unique h h1
  subst this
  exact fun s hs => (walk_getK _ _ _).2 (h2 s hs)

/-- C137. What is under keys unrelated to all these pointers stays. -/
theorem C137_rest (kvs : List (Str × Doc)) (sets : List (List Str × Doc)) (hne : ∀ s ∈ sets, s.1 ≠ [])
    (hl : ∀ s ∈ sets, MeetsNoList (.dict kvs) s.1) (hp : sets.Pairwise (fun a b => Unrelated a.1 b.1)) (d' : Doc)
    (h : SetAll (.dict kvs) sets d') (keys : List Str) (hk : ∀ s ∈ sets, Unrelated s.1 keys) (w : Doc) :
    Walk d' (keys.map Step.key) w ↔ Walk (.dict kvs) (keys.map Step.key) w := by
  obtain ⟨d'', h1, -, h3⟩ := all_sets sets (.dict kvs) ⟨kvs, rfl⟩ hne (fun s hs => noList_of _ _ (hl s hs)) hp
  have := setAll_unique h h1
  subst this
  rw [walk_getK, walk_getK, h3 keys hk]

/-! ### The order of setting -/

private theorem same_trans {a b : Doc} (h : SameDoc a b) : ∀ {c}, SameDoc b c → SameDoc a c := by
  induction h with
  | refl d => intro c h; exact h
  | list xs ys hl he ih =>
    intro c h
    cases h with
    | refl => exact .list _ _ hl he
    | list _ zs hl' he' =>
      refine .list _ _ (hl.trans hl') (fun i x z hx hz => ?_)
      have hi : i < ys.length := by rw [← hl]; exact (List.getElem?_eq_some_iff.1 hx).1
      exact ih i x ys[i] hx (List.getElem?_eq_getElem hi) (he' i ys[i] z (List.getElem?_eq_getElem hi) hz)
  | dict kvs lvs hs he ih =>
    intro c h
    cases h with
    | refl => exact .dict _ _ hs he
    | dict _ mvs hs' he' =>
      refine .dict _ _ (fun k => (hs k).trans (hs' k)) (fun k x z hx hz => ?_)
      cases hy : dget lvs k with
      | none => have := hs k; rw [hx, hy] at this; cases this
      | some y => exact ih k x y hx hy (he' k y z hy hz)

private theorem same_items {a b : Doc} (h : SameDoc a b) (k : Str) : (dget (items a) k).isSome = (dget (items b) k).isSome ∧
    ∀ x y, dget (items a) k = some x → dget (items b) k = some y → SameDoc x y := by
  cases h with
  | refl => exact ⟨rfl, fun x y h1 h2 => by rw [h1] at h2; injection h2 with h2; subst h2; exact .refl _⟩
  | list => exact ⟨rfl, fun x y h1 => by cases h1⟩
  | dict _ _ h1 h2 => exact ⟨h1 k, h2 k⟩

private theorem same_child {a b : Doc} (h : SameDoc a b) (k : Str) : SameDoc (child a k) (child b k) := by
  obtain ⟨h1, h2⟩ := same_items h k
  unfold child
  cases ha : dget (items a) k with
  | none =>
    rw [ha] at h1
    cases hb : dget (items b) k with
    | none => exact .refl _
    | some y => rw [hb] at h1; cases h1
  | some x =>
    rw [ha] at h1
    cases hb : dget (items b) k with
    | none => rw [hb] at h1; cases h1
    | some y => exact h2 x y ha hb

private theorem same_dset {a b : Doc} (h : SameDoc a b) (p : Str) {x y : Doc} (hxy : SameDoc x y) :
    SameDoc (.dict (dset (items a) p x)) (.dict (dset (items b) p y)) := by
  refine .dict _ _ (fun k => ?_) (fun k x' y' h1 h2 => ?_)
  · rw [dget_dset, dget_dset]
    split
    · rfl
    · exact (same_items h k).1
  · rw [dget_dset] at h1 h2
    split at h1
    · next e =>
      rw [if_pos e] at h2
      injection h1 with h1
      injection h2 with h2
      subst h1 h2
      exact hxy
    · next e =>
      rw [if_neg e] at h2
      exact (same_items h k).2 x' y' h1 h2

private theorem setK_same (v : Doc) : ∀ (ps : List Str) {a b : Doc}, SameDoc a b → SameDoc (setK v a ps) (setK v b ps) := by
  intro ps
  induction ps with
  | nil => intro a b _; exact .refl _
  | cons p ps ih => intro a b h; exact same_dset h p (ih (same_child h p))

private theorem dset_comm {kvs : List (Str × Doc)} {p q : Str} (hpq : p ≠ q) (x y : Doc) :
    SameDoc (.dict (dset (dset kvs p x) q y)) (.dict (dset (dset kvs q y) p x)) := by
  have : ∀ k, dget (dset (dset kvs p x) q y) k = dget (dset (dset kvs q y) p x) k := by
    intro k
    simp only [dget_dset]
    by_cases h1 : k = q
    · have : k ≠ p := fun e => hpq (e.symm.trans h1)
      rw [if_pos h1, if_neg this, if_pos h1]
    · rw [if_neg h1, if_neg h1]
  refine .dict _ _ (fun k => by rw [this]) (fun k a b h1 h2 => ?_)
  rw [this, h2] at h1
  injection h1 with h1
  subst h1
  exact .refl _

private theorem setK_comm (v w : Doc) : ∀ (ps qs : List Str), Unrelated ps qs → ∀ d,
    SameDoc (setK w (setK v d ps) qs) (setK v (setK w d qs) ps) := by
  intro ps
  induction ps with
  | nil => intro qs h; exact absurd rfl (unrelated_ne h).1
  | cons p ps ih =>
    intro qs h d
    cases qs with
    | nil => exact absurd rfl (unrelated_ne h).2
    | cons q qs =>
      by_cases e : q = p
      · subst e
        have e1 : ∀ (x y : Doc) (a b : List Str), setK y (setK x d (q :: a)) (q :: b) =
            .dict (dset (dset (items d) q (setK x (child d q) a)) q (setK y (setK x (child d q) a) b)) := by
          intro x y a b
          rw [show setK y (setK x d (q :: a)) (q :: b) =
            .dict (dset (items (setK x d (q :: a))) q (setK y (child (setK x d (q :: a)) q) b)) from rfl, child_set, if_pos rfl]
          rfl
        rw [e1, e1]
        have hc := ih qs (unrelated_cons h) (child d q)
        refine .dict _ _ (fun k => ?_) (fun k x y h1 h2 => ?_)
        · simp only [dget_dset]; split <;> rfl
        · simp only [dget_dset] at h1 h2
          split at h1
          · next ek =>
            rw [if_pos ek] at h2
            injection h1 with h1
            injection h2 with h2
            subst h1 h2
            exact hc
          · next ek =>
            rw [if_neg ek, if_neg ek, h1] at h2
            injection h2 with h2
            subst h2
            exact .refl _
      · have e1 : setK w (setK v d (p :: ps)) (q :: qs) =
            .dict (dset (dset (items d) p (setK v (child d p) ps)) q (setK w (child d q) qs)) := by
          rw [show setK w (setK v d (p :: ps)) (q :: qs) =
            .dict (dset (items (setK v d (p :: ps))) q (setK w (child (setK v d (p :: ps)) q) qs)) from rfl, child_set, if_neg e]
          rfl
        have e2 : setK v (setK w d (q :: qs)) (p :: ps) =
            .dict (dset (dset (items d) q (setK w (child d q) qs)) p (setK v (child d p) ps)) := by
          rw [show setK v (setK w d (q :: qs)) (p :: ps) =
            .dict (dset (items (setK w d (q :: qs))) p (setK v (child (setK w d (q :: qs)) p) ps)) from rfl, child_set,
            if_neg (Ne.symm e)]
          rfl
        rw [e1, e2]
        exact dset_comm (Ne.symm e) _ _

private def foldK (d : Doc) (sets : List (List Str × Doc)) : Doc := sets.foldl (fun d s => setK s.2 d s.1) d

private theorem setAll_fold : ∀ (sets : List (List Str × Doc)) (d : Doc), (∃ kvs, d = .dict kvs) → (∀ s ∈ sets, s.1 ≠ []) →
    (∀ s ∈ sets, NoList d s.1) → sets.Pairwise (fun a b => Unrelated a.1 b.1) → SetAll d sets (foldK d sets) := by
  intro sets
  induction sets with
  | nil => intro d _ _ _ _; exact .nil d
  | cons s sets ih =>
    intro d hd hne hn hp
    obtain ⟨parts, v⟩ := s
    have hp' := List.pairwise_cons.1 hp
    obtain ⟨e1, e2⟩ := set_eq (v := v) hd (hne (parts, v) (by simp)) (hn (parts, v) (by simp))
    exact .cons _ _ _ _ _ _ e1 (ih (setK v d parts) e2 (fun s hs => hne s (by simp [hs]))
      (fun s hs => noList_frame v parts s.1 (hp'.1 s hs) d (hn s (by simp [hs]))) hp'.2)

private theorem foldK_same (sets : List (List Str × Doc)) : ∀ {a b : Doc}, SameDoc a b → SameDoc (foldK a sets) (foldK b sets) := by
  induction sets with
  | nil => intro a b h; exact h
  | cons s sets ih => intro a b h; exact ih (setK_same s.2 s.1 h)

private theorem foldK_perm {sets sets' : List (List Str × Doc)} (h : sets.Perm sets') :
    sets.Pairwise (fun a b => Unrelated a.1 b.1) → ∀ d, SameDoc (foldK d sets) (foldK d sets') := by
  induction h with
  | nil => intro _ d; exact .refl _
  | cons s _ ih => intro hp d; exact ih (List.pairwise_cons.1 hp).2 _
  | swap a b l =>
    intro hp d
    have := (List.pairwise_cons.1 hp).1 a (by simp)
    exact foldK_same l (setK_comm b.2 a.2 b.1 a.1 this d)
  | trans h1 h2 ih1 ih2 =>
    intro hp d
    refine same_trans (ih1 hp d) (ih2 ?_ d)
    exact (h1.pairwise_iff (fun h => ⟨h.2, h.1⟩)).1 hp

/-- C137. The order in which they are set does not matter: the documents are equal. -/
theorem C137_order (kvs : List (Str × Doc)) (sets sets' : List (List Str × Doc)) (hne : ∀ s ∈ sets, s.1 ≠ [])
    (hl : ∀ s ∈ sets, MeetsNoList (.dict kvs) s.1) (hp : sets.Pairwise (fun a b => Unrelated a.1 b.1)) (hs : sets.Perm sets')
    (d : Doc) (h : SetAll (.dict kvs) sets d) : ∃ d', SetAll (.dict kvs) sets' d' ∧ SameDoc d d' := by
  have hn : ∀ s ∈ sets, NoList (.dict kvs) s.1 := fun s hs => noList_of _ _ (hl s hs)
  have h1 := setAll_fold sets (.dict kvs) ⟨kvs, rfl⟩ hne hn hp
  have h2 := setAll_fold sets' (.dict kvs) ⟨kvs, rfl⟩ (fun s h => hne s (hs.mem_iff.2 h)) (fun s h => hn s (hs.mem_iff.2 h))
    ((hs.pairwise_iff (fun h => ⟨h.2, h.1⟩)).1 hp)
  rw [setAll_unique h h1]
  exact ⟨_, h2, foldK_perm hs hp _⟩

/-- C137. Equal documents have equal values under the same keys. -/
theorem C137_same (d d' : Doc) (h : SameDoc d d') (keys : List Str) (v : Doc) (hv : Walk d (keys.map Step.key) v) :
    ∃ v', Walk d' (keys.map Step.key) v' ∧ SameDoc v v' := by
  rw [walk_getK] at hv
  have key : ∀ (keys : List Str) (d d' v : Doc), SameDoc d d' → getK d keys = some v → ∃ v', getK d' keys = some v' ∧ SameDoc v v' := by
    intro keys
    induction keys with
    | nil => intro d d' v h hv; injection hv with hv; subst hv; exact ⟨d', rfl, h⟩
    | cons k ks ih =>
      intro d d' v h hv
      simp only [getK, Option.bind_eq_some_iff] at hv
      obtain ⟨c, h1, h2⟩ := hv
      obtain ⟨g1, g2⟩ := same_items h k
      rw [h1] at g1
      cases hc : dget (items d') k with
      | none => rw [hc] at g1; cases g1
      | some c' =>
        obtain ⟨v', e1, e2⟩ := ih c c' v (g2 c c' h1 hc) h2
        exact ⟨v', by simp only [getK, hc, Option.bind_some]; exact e1, e2⟩
  obtain ⟨v', h1, h2⟩ := key keys d d' v h hv
  exact ⟨v', (walk_getK _ _ _).2 h1, h2⟩

/-! ### Examples -/

private def kvsB : List (Str × Doc) := [("a".toList, .dict [("x".toList, .int 1)]), ("s".toList, .str "text".toList), ("l".toList, .list [])]

private def setsB : List (List Str × Doc) :=
  [(["a".toList, "y".toList], .int 2), (["s".toList, "0".toList], .list [.int 3]), (["a".toList, "b".toList, "c".toList], .null)]

example : (∀ s ∈ setsB, s.1 ≠ []) ∧ setsB.Pairwise (fun a b => Unrelated a.1 b.1) := by
  unfold Unrelated setsB
  decide

/-- A bound for where a list is met. -/
example : ∀ s ∈ setsB, MeetsNoList (.dict kvsB) s.1 := by
  intro s hs pre post xs e hr
  rw [← reach_iff] at hr
  simp only [setsB, List.mem_cons, List.not_mem_nil, or_false] at hs
  rcases hs with rfl | rfl | rfl
  · match pre, e with
    | [], _ => cases hr
    | [a], e => simp at e; obtain ⟨rfl, -⟩ := e; exact absurd hr (by rw [show resolveParts (.dict kvsB) [['a']] = some (.dict [("x".toList, .int 1)]) from rfl]; simp)
    | [a, b], e => simp at e; exact e.2.2.symm ▸ rfl
    | a :: b :: c :: r, e => simp at e
  · match pre, e with
    | [], _ => cases hr
    | [a], e => simp at e; obtain ⟨rfl, -⟩ := e; exact absurd hr (by rw [show resolveParts (.dict kvsB) [['s']] = some (.str "text".toList) from rfl]; simp)
    | [a, b], e => simp at e; exact e.2.2.symm ▸ rfl
    | a :: b :: c :: r, e => simp at e
  · match pre, e with
    | [], _ => cases hr
    | [a], e => simp at e; obtain ⟨rfl, -⟩ := e; exact absurd hr (by rw [show resolveParts (.dict kvsB) [['a']] = some (.dict [("x".toList, .int 1)]) from rfl]; simp)
    | [a, b], e => simp at e; obtain ⟨rfl, rfl, -⟩ := e; exact absurd hr (by rw [show resolveParts (.dict kvsB) [['a'], ['b']] = none from rfl]; simp)
    | [a, b, c], e => simp at e; exact e.2.2.2.symm ▸ rfl
    | a :: b :: c :: d :: r, e => simp at e

/-- With lists the order matters: the second element cannot be set before the first. -/
example : (∃ d, SetAll (.dict kvsB) [(["l".toList, "0".toList], .int 1), (["l".toList, "1".toList], .int 2)] d) ∧
    ¬ ∃ d, SetAll (.dict kvsB) [(["l".toList, "1".toList], .int 2), (["l".toList, "0".toList], .int 1)] d := by
  refine ⟨⟨_, .cons _ _ _ _ _ _ rfl (.cons _ _ _ _ _ _ rfl (.nil _))⟩, ?_⟩
  rintro ⟨d, h⟩
  cases h with
  | cons _ _ _ _ _ _ h1 _ => cases h1

end Props
