import Verif.Spec.Combined
import Verif.Props.PandelRules
/-
C110, C111: validations with keywords that combine schemas.
-/
namespace Props
open Py Model Spec

/-! ### C110 -/

private theorem sameKind_refl (d : Doc) : SameKind d d := by
  cases d with
  | dict kvs => exact .object _ _
  | list xs => exact .list _ _ rfl
  | _ => exact .scalar _ (by simp) (by simp)

private theorem sameKind_trans {a b c : Doc} (h1 : SameKind a b) (h2 : SameKind b c) : SameKind a c := by
  cases h1 with
  | scalar _ _ _ => exact h2
  | object kvs kvs' =>
    cases h2 with
    | scalar _ h _ => exact absurd rfl (h _)
    | object _ _ => exact .object _ _
  | list xs ys h =>
    cases h2 with
    | scalar _ _ h => exact absurd rfl (h _)
    | list _ _ h' => exact .list _ _ (h.trans h')

private theorem sameKind_null {f : VFlags} {a b : Doc} (h : SameKind a b) : IsNull f.toAutoFlags b → IsNull f.toAutoFlags a := by
  cases h with
  | scalar _ _ _ => exact id
  | object _ _ => rintro (h | ⟨_, h, _⟩) <;> cases h
  | list _ _ _ => rintro (h | ⟨_, h, _⟩) <;> cases h

/-- All that a validation may do. -/
private structure Fine (f : VFlags) (D : Str → Doc → Prop) (d d' : Doc) : Prop where
  root : SameKind d d'
  kept : StillThere f d d'
  added : ∀ p kvs k w, placed p d = some (.dict kvs) → (∀ v, dget kvs k = some v → IsNull f.toAutoFlags v) →
    placed (p ++ [.key k]) d' = some w → IsNull f.toAutoFlags w ∨ ∃ v0, D k v0 ∧ StillThere f v0 w

private theorem placed_append (p q : List Place) (d : Doc) : placed (p ++ q) d = (placed p d).bind (placed q) := by
  induction p generalizing d with
  | nil => rfl
  | cons a p ih =>
    cases a with
    | key k =>
      cases d with
      | dict kvs => simp only [List.cons_append, placed]; cases dget kvs k <;> simp [ih]
      | _ => rfl
    | item i =>
      cases d with
      | list xs => simp only [List.cons_append, placed]; cases xs[i]? <;> simp [ih]
      | _ => rfl

private theorem kept_refl (f : VFlags) (d : Doc) : StillThere f d d := fun _ v h _ => ⟨v, h, sameKind_refl v⟩

private theorem kept_trans {f : VFlags} {a b c : Doc} (h1 : StillThere f a b) (h2 : StillThere f b c) : StillThere f a c := by
  intro p v hv hn
  obtain ⟨v1, e1, k1⟩ := h1 p v hv hn
  obtain ⟨v2, e2, k2⟩ := h2 p v1 e1 (fun h => hn (sameKind_null k1 h))
  exact ⟨v2, e2, sameKind_trans k1 k2⟩

private theorem fine_refl (f : VFlags) (D : Str → Doc → Prop) (d : Doc) : Fine f D d d := by
  refine ⟨sameKind_refl d, kept_refl f d, ?_⟩
  intro p kvs k w hp hk hw
  rw [placed_append, hp] at hw
  simp only [Option.bind_some, placed] at hw
  cases hg : dget kvs k with
  | none => rw [hg] at hw; cases hw
  | some v => rw [hg] at hw; cases hw; exact .inl (hk _ hg)

private theorem fine_trans {f : VFlags} {D : Str → Doc → Prop} {a b c : Doc} (h1 : Fine f D a b) (h2 : Fine f D b c) : Fine f D a c := by
  refine ⟨sameKind_trans h1.root h2.root, kept_trans h1.kept h2.kept, ?_⟩
  intro p kvs k w hp hk hw
  obtain ⟨v1, e1, k1⟩ := h1.kept p _ hp (by rintro (h | ⟨_, h, _⟩) <;> cases h)
  cases k1 with
  | scalar _ h _ => exact absurd rfl (h _)
  | object _ kvs1 =>
    cases hg : dget kvs1 k with
    | none => exact h2.added p kvs1 k w e1 (by simp [hg]) hw
    | some w1 =>
      have hw1 : placed (p ++ [.key k]) b = some w1 := by
        rw [placed_append, e1]; simp [placed, hg]
      rcases h1.added p kvs k w1 hp hk hw1 with hn | ⟨v0, hD, hk0⟩
      · exact h2.added p kvs1 k w e1 (fun v hv => by rw [hg] at hv; cases hv; exact hn) hw
      · by_cases hn : IsNull f.toAutoFlags w1
        · exact h2.added p kvs1 k w e1 (fun v hv => by rw [hg] at hv; cases hv; exact hn) hw
        · refine .inr ⟨v0, hD, kept_trans hk0 ?_⟩
          intro q v hq hv
          have hq' : placed ((p ++ [.key k]) ++ q) b = some v := by rw [placed_append, hw1]; exact hq
          obtain ⟨v', e', k'⟩ := h2.kept _ v hq' hv
          rw [placed_append, hw] at e'
          exact ⟨v', e', k'⟩

private theorem fine_mono {f : VFlags} {D E : Str → Doc → Prop} {a b : Doc} (h : Fine f D a b) (hDE : ∀ k v, D k v → E k v) : Fine f E a b :=
  ⟨h.root, h.kept, fun p kvs k w hp hk hw => (h.added p kvs k w hp hk hw).imp id (fun ⟨v0, hD, hk0⟩ => ⟨v0, hDE _ _ hD, hk0⟩)⟩

private theorem fine_key {f : VFlags} {D : Str → Doc → Prop} {kvs : List (Str × Doc)} {k : Str} {v v' : Doc} (hv : dget kvs k = some v)
    (h : Fine f D v v') : Fine f D (.dict kvs) (.dict (dset kvs k v')) := by
  refine ⟨.object _ _, ?_, ?_⟩
  · intro p x hx hn
    cases p with
    | nil => cases hx; exact ⟨_, rfl, .object _ _⟩
    | cons a p =>
      cases a with
      | item i => simp [placed] at hx
      | key k1 =>
        simp only [placed] at hx ⊢
        rw [dget_dset]
        by_cases hk : k1 = k
        · subst hk
          rw [hv] at hx
          simp only [if_true]
          exact h.kept p x hx hn
        · rw [if_neg hk]
          cases hg : dget kvs k1 with
          | none => rw [hg] at hx; cases hx
          | some y => rw [hg] at hx; exact ⟨x, hx, sameKind_refl x⟩
  · intro p kvs1 k1 w hp hk hw
    cases p with
    | nil =>
      cases hp
      simp only [List.nil_append, placed, dget_dset] at hw
      by_cases hk1 : k1 = k
      · subst hk1
        simp only [if_true] at hw
        cases hw
        have hn := hk v hv
        refine .inl ?_
        have hr := h.root
        cases hr with
        | scalar _ _ _ => exact hn
        | object _ _ => rcases hn with h | ⟨_, h, _⟩ <;> cases h
        | list _ _ _ => rcases hn with h | ⟨_, h, _⟩ <;> cases h
      · rw [if_neg hk1] at hw
        cases hg : dget kvs k1 with
        | none => rw [hg] at hw; cases hw
        | some y => rw [hg] at hw; cases hw; exact .inl (hk _ hg)
    | cons a p =>
      cases a with
      | item i => simp [placed] at hp
      | key k2 =>
        simp only [List.cons_append, placed, dget_dset] at hp hw
        by_cases hk2 : k2 = k
        · subst hk2
          rw [hv] at hp
          simp only [if_true] at hw
          exact h.added p kvs1 k1 w hp hk hw
        · rw [if_neg hk2] at hw
          cases hg : dget kvs k2 with
          | none => rw [hg] at hp; cases hp
          | some y =>
            rw [hg] at hp hw
            exact (fine_refl f D y).added p kvs1 k1 w hp hk hw

private theorem fine_item {f : VFlags} {D : Str → Doc → Prop} {xs : List Doc} {i : Nat} {v v' : Doc} (hv : xs[i]? = some v)
    (h : Fine f D v v') : Fine f D (.list xs) (.list (xs.set i v')) := by
  have hi : i < xs.length := (List.getElem?_eq_some_iff.1 hv).1
  have hset : ∀ j, (xs.set i v')[j]? = if i = j then some v' else xs[j]? := by
    intro j
    rw [List.getElem?_set]
    by_cases hj : i = j
    · rw [if_pos hj, if_pos hj]
      subst hj
      simp [hi]
    · rw [if_neg hj, if_neg hj]
  refine ⟨.list _ _ (by simp), ?_, ?_⟩
  · intro p x hx hn
    cases p with
    | nil => cases hx; exact ⟨_, rfl, .list _ _ (by simp)⟩
    | cons a p =>
      cases a with
      | key k => simp [placed] at hx
      | item j =>
        simp only [placed, hset] at hx ⊢
        by_cases hj : i = j
        · subst hj
          rw [hv] at hx
          simp only [if_true]
          exact h.kept p x hx hn
        · rw [if_neg hj]
          cases hg : xs[j]? with
          | none => rw [hg] at hx; cases hx
          | some y => rw [hg] at hx; exact ⟨x, hx, sameKind_refl x⟩
  · intro p kvs1 k1 w hp hk hw
    cases p with
    | nil => cases hp
    | cons a p =>
      cases a with
      | key k => simp [placed] at hp
      | item j =>
        simp only [List.cons_append, placed, hset] at hp hw
        by_cases hj : i = j
        · subst hj
          rw [hv] at hp
          simp only [if_true] at hw
          exact h.added p kvs1 k1 w hp hk hw
        · rw [if_neg hj] at hw
          cases hg : xs[j]? with
          | none => rw [hg] at hp; cases hp
          | some y =>
            rw [hg] at hp hw
            exact (fine_refl f D y).added p kvs1 k1 w hp hk hw

private theorem fillVal_cases (f : AutoFlags) (s : PSchema) (g : Option Doc) : fillVal f s g = g ∨
    ((∀ v, g = some v → IsNull f v) ∧ (fillVal f s g = none ∨ ∃ d, s.default = some d ∧ fillVal f s g = some d)) := by
  cases g with
  | none =>
    unfold fillVal
    cases hs : s.default with
    | none => simp
    | some v => cases firstDefined s.autoDefault f.autoDefault <;> simp
  | some v =>
    by_cases hn : f.isNull v = true
    · have hn' := (isNull_iff _ _).1 hn
      unfold fillVal
      simp only [hn]
      cases hs : s.default with
      | none =>
        simp only
        by_cases hc : (firstDefined s.autoRemoveNull f.autoRemoveNulls && !isNullInType s.type && true) = true
        · rw [if_pos hc]; exact .inr ⟨fun w hw => by cases hw; exact hn', .inl rfl⟩
        · rw [if_neg hc]; exact .inl rfl
      | some d =>
        cases hf : (firstDefined s.autoDefault f.autoDefault && (some v).isNone ||
          firstDefined s.autoDefaultNull f.autoDefaultNulls && !isNullInType s.type && true) with
        | true => exact .inr ⟨fun w hw => by cases hw; exact hn', .inr ⟨d, rfl, rfl⟩⟩
        | false =>
          simp only
          by_cases hc : (firstDefined s.autoRemoveNull f.autoRemoveNulls && !isNullInType s.type && true) = true
          · rw [if_pos hc]; exact .inr ⟨fun w hw => by cases hw; exact hn', .inl rfl⟩
          · rw [if_neg hc]; exact .inl rfl
    · left
      have hf : f.isNull v = false := by simpa using hn
      unfold fillVal
      simp only [hf]
      cases s.default <;> simp

private theorem fill_cases (f : VFlags) (ps : List (Str × CSchema)) : ∀ (kvs : List (Str × Doc)) (k : Str),
    dget (autoDefaultLoop f.toAutoFlags kvs (ps.map (fun p => (p.1, p.2.head)))) k = dget kvs k ∨
    ((∀ v, dget kvs k = some v → IsNull f.toAutoFlags v) ∧
      ((dget (autoDefaultLoop f.toAutoFlags kvs (ps.map (fun p => (p.1, p.2.head)))) k = none) ∨
        ∃ t v, (k, t) ∈ ps ∧ t.default = some v ∧
          dget (autoDefaultLoop f.toAutoFlags kvs (ps.map (fun p => (p.1, p.2.head)))) k = some v)) := by
  induction ps with
  | nil => intro kvs k; exact .inl rfl
  | cons p ps ih =>
    obtain ⟨q, s⟩ := p
    intro kvs k
    have hstep : dget (autoDefaultStep f.toAutoFlags kvs q s.head) k = dget kvs k ∨
        ((∀ v, dget kvs k = some v → IsNull f.toAutoFlags v) ∧ (dget (autoDefaultStep f.toAutoFlags kvs q s.head) k = none ∨
          ∃ v, k = q ∧ s.default = some v ∧ dget (autoDefaultStep f.toAutoFlags kvs q s.head) k = some v)) := by
      rw [step_get]
      by_cases hk : k = q
      · subst hk
        rw [if_pos rfl]
        have hd : s.head.default = s.default := by cases s; rfl
        rcases fillVal_cases f.toAutoFlags s.head (dget kvs k) with h | ⟨h1, h | ⟨v, hv, h⟩⟩
        · exact .inl h
        · exact .inr ⟨h1, .inl h⟩
        · exact .inr ⟨h1, .inr ⟨v, rfl, hd ▸ hv, h⟩⟩
      · rw [if_neg hk]; exact .inl rfl
    simp only [List.map_cons, autoDefaultLoop]
    rcases ih (autoDefaultStep f.toAutoFlags kvs q s.head) k with h | ⟨h1, h⟩
    · rw [h]
      rcases hstep with h' | ⟨h1', h' | ⟨v, rfl, hv, h'⟩⟩
      · exact .inl h'
      · exact .inr ⟨h1', .inl h'⟩
      · exact .inr ⟨h1', .inr ⟨s, v, by simp, hv, h'⟩⟩
    · have h0 : ∀ v, dget kvs k = some v → IsNull f.toAutoFlags v := by
        rcases hstep with h' | ⟨h1', -⟩
        · rw [h'] at h1; exact h1
        · exact h1'
      refine .inr ⟨h0, h.imp id ?_⟩
      rintro ⟨t, v, hm, hv, e⟩
      exact ⟨t, v, by simp [hm], hv, e⟩

private theorem placed_not_null {f : VFlags} {p : List Place} {d : Doc} {kvs : List (Str × Doc)} (h : placed p d = some (.dict kvs)) :
    ¬ IsNull f.toAutoFlags d := by
  rintro (rfl | ⟨t, rfl, _⟩)
  · cases p with
    | nil => cases h
    | cons a p => cases a <;> cases h
  · cases p with
    | nil => cases h
    | cons a p => cases a <;> cases h

private theorem placed_not_null' {f : VFlags} {p : List Place} {d x : Doc} (h : placed p d = some x) (hx : ¬ IsNull f.toAutoFlags x) :
    ¬ IsNull f.toAutoFlags d := by
  rintro (rfl | ⟨t, rfl, ht⟩)
  · cases p with
    | nil => cases h; exact hx (.inl rfl)
    | cons a p => cases a <;> cases h
  · cases p with
    | nil => cases h; exact hx (.inr ⟨t, rfl, ht⟩)
    | cons a p => cases a <;> cases h

private theorem fine_fill (f : VFlags) (ps : List (Str × CSchema)) (kvs : List (Str × Doc)) :
    Fine f (fun k v => ∃ t, (k, t) ∈ ps ∧ t.default = some v) (.dict kvs) (.dict (fillC f ps kvs)) := by
  unfold fillC
  split
  · have hc := fill_cases f ps kvs
    refine ⟨.object _ _, ?_, ?_⟩
    · intro p x hx hn
      cases p with
      | nil => cases hx; exact ⟨_, rfl, .object _ _⟩
      | cons a p =>
        cases a with
        | item i => simp [placed] at hx
        | key k =>
          simp only [placed] at hx ⊢
          cases hg : dget kvs k with
          | none => rw [hg] at hx; cases hx
          | some y =>
            rw [hg] at hx
            rcases hc k with h | ⟨h, -⟩
            · rw [h, hg]; exact ⟨x, hx, sameKind_refl x⟩
            · exact absurd (h y hg) (placed_not_null' hx hn)
    · intro p kvs1 k w hp hk hw
      cases p with
      | nil =>
        cases hp
        simp only [List.nil_append, placed] at hw
        rcases hc k with h | ⟨-, h | ⟨t, v, hm, hv, h⟩⟩
        · rw [h] at hw
          cases hg : dget kvs k with
          | none => rw [hg] at hw; cases hw
          | some y => rw [hg] at hw; cases hw; exact .inl (hk _ hg)
        · rw [h] at hw; cases hw
        · rw [h] at hw; cases hw; exact .inr ⟨_, ⟨t, hm, hv⟩, kept_refl f _⟩
      | cons a p =>
        cases a with
        | item i => simp [placed] at hp
        | key k2 =>
          simp only [List.cons_append, placed] at hp hw
          cases hg : dget kvs k2 with
          | none => rw [hg] at hp; cases hp
          | some y =>
            rw [hg] at hp
            rcases hc k2 with h | ⟨h, -⟩
            · rw [h, hg] at hw
              exact (fine_refl f (fun k v => ∃ t, (k, t) ∈ ps ∧ t.default = some v) y).added p kvs1 k w hp hk hw
            · exact absurd (h y hg) (placed_not_null hp)
  · exact fine_refl _ _ _

private theorem fine_runAll {α : Type} {f : VFlags} {D : Str → Doc → Prop} (lazy : Bool) (body : α → Doc → Res) : ∀ (as : List α),
    (∀ a ∈ as, ∀ d, Fine f D d (body a d).doc) → ∀ d, Fine f D d (runAll lazy body as d).doc := by
  intro as
  induction as with
  | nil => intro _ d; exact fine_refl _ _ _
  | cons a as ih =>
    intro h d
    simp only [runAll, andThen]
    split
    · exact h a (by simp) d
    · exact fine_trans (h a (by simp) d) (ih (fun b hb => h b (by simp [hb])) _)

private theorem fine_atKey {f : VFlags} {D : Str → Doc → Prop} {k : Str} {visit : Doc → Res} (h : ∀ d, Fine f D d (visit d).doc) (d : Doc) :
    Fine f D d (atKey k visit d).doc := by
  unfold atKey
  cases d with
  | dict kvs =>
    cases hg : dget kvs k with
    | none => simp only [hg]; exact fine_refl _ _ _
    | some v => simp only [hg]; exact fine_key hg (h v)
  | _ => exact fine_refl _ _ _

private theorem fine_atItem {f : VFlags} {D : Str → Doc → Prop} {i : Nat} {visit : Doc → Res} (h : ∀ d, Fine f D d (visit d).doc) (d : Doc) :
    Fine f D d (atItem i visit d).doc := by
  unfold atItem
  cases d with
  | list xs =>
    cases hg : xs[i]? with
    | none => simp only [hg]; exact fine_refl _ _ _
    | some v => simp only [hg]; exact fine_item hg (h v)
  | _ => exact fine_refl _ _ _

private theorem fine_anyOf {f : VFlags} {D : Str → Doc → Prop} {visit : Bool → CSchema → Doc → Res} : ∀ (ss : List CSchema),
    (∀ s ∈ ss, ∀ lazy d, Fine f D d (visit lazy s d).doc) → ∀ d, Fine f D d (anyOfRun visit ss d).doc := by
  intro ss
  induction ss with
  | nil => intro _ d; exact fine_refl _ _ _
  | cons s ss ih =>
    intro h d
    simp only [anyOfRun]
    have hs := h s (by simp) false d
    split
    · exact hs
    · split
      · exact hs
      · exact fine_trans hs (ih (fun b hb => h b (by simp [hb])) _)

private theorem fine_others {f : VFlags} {D : Str → Doc → Prop} {visit : Bool → CSchema → Doc → Res} : ∀ (ss : List CSchema) (found : Bool),
    (∀ s ∈ ss, ∀ lazy d, Fine f D d (visit lazy s d).doc) → ∀ d, Fine f D d (othersRun visit found ss d).doc := by
  intro ss
  induction ss with
  | nil => intro _ _ d; exact fine_refl _ _ _
  | cons s ss ih =>
    intro found h d
    simp only [othersRun]
    have hs := h s (by simp) true d
    split
    · exact hs
    · exact fine_trans hs (ih _ (fun b hb => h b (by simp [hb])) _)

private theorem fine_oneOf {f : VFlags} {D : Str → Doc → Prop} {visit : Bool → CSchema → Doc → Res} : ∀ (ss : List CSchema),
    (∀ s ∈ ss, ∀ lazy d, Fine f D d (visit lazy s d).doc) → ∀ d, Fine f D d (oneOfRun visit ss d).doc := by
  intro ss
  induction ss with
  | nil => intro _ d; exact fine_refl _ _ _
  | cons s ss ih =>
    intro h d
    simp only [oneOfRun]
    have hs := h s (by simp) false d
    have hr := fun (b : CSchema) (hb : b ∈ ss) => h b (List.mem_cons_of_mem _ hb)
    split
    · exact hs
    · split
      · exact fine_trans hs (fine_others ss false hr _)
      · exact fine_trans hs (ih hr _)

private theorem fine_visit (f : VFlags) (defs : Str → Option CSchema) : ∀ (n : Nat) (lazy : Bool) (s : CSchema) (d : Doc),
    Fine f (DefaultIn defs s) d (visitC f defs n lazy s d).doc := by
  intro n
  induction n with
  | zero => intro lazy s d; exact fine_refl _ _ _
  | succ n ih =>
    intro lazy s d
    rw [visitC]
    refine fine_runAll lazy _ _ ?_ d
    intro kw hkw d
    have sub : ∀ t, PartOfC defs s t → ∀ lazy d, Fine f (DefaultIn defs s) d (visitC f defs n lazy t d).doc :=
      fun t ht lazy d => fine_mono (ih lazy t d) (fun k v h => .inside _ _ _ _ ht h)
    cases kw with
    | check p => exact fine_refl _ _ _
    | properties ps =>
      simp only [kwRun]
      cases d with
      | dict kvs =>
        refine fine_trans (fine_mono (fine_fill f ps kvs) ?_) (fine_runAll lazy _ _ ?_ _)
        · rintro k v ⟨t, hm, hv⟩
          exact .here _ _ _ _ _ hkw hm hv
        · intro p hp d
          exact fine_atKey (fun d => sub p.2 (.property _ ps p.1 _ hkw hp) lazy d) d
      | _ => exact fine_refl _ _ _
    | keyed sel t =>
      simp only [kwRun]
      cases d with
      | dict kvs => exact fine_runAll lazy _ _ (fun k _ d => fine_atKey (fun d => sub t (.keyed _ _ _ hkw) lazy d) d) _
      | _ => exact fine_refl _ _ _
    | items t =>
      simp only [kwRun]
      cases d with
      | list xs => exact fine_runAll lazy _ _ (fun k _ d => fine_atItem (fun d => sub t (.items _ _ hkw) lazy d) d) _
      | _ => exact fine_refl _ _ _
    | allOf ss => exact fine_runAll lazy _ _ (fun t ht d => sub t (.allOf _ _ _ hkw ht) lazy d) _
    | anyOf ss => exact fine_anyOf ss (fun t ht lazy d => sub t (.anyOf _ _ _ hkw ht) lazy d) d
    | oneOf ss => exact fine_oneOf ss (fun t ht lazy d => sub t (.oneOf _ _ _ hkw ht) lazy d) d
    | not t => exact sub t (.not _ _ hkw) true d
    | cond c t e =>
      simp only [kwRun]
      have hc := sub c (.cond _ _ _ _ _ hkw (.inl rfl)) true d
      split
      · exact hc
      · split
        · exact fine_trans hc (sub t (.cond _ _ _ _ _ hkw (.inr (.inl rfl))) lazy _)
        · exact fine_trans hc (sub e (.cond _ _ _ _ _ hkw (.inr (.inr rfl))) lazy _)
    | ref name =>
      simp only [kwRun]
      cases hd : defs name with
      | none => exact fine_refl _ _ _
      | some t => exact sub t (.ref _ _ _ hkw hd) lazy d

/-- C110: whatever the schema, and however the validation ends, what is given and no null is still there: scalars are the same, objects are objects
and lists are lists of the same length, at every place. -/
theorem C110_given (f : VFlags) (defs : Str → Option CSchema) (n : Nat) (lazy : Bool) (s : CSchema) (d : Doc) (p : List Place) (v : Doc)
    (h : placed p d = some v) (hn : ¬ IsNull f.toAutoFlags v) :
    ∃ v', placed p (visitC f defs n lazy s d).doc = some v' ∧ SameKind v v' :=
  (fine_visit f defs n lazy s d).kept p v h hn

/-- C110: what is found afterwards in a given object under a key that was missing or null is a null, or a default for a property of that name in
the schema (to which the same may have happened). -/
theorem C110_added (f : VFlags) (defs : Str → Option CSchema) (n : Nat) (lazy : Bool) (s : CSchema) (d : Doc) (p : List Place)
    (kvs : List (Str × Doc)) (k : Str) (w : Doc) (h : placed p d = some (.dict kvs))
    (hk : dget kvs k = none ∨ ∃ v, dget kvs k = some v ∧ IsNull f.toAutoFlags v)
    (hw : placed (p ++ [.key k]) (visitC f defs n lazy s d).doc = some w) :
    IsNull f.toAutoFlags w ∨ ∃ v0, DefaultIn defs s k v0 ∧ StillThere f v0 w := by
  refine (fine_visit f defs n lazy s d).added p kvs k w h ?_ hw
  intro v hv
  rcases hk with hk | ⟨v', hk, hn⟩
  · rw [hk] at hv; cases hv
  · rw [hk] at hv; cases hv; exact hn

/-- The place is no key that might be dropped. -/
private def Safe (K : Str → Prop) (p : List Place) : Prop := ∀ k, p.getLast? = some (.key k) → K k

/-- The places that are safe are kept, whatever there is. -/
private structure Keeps (K : Str → Prop) (d d' : Doc) : Prop where
  root : SameKind d d'
  kept : ∀ p v, placed p d = some v → Safe K p → ∃ v', placed p d' = some v' ∧ SameKind v v'

private theorem safe_tail {K : Str → Prop} {a : Place} {p : List Place} (h : Safe K (a :: p)) : p = [] ∨ Safe K p := by
  cases p with
  | nil => exact .inl rfl
  | cons b p => exact .inr (fun k hk => h k (by rw [List.getLast?_cons_cons]; exact hk))

private theorem keeps_refl (K : Str → Prop) (d : Doc) : Keeps K d d := ⟨sameKind_refl d, fun _ v h _ => ⟨v, h, sameKind_refl v⟩⟩

private theorem keeps_trans {K : Str → Prop} {a b c : Doc} (h1 : Keeps K a b) (h2 : Keeps K b c) : Keeps K a c := by
  refine ⟨sameKind_trans h1.root h2.root, ?_⟩
  intro p v hv hs
  obtain ⟨v1, e1, k1⟩ := h1.kept p v hv hs
  obtain ⟨v2, e2, k2⟩ := h2.kept p v1 e1 hs
  exact ⟨v2, e2, sameKind_trans k1 k2⟩

private theorem keeps_mono {K L : Str → Prop} {a b : Doc} (h : Keeps K a b) (hKL : ∀ k, L k → K k) : Keeps L a b :=
  ⟨h.root, fun p v hv hs => h.kept p v hv (fun k hk => hKL k (hs k hk))⟩

private theorem keeps_sub {K : Str → Prop} {v v' x : Doc} {a : Place} {p : List Place} (h : Keeps K v v') (hx : placed p v = some x)
    (hs : Safe K (a :: p)) : ∃ x', placed p v' = some x' ∧ SameKind x x' := by
  rcases safe_tail hs with rfl | hs
  · cases hx; exact ⟨v', rfl, h.root⟩
  · exact h.kept p x hx hs

private theorem keeps_atKey {K : Str → Prop} {k : Str} {visit : Doc → Res} (h : ∀ d, Keeps K d (visit d).doc) (d : Doc) :
    Keeps K d (atKey k visit d).doc := by
  unfold atKey
  cases d with
  | dict kvs =>
    cases hg : dget kvs k with
    | none => simp only [hg]; exact keeps_refl _ _
    | some v =>
      simp only [hg]
      refine ⟨.object _ _, ?_⟩
      intro p x hx hs
      cases p with
      | nil => cases hx; exact ⟨_, rfl, .object _ _⟩
      | cons a p =>
        cases a with
        | item i => simp [placed] at hx
        | key k1 =>
          simp only [placed, dget_dset] at hx ⊢
          by_cases hk : k1 = k
          · subst hk
            rw [hg] at hx
            simp only [if_true]
            exact keeps_sub (h v) hx hs
          · rw [if_neg hk]
            cases hg1 : dget kvs k1 with
            | none => rw [hg1] at hx; cases hx
            | some y => rw [hg1] at hx; exact ⟨x, hx, sameKind_refl x⟩
  | _ => exact keeps_refl _ _

private theorem keeps_atItem {K : Str → Prop} {i : Nat} {visit : Doc → Res} (h : ∀ d, Keeps K d (visit d).doc) (d : Doc) :
    Keeps K d (atItem i visit d).doc := by
  unfold atItem
  cases d with
  | list xs =>
    cases hg : xs[i]? with
    | none => simp only [hg]; exact keeps_refl _ _
    | some v =>
      simp only [hg]
      have hi : i < xs.length := (List.getElem?_eq_some_iff.1 hg).1
      refine ⟨.list _ _ (by simp), ?_⟩
      intro p x hx hs
      cases p with
      | nil => cases hx; exact ⟨_, rfl, .list _ _ (by simp)⟩
      | cons a p =>
        cases a with
        | key k => simp [placed] at hx
        | item j =>
          simp only [placed, List.getElem?_set] at hx ⊢
          by_cases hj : i = j
          · subst hj
            rw [hg] at hx
            simp only [if_true, hi]
            exact keeps_sub (h v) hx hs
          · rw [if_neg hj]
            cases hg1 : xs[j]? with
            | none => rw [hg1] at hx; cases hx
            | some y => rw [hg1] at hx; exact ⟨x, hx, sameKind_refl x⟩
  | _ => exact keeps_refl _ _

private theorem keeps_runAll {α : Type} {K : Str → Prop} (lazy : Bool) (body : α → Doc → Res) : ∀ (as : List α),
    (∀ a ∈ as, ∀ d, Keeps K d (body a d).doc) → ∀ d, Keeps K d (runAll lazy body as d).doc := by
  intro as
  induction as with
  | nil => intro _ d; exact keeps_refl _ _
  | cons a as ih =>
    intro h d
    simp only [runAll, andThen]
    split
    · exact h a (by simp) d
    · exact keeps_trans (h a (by simp) d) (ih (fun b hb => h b (by simp [hb])) _)

private theorem keeps_anyOf {K : Str → Prop} {visit : Bool → CSchema → Doc → Res} : ∀ (ss : List CSchema),
    (∀ s ∈ ss, ∀ lazy d, Keeps K d (visit lazy s d).doc) → ∀ d, Keeps K d (anyOfRun visit ss d).doc := by
  intro ss
  induction ss with
  | nil => intro _ d; exact keeps_refl _ _
  | cons s ss ih =>
    intro h d
    simp only [anyOfRun]
    have hs := h s (by simp) false d
    split
    · exact hs
    · split
      · exact hs
      · exact keeps_trans hs (ih (fun b hb => h b (by simp [hb])) _)

private theorem keeps_others {K : Str → Prop} {visit : Bool → CSchema → Doc → Res} : ∀ (ss : List CSchema) (found : Bool),
    (∀ s ∈ ss, ∀ lazy d, Keeps K d (visit lazy s d).doc) → ∀ d, Keeps K d (othersRun visit found ss d).doc := by
  intro ss
  induction ss with
  | nil => intro _ _ d; exact keeps_refl _ _
  | cons s ss ih =>
    intro found h d
    simp only [othersRun]
    have hs := h s (by simp) true d
    split
    · exact hs
    · exact keeps_trans hs (ih _ (fun b hb => h b (by simp [hb])) _)

private theorem keeps_oneOf {K : Str → Prop} {visit : Bool → CSchema → Doc → Res} : ∀ (ss : List CSchema),
    (∀ s ∈ ss, ∀ lazy d, Keeps K d (visit lazy s d).doc) → ∀ d, Keeps K d (oneOfRun visit ss d).doc := by
  intro ss
  induction ss with
  | nil => intro _ d; exact keeps_refl _ _
  | cons s ss ih =>
    intro h d
    simp only [oneOfRun]
    have hs := h s (by simp) false d
    have hr := fun (b : CSchema) (hb : b ∈ ss) => h b (List.mem_cons_of_mem _ hb)
    split
    · exact hs
    · split
      · exact keeps_trans hs (keeps_others ss false hr _)
      · exact keeps_trans hs (ih hr _)

private theorem fill_nullable (f : VFlags) (ps : List (Str × CSchema)) (k : Str) (hk : ∀ t, (k, t) ∈ ps → CSchema.Nullable t) :
    ∀ (kvs : List (Str × Doc)) (v : Doc), dget kvs k = some v →
      dget (autoDefaultLoop f.toAutoFlags kvs (ps.map (fun p => (p.1, p.2.head)))) k = some v := by
  induction ps with
  | nil => intro kvs v h; exact h
  | cons p ps ih =>
    obtain ⟨q, s⟩ := p
    intro kvs v h
    simp only [List.map_cons, autoDefaultLoop]
    refine ih (fun t ht => hk t (by simp [ht])) _ v ?_
    rw [step_get]
    by_cases hq : k = q
    · subst hq
      rw [if_pos rfl, h]
      have hn := hk s (by simp)
      obtain ⟨kws, n, d, a, b, c⟩ := s
      have hn : n = true := hn
      subst hn
      have ht : isNullInType (CSchema.mk kws true d a b c).head.type = true := by simp [CSchema.head, PSchema.type, isNullInType]
      unfold fillVal
      simp only [ht]
      cases (CSchema.mk kws true d a b c).head.default <;> simp
    · rw [if_neg hq]; exact h

private theorem keeps_fill (f : VFlags) (ps : List (Str × CSchema)) (kvs : List (Str × Doc)) :
    Keeps (fun k => ∀ t, (k, t) ∈ ps → CSchema.Nullable t) (.dict kvs) (.dict (fillC f ps kvs)) := by
  unfold fillC
  split
  · refine ⟨.object _ _, ?_⟩
    intro p x hx hs
    cases p with
    | nil => cases hx; exact ⟨_, rfl, .object _ _⟩
    | cons a p =>
      cases a with
      | item i => simp [placed] at hx
      | key k =>
        simp only [placed] at hx ⊢
        cases hg : dget kvs k with
        | none => rw [hg] at hx; cases hx
        | some y =>
          rw [hg] at hx
          cases p with
          | nil =>
            rw [fill_nullable f ps k (hs k rfl) kvs y hg]
            exact ⟨x, hx, sameKind_refl x⟩
          | cons b p =>
            rcases fill_cases f ps kvs k with h | ⟨h, -⟩
            · rw [h, hg]; exact ⟨x, hx, sameKind_refl x⟩
            · rcases h y hg with rfl | ⟨t, rfl, _⟩ <;> cases b <;> cases hx
  · exact keeps_refl _ _

private theorem keeps_visit (f : VFlags) (defs : Str → Option CSchema) : ∀ (n : Nat) (lazy : Bool) (s : CSchema) (d : Doc),
    Keeps (fun k => ∀ t, PropertyIn defs s k t → CSchema.Nullable t) d (visitC f defs n lazy s d).doc := by
  intro n
  induction n with
  | zero => intro lazy s d; exact keeps_refl _ _
  | succ n ih =>
    intro lazy s d
    rw [visitC]
    refine keeps_runAll lazy _ _ ?_ d
    intro kw hkw d
    have sub : ∀ t, PartOfC defs s t → ∀ lazy d,
        Keeps (fun k => ∀ t, PropertyIn defs s k t → CSchema.Nullable t) d (visitC f defs n lazy t d).doc :=
      fun t ht lazy d => keeps_mono (ih lazy t d) (fun k h u hu => h u (.inside _ _ _ _ ht hu))
    cases kw with
    | check p => exact keeps_refl _ _
    | properties ps =>
      simp only [kwRun]
      cases d with
      | dict kvs =>
        refine keeps_trans (keeps_mono (keeps_fill f ps kvs) ?_) (keeps_runAll lazy _ _ ?_ _)
        · intro k h t ht
          exact h t (.here _ _ _ _ hkw ht)
        · intro p hp d
          exact keeps_atKey (fun d => sub p.2 (.property _ ps p.1 _ hkw hp) lazy d) d
      | _ => exact keeps_refl _ _
    | keyed sel t =>
      simp only [kwRun]
      cases d with
      | dict kvs => exact keeps_runAll lazy _ _ (fun k _ d => keeps_atKey (fun d => sub t (.keyed _ _ _ hkw) lazy d) d) _
      | _ => exact keeps_refl _ _
    | items t =>
      simp only [kwRun]
      cases d with
      | list xs => exact keeps_runAll lazy _ _ (fun k _ d => keeps_atItem (fun d => sub t (.items _ _ hkw) lazy d) d) _
      | _ => exact keeps_refl _ _
    | allOf ss => exact keeps_runAll lazy _ _ (fun t ht d => sub t (.allOf _ _ _ hkw ht) lazy d) _
    | anyOf ss => exact keeps_anyOf ss (fun t ht lazy d => sub t (.anyOf _ _ _ hkw ht) lazy d) d
    | oneOf ss => exact keeps_oneOf ss (fun t ht lazy d => sub t (.oneOf _ _ _ hkw ht) lazy d) d
    | not t => exact sub t (.not _ _ hkw) true d
    | cond c t e =>
      simp only [kwRun]
      have hc := sub c (.cond _ _ _ _ _ hkw (.inl rfl)) true d
      split
      · exact hc
      · split
        · exact keeps_trans hc (sub t (.cond _ _ _ _ _ hkw (.inr (.inl rfl))) lazy _)
        · exact keeps_trans hc (sub e (.cond _ _ _ _ _ hkw (.inr (.inr rfl))) lazy _)
    | ref name =>
      simp only [kwRun]
      cases hd : defs name with
      | none => exact keeps_refl _ _
      | some t => exact sub t (.ref _ _ _ hkw hd) lazy d

/-- C110: nulls are kept too if they are items of lists, or under keys that are no properties in the schema or only such that may be null. -/
theorem C110_nulls (f : VFlags) (defs : Str → Option CSchema) (n : Nat) (lazy : Bool) (s : CSchema) (d : Doc) (p : List Place) (v : Doc)
    (h : placed p d = some v) (hk : ∀ k, p.getLast? = some (.key k) → ∀ t, PropertyIn defs s k t → CSchema.Nullable t) :
    ∃ v', placed p (visitC f defs n lazy s d).doc = some v' ∧ SameKind v v' :=
  (keeps_visit f defs n lazy s d).kept p v h hk

/-! ### C111 -/

/-- What a validation without defaults finds out about a document. -/
private structure Tells (V I : Prop) (d : Doc) (r : Res) : Prop where
  doc : r.doc = d
  valid : r.raised = none → r.errs = [] → V
  invalid : r.raised = none → r.errs ≠ [] → I

private theorem some_none {o : Option PyErr} (h : o.isSome = true) (h' : o = none) : False := by simp [h'] at h

private theorem runAll_tells {α : Type} (lazy : Bool) (body : α → Doc → Res) (d : Doc) (V I : α → Prop) : ∀ (as : List α),
    (∀ a ∈ as, Tells (V a) (I a) d (body a d)) → Tells (∀ a ∈ as, V a) (∃ a ∈ as, I a) d (runAll lazy body as d) := by
  intro as
  induction as with
  | nil => intro _; exact ⟨rfl, fun _ _ => by simp, fun _ h => absurd rfl h⟩
  | cons a as ih =>
    intro h
    have ha := h a (by simp)
    have hr := ih (fun b hb => h b (by simp [hb]))
    simp only [runAll, andThen]
    split
    · rename_i hs
      refine ⟨ha.doc, ?_, ?_⟩
      · intro h1 h2
        simp [h1, h2] at hs
      · intro h1 h2
        exact ⟨a, by simp, ha.invalid h1 h2⟩
    · rename_i hs
      have hn : (body a d).raised = none := by
        cases h0 : (body a d).raised with
        | none => rfl
        | some e => simp [h0] at hs
      rw [ha.doc]
      refine ⟨hr.doc, ?_, ?_⟩
      · intro h1 h2
        simp only [List.append_eq_nil_iff] at h2
        intro b hb
        rcases List.mem_cons.1 hb with rfl | hb
        · exact ha.valid hn h2.1
        · exact hr.valid h1 h2.2 b hb
      · intro h1 h2
        by_cases he : (body a d).errs = []
        · simp only [he, List.nil_append] at h2
          obtain ⟨b, hb, hi⟩ := hr.invalid h1 h2
          exact ⟨b, by simp [hb], hi⟩
        · exact ⟨a, by simp, ha.invalid hn he⟩

private theorem Tells.imp {V I V' I' : Prop} {d : Doc} {r : Res} (h : Tells V I d r) (hv : V → V') (hi : I → I') : Tells V' I' d r :=
  ⟨h.doc, fun a b => hv (h.valid a b), fun a b => hi (h.invalid a b)⟩

private theorem atKey_tells {V I : Doc → Prop} (k : Str) (visit : Doc → Res) (h : ∀ v, Tells (V v) (I v) v (visit v)) (kvs : List (Str × Doc)) :
    Tells (∀ v, dget kvs k = some v → V v) (∃ v, dget kvs k = some v ∧ I v) (.dict kvs) (atKey k visit (.dict kvs)) := by
  unfold atKey
  cases hg : dget kvs k with
  | none => simp only [hg]; exact ⟨rfl, fun _ _ v hv => (by cases hv), fun _ h => absurd rfl h⟩
  | some v =>
    simp only [hg]
    have hv := h v
    refine ⟨by simp only [hv.doc, dset_same hg], ?_, ?_⟩
    · intro h1 h2 w hw
      cases hw
      exact hv.valid h1 (by simpa using h2)
    · intro h1 h2
      exact ⟨v, rfl, hv.invalid h1 (by simpa using h2)⟩

private theorem set_same {xs : List Doc} {i : Nat} {v : Doc} (h : xs[i]? = some v) : xs.set i v = xs := by
  obtain ⟨hi, rfl⟩ := List.getElem?_eq_some_iff.1 h
  exact List.set_getElem_self hi

private theorem atItem_tells {V I : Doc → Prop} (i : Nat) (visit : Doc → Res) (h : ∀ v, Tells (V v) (I v) v (visit v)) (xs : List Doc) :
    Tells (∀ v, xs[i]? = some v → V v) (∃ v, xs[i]? = some v ∧ I v) (.list xs) (atItem i visit (.list xs)) := by
  unfold atItem
  cases hg : xs[i]? with
  | none => simp only [hg]; exact ⟨rfl, fun _ _ v hv => (by cases hv), fun _ h => absurd rfl h⟩
  | some v =>
    simp only [hg]
    have hv := h v
    refine ⟨by simp only [hv.doc, set_same hg], ?_, ?_⟩
    · intro h1 h2 w hw
      cases hw
      exact hv.valid h1 (by simpa using h2)
    · intro h1 h2
      exact ⟨v, rfl, hv.invalid h1 (by simpa using h2)⟩

private theorem anyOf_tells {V I : CSchema → Prop} {visit : Bool → CSchema → Doc → Res} (d : Doc) : ∀ (ss : List CSchema),
    (∀ s lazy, Tells (V s) (I s) d (visit lazy s d)) → Tells (∃ s ∈ ss, V s) (∀ s ∈ ss, I s) d (anyOfRun visit ss d) := by
  intro ss
  induction ss with
  | nil => intro _; exact ⟨rfl, fun _ h => by simp [anyOfRun] at h, fun _ _ => by simp⟩
  | cons s ss ih =>
    intro h
    have hs := h s false
    simp only [anyOfRun]
    split
    · rename_i hr
      exact ⟨hs.doc, fun h1 => (some_none hr h1).elim, fun h1 => (some_none hr h1).elim⟩
    · rename_i hr
      have hn : (visit false s d).raised = none := by
        cases h0 : (visit false s d).raised with
        | none => rfl
        | some e => simp [h0] at hr
      split
      · rename_i he
        exact ⟨hs.doc, fun _ _ => ⟨s, by simp, hs.valid hn (by simpa using he)⟩, fun _ h => absurd rfl h⟩
      · rename_i he
        have hne : (visit false s d).errs ≠ [] := by simpa using he
        rw [hs.doc]
        have hq := ih h
        refine ⟨hq.doc, ?_, ?_⟩
        · intro h1 h2
          obtain ⟨t, ht, hv⟩ := hq.valid h1 h2
          exact ⟨t, by simp [ht], hv⟩
        · intro h1 h2 t ht
          rcases List.mem_cons.1 ht with rfl | ht
          · exact hs.invalid hn hne
          · exact hq.invalid h1 h2 t ht

private theorem others_tells {V I : CSchema → Prop} {visit : Bool → CSchema → Doc → Res} (d : Doc) : ∀ (ss : List CSchema) (found : Bool),
    (∀ s lazy, Tells (V s) (I s) d (visit lazy s d)) →
    Tells (found = false ∧ ∀ s ∈ ss, I s) (found = true ∨ ∃ s ∈ ss, V s) d (othersRun visit found ss d) := by
  intro ss
  induction ss with
  | nil =>
    intro found _
    simp only [othersRun]
    refine ⟨rfl, fun _ h => ?_, fun _ h => ?_⟩
    · cases found <;> simp_all
    · cases found <;> simp_all
  | cons s ss ih =>
    intro found h
    have hs := h s true
    simp only [othersRun]
    split
    · rename_i hr
      exact ⟨hs.doc, fun h1 => (some_none hr h1).elim, fun h1 => (some_none hr h1).elim⟩
    · rename_i hr
      have hn : (visit true s d).raised = none := by
        cases h0 : (visit true s d).raised with
        | none => rfl
        | some e => simp [h0] at hr
      rw [hs.doc]
      have hq := ih (found || (visit true s d).errs.isEmpty) h
      refine ⟨hq.doc, ?_, ?_⟩
      · intro h1 h2
        obtain ⟨hf, hi⟩ := hq.valid h1 h2
        simp only [Bool.or_eq_false_iff] at hf
        refine ⟨hf.1, ?_⟩
        intro t ht
        rcases List.mem_cons.1 ht with rfl | ht
        · exact hs.invalid hn (by simpa using hf.2)
        · exact hi t ht
      · intro h1 h2
        rcases hq.invalid h1 h2 with hf | ⟨t, ht, hv⟩
        · simp only [Bool.or_eq_true] at hf
          rcases hf with hf | hf
          · exact .inl hf
          · exact .inr ⟨s, by simp, hs.valid hn (by simpa using hf)⟩
        · exact .inr ⟨t, by simp [ht], hv⟩

private theorem oneOf_tells {V I : CSchema → Prop} {visit : Bool → CSchema → Doc → Res} (d : Doc) : ∀ (ss : List CSchema),
    (∀ s lazy, Tells (V s) (I s) d (visit lazy s d)) →
    Tells (∃ bef s aft, ss = bef ++ s :: aft ∧ V s ∧ (∀ t ∈ bef, I t) ∧ ∀ t ∈ aft, I t)
      ((∀ s ∈ ss, I s) ∨ ∃ l1 s l2 t l3, ss = l1 ++ s :: (l2 ++ t :: l3) ∧ V s ∧ V t) d (oneOfRun visit ss d) := by
  intro ss
  induction ss with
  | nil => intro _; exact ⟨rfl, fun _ h => by simp [oneOfRun] at h, fun _ _ => .inl (by simp)⟩
  | cons s ss ih =>
    intro h
    have hs := h s false
    simp only [oneOfRun]
    split
    · rename_i hr
      exact ⟨hs.doc, fun h1 => (some_none hr h1).elim, fun h1 => (some_none hr h1).elim⟩
    · rename_i hr
      have hn : (visit false s d).raised = none := by
        cases h0 : (visit false s d).raised with
        | none => rfl
        | some e => simp [h0] at hr
      split
      · rename_i he
        have hv := hs.valid hn (by simpa using he)
        rw [hs.doc]
        refine (others_tells d ss false h).imp ?_ ?_
        · rintro ⟨-, hi⟩
          exact ⟨[], s, ss, rfl, hv, by simp, hi⟩
        · rintro (h | ⟨t, ht, hvt⟩)
          · cases h
          · obtain ⟨l2, l3, rfl⟩ := List.append_of_mem ht
            exact .inr ⟨[], s, l2, t, l3, rfl, hv, hvt⟩
      · rename_i he
        have hi := hs.invalid hn (by simpa using he)
        rw [hs.doc]
        refine (ih h).imp ?_ ?_
        · rintro ⟨bef, t, aft, rfl, hv, hb, ha⟩
          refine ⟨s :: bef, t, aft, rfl, hv, ?_, ha⟩
          intro u hu
          rcases List.mem_cons.1 hu with rfl | hu
          · exact hi
          · exact hb u hu
        · rintro (h | ⟨l1, t, l2, u, l3, rfl, ht, hu⟩)
          · refine .inl ?_
            intro u hu
            rcases List.mem_cons.1 hu with rfl | hu
            · exact hi
            · exact h u hu
          · exact .inr ⟨s :: l1, t, l2, u, l3, rfl, ht, hu⟩

private theorem not_asked {f : VFlags} (h : ¬ Asked f) :
    (f.autoDefault.getD false || f.autoDefaultNulls.getD false || f.autoRemoveNulls.getD false) = false := by
  unfold Asked at h
  cases h1 : f.autoDefault <;> cases h2 : f.autoDefaultNulls <;> cases h3 : f.autoRemoveNulls <;> simp_all

private theorem visit_tells (f : VFlags) (hf : ¬ Asked f) (defs : Str → Option CSchema) : ∀ (n : Nat) (lazy : Bool) (s : CSchema) (d : Doc),
    Tells (ValidC defs s d) (InvalidC defs s d) d (visitC f defs n lazy s d) := by
  intro n
  induction n with
  | zero => intro lazy s d; exact ⟨rfl, fun h => by simp [visitC] at h, fun h => by simp [visitC] at h⟩
  | succ n ih =>
    intro lazy s d
    rw [visitC]
    refine (runAll_tells lazy _ d (fun kw => HoldsC defs kw d) (fun kw => FailsC defs kw d) s.kws ?_).imp (.mk s d) ?_
    · intro kw _
      cases kw with
      | check p =>
        simp only [kwRun]
        refine ⟨rfl, fun _ h => ?_, fun _ h => ?_⟩
        · cases hp : p d
          · simp [hp] at h
          · exact .check _ _ hp
        · cases hp : p d
          · exact .check _ _ hp
          · simp [hp] at h
      | properties ps =>
        simp only [kwRun]
        cases d with
        | dict kvs =>
          have e : fillC f ps kvs = kvs := by unfold fillC; rw [not_asked hf]; rfl
          simp only [e]
          refine (runAll_tells lazy _ (.dict kvs) (fun p => ∀ v, dget kvs p.1 = some v → ValidC defs p.2 v)
            (fun p => ∃ v, dget kvs p.1 = some v ∧ InvalidC defs p.2 v) ps ?_).imp ?_ ?_
          · intro p _; exact atKey_tells p.1 _ (fun v => ih lazy p.2 v) kvs
          · intro h; exact .properties _ _ (fun kvs' k s v e hm hv => by cases e; exact h _ hm v hv)
          · rintro ⟨p, hp, v, hv, hi⟩; exact .properties _ _ p.1 p.2 v hp hv hi
        | _ => exact ⟨rfl, fun _ _ => .properties _ _ (fun _ _ _ _ e => by cases e), fun _ h => absurd rfl h⟩
      | keyed sel t =>
        simp only [kwRun]
        cases d with
        | dict kvs =>
          simp only
          refine (runAll_tells lazy _ (.dict kvs) (fun k => ∀ v, dget kvs k = some v → ValidC defs t v)
            (fun k => ∃ v, dget kvs k = some v ∧ InvalidC defs t v) _ ?_).imp ?_ ?_
          · intro k _; exact atKey_tells k _ (fun v => ih lazy t v) kvs
          · intro h
            refine .keyed _ _ _ (fun kvs' k v e hs hv => ?_)
            cases e
            exact h k (List.mem_filter.2 ⟨(mem_dkeys_iff _ _).2 ⟨v, hv⟩, hs⟩) v hv
          · rintro ⟨k, hk, v, hv, hi⟩; exact .keyed _ _ _ k v (List.mem_filter.1 hk).2 hv hi
        | _ => exact ⟨rfl, fun _ _ => .keyed _ _ _ (fun _ _ _ e => by cases e), fun _ h => absurd rfl h⟩
      | items t =>
        simp only [kwRun]
        cases d with
        | list xs =>
          simp only
          refine (runAll_tells lazy _ (.list xs) (fun i => ∀ v, xs[i]? = some v → ValidC defs t v)
            (fun i => ∃ v, xs[i]? = some v ∧ InvalidC defs t v) _ ?_).imp ?_ ?_
          · intro i _; exact atItem_tells i _ (fun v => ih lazy t v) xs
          · intro h
            refine .items _ _ (fun xs' x e hx => ?_)
            cases e
            obtain ⟨i, hi, rfl⟩ := List.mem_iff_getElem.1 hx
            exact h i (List.mem_range.2 hi) _ (List.getElem?_eq_getElem hi)
          · rintro ⟨i, _, v, hv, hi⟩; exact .items _ _ v (List.mem_of_getElem? hv) hi
        | _ => exact ⟨rfl, fun _ _ => .items _ _ (fun _ _ e => by cases e), fun _ h => absurd rfl h⟩
      | allOf ss =>
        refine (runAll_tells lazy _ d (fun t => ValidC defs t d) (fun t => InvalidC defs t d) ss (fun t _ => ih lazy t d)).imp (.allOf _ _) ?_
        rintro ⟨t, ht, hi⟩; exact .allOf _ t _ ht hi
      | anyOf ss =>
        refine (anyOf_tells d ss (fun t lazy => ih lazy t d)).imp ?_ (.anyOf _ _)
        rintro ⟨t, ht, hv⟩; exact .anyOf _ t _ ht hv
      | oneOf ss =>
        refine (oneOf_tells d ss (fun t lazy => ih lazy t d)).imp ?_ ?_
        · rintro ⟨bef, t, aft, e, hv, hb, ha⟩; exact .oneOf _ bef t aft _ e hv hb ha
        · rintro (h | ⟨l1, t, l2, u, l3, e, ht, hu⟩)
          · exact .noneOf _ _ h
          · exact .manyOf _ l1 t l2 u l3 _ e ht hu
      | not t =>
        have ht := ih true t d
        simp only [kwRun]
        refine ⟨ht.doc, ?_, ?_⟩
        · intro h1 h2
          refine .not _ _ (ht.invalid h1 ?_)
          intro he
          simp [show (visitC f defs n true t d).raised = none from h1, he] at h2
        · intro h1 h2
          refine .not _ _ (ht.valid h1 ?_)
          cases he : (visitC f defs n true t d).errs with
          | nil => rfl
          | cons a b => simp [he] at h2
      | cond c t e =>
        have hc := ih true c d
        simp only [kwRun]
        split
        · rename_i hr
          exact ⟨hc.doc, fun h1 => (some_none hr h1).elim, fun h1 => (some_none hr h1).elim⟩
        · rename_i hr
          have hn : (visitC f defs n true c d).raised = none := by
            cases h0 : (visitC f defs n true c d).raised with
            | none => rfl
            | some e => simp [h0] at hr
          rw [hc.doc]
          split
          · rename_i he
            have hv := hc.valid hn (by simpa using he)
            exact (ih lazy t d).imp (.thens _ _ _ _ hv) (.thens _ _ _ _ hv)
          · rename_i he
            have hi := hc.invalid hn (by simpa using he)
            exact (ih lazy e d).imp (.elses _ _ _ _ hi) (.elses _ _ _ _ hi)
      | ref name =>
        simp only [kwRun]
        cases hd : defs name with
        | none => exact ⟨rfl, fun h => (by cases h), fun h => (by cases h)⟩
        | some t => exact (ih lazy t d).imp (.ref _ _ _ hd) (.ref _ _ _ hd)
    · rintro ⟨kw, hkw, h⟩; exact .mk s d kw hkw h

private theorem two_places {l1 l2 l3 bef aft : List CSchema} {s t u : CSchema} (e : l1 ++ t :: (l2 ++ u :: l3) = bef ++ s :: aft) :
    t ∈ bef ∨ t ∈ aft ∨ u ∈ bef ∨ u ∈ aft := by
  rcases List.append_eq_append_iff.1 e with ⟨a, rfl, e2⟩ | ⟨a, rfl, e2⟩
  · clear e
    cases a with
    | nil =>
      simp only [List.nil_append, List.cons.injEq] at e2
      obtain ⟨-, rfl⟩ := e2
      simp
    | cons x a =>
      simp only [List.cons_append, List.cons.injEq] at e2
      obtain ⟨rfl, -⟩ := e2
      simp
  · clear e
    cases a with
    | nil =>
      simp only [List.nil_append, List.cons.injEq] at e2
      obtain ⟨-, rfl⟩ := e2
      simp
    | cons x a =>
      simp only [List.cons_append, List.cons.injEq] at e2
      obtain ⟨-, rfl⟩ := e2
      simp

private theorem valid_not_invalid (defs : Str → Option CSchema) {s : CSchema} {d : Doc} (h : ValidC defs s d) : ¬ InvalidC defs s d := by
  refine ValidC.rec (motive_1 := fun s d _ => ¬ InvalidC defs s d) (motive_2 := fun s d _ => ¬ ValidC defs s d)
    (motive_3 := fun kw d _ => ¬ FailsC defs kw d) (motive_4 := fun kw d _ => ¬ HoldsC defs kw d)
    ?_ ?_ ?_ ?_ ?_ ?_ ?_ ?_ ?_ ?_ ?_ ?_ ?_ ?_ ?_ ?_ ?_ ?_ ?_ ?_ ?_ ?_ ?_ ?_ ?_ h
  · rintro s d h ih ⟨_, _, kw, hkw, hf⟩; exact ih kw hkw hf
  · rintro s d kw hkw hf ih ⟨_, _, h⟩; exact ih (h kw hkw)
  -- what holds
  · intro p d h hf; cases hf with | check _ _ h' => rw [h] at h'; cases h'
  · intro ps d h ih hf; cases hf with | properties _ kvs k s v hm hv hi => exact ih kvs k s v rfl hm hv hi
  · intro sel s d h ih hf; cases hf with | keyed _ _ kvs k v hs hv hi => exact ih kvs k v rfl hs hv hi
  · intro s d h ih hf; cases hf with | items _ xs x hx hi => exact ih xs x rfl hx hi
  · intro ss d h ih hf; cases hf with | allOf _ s _ hs hi => exact ih s hs hi
  · intro ss s d hs h ih hf; cases hf with | anyOf _ _ h' => exact ih (h' s hs)
  · intro ss bef s aft d e h hb ha ih ihb iha hf
    cases hf with
    | noneOf _ _ h' => exact ih (h' s (e ▸ by simp))
    | manyOf _ l1 t l2 u l3 _ e' ht hu =>
      rcases two_places (e'.symm.trans e) with h | h | h | h
      · exact ihb _ h ht
      · exact iha _ h ht
      · exact ihb _ h hu
      · exact iha _ h hu
  · intro s d h ih hf; cases hf with | not _ _ h' => exact ih h'
  · intro c t e d h1 h2 ih1 ih2 hf
    cases hf with
    | thens _ _ _ _ h1' h2' => exact ih2 h2'
    | elses _ _ _ _ h1' h2' => exact ih1 h1'
  · intro c t e d h1 h2 ih1 ih2 hf
    cases hf with
    | thens _ _ _ _ h1' h2' => exact ih1 h1'
    | elses _ _ _ _ h1' h2' => exact ih2 h2'
  · intro name s d e h ih hf; cases hf with | ref _ s' _ e' h' => rw [e] at e'; cases e'; exact ih h'
  -- what fails
  · intro p d h hf; cases hf with | check _ _ h' => rw [h] at h'; cases h'
  · intro ps kvs k s v hm hv hi ih hf; cases hf with | properties _ _ h => exact ih (h kvs k s v rfl hm hv)
  · intro sel s kvs k v hs hv hi ih hf; cases hf with | keyed _ _ _ h => exact ih (h kvs k v rfl hs hv)
  · intro s xs x hx hi ih hf; cases hf with | items _ _ h => exact ih (h xs x rfl hx)
  · intro ss s d hs hi ih hf; cases hf with | allOf _ _ h => exact ih (h s hs)
  · intro ss d h ih hf; cases hf with | anyOf _ s _ hs h' => exact ih s hs h'
  · intro ss d h ih hf; cases hf with | oneOf _ bef s aft _ e h' hb ha => exact ih s (e ▸ by simp) h'
  · intro ss l1 t l2 u l3 d e ht hu iht ihu hf
    cases hf with
    | oneOf _ bef s aft _ e' h hb ha =>
      rcases two_places (e.symm.trans e') with h | h | h | h
      · exact iht (hb _ h)
      · exact iht (ha _ h)
      · exact ihu (hb _ h)
      · exact ihu (ha _ h)
  · intro s d h ih hf; cases hf with | not _ _ h' => exact ih h'
  · intro c t e d h1 h2 ih1 ih2 hf
    cases hf with
    | thens _ _ _ _ h1' h2' => exact ih2 h2'
    | elses _ _ _ _ h1' h2' => exact ih1 h1'
  · intro c t e d h1 h2 ih1 ih2 hf
    cases hf with
    | thens _ _ _ _ h1' h2' => exact ih1 h1'
    | elses _ _ _ _ h1' h2' => exact ih2 h2'
  · intro name s d e h ih hf; cases hf with | ref _ s' _ e' h' => rw [e] at e'; cases e'; exact ih h'

/-- C111: unless an argument asks for defaults, a validation that ends without an exception, lazy or not, reports no errors exactly if the document
is as the schema asks, and leaves the document as it is, however it ends. Missing for the full property: with defaults. -/
theorem C111_verdict_partial (f : VFlags) (hf : ¬ Asked f) (defs : Str → Option CSchema) (n : Nat) (lazy : Bool) (s : CSchema) (d : Doc) :
    (visitC f defs n lazy s d).doc = d ∧ ((visitC f defs n lazy s d).raised = none →
      ((visitC f defs n lazy s d).errs = [] ↔ ValidC defs s d) ∧ ((visitC f defs n lazy s d).errs ≠ [] ↔ InvalidC defs s d)) := by
  have h := visit_tells f hf defs n lazy s d
  refine ⟨h.doc, fun hr => ⟨⟨h.valid hr, ?_⟩, ⟨h.invalid hr, ?_⟩⟩⟩
  · intro hv
    by_cases he : (visitC f defs n lazy s d).errs = []
    · exact he
    · exact absurd (h.invalid hr he) (valid_not_invalid defs hv)
  · intro hi he
    exact valid_not_invalid defs (h.valid hr he) hi

/-- Without errors or exceptions. -/
private def Clean (r : Res) : Prop := r.errs = [] ∧ r.raised = none

private theorem clean_andThen {lazy : Bool} {r : Res} {next : Doc → Res} (h : Clean (andThen lazy r next)) : Clean r ∧ Clean (next r.doc) := by
  unfold andThen at h
  split at h
  · rename_i hs
    obtain ⟨h1, h2⟩ := h
    simp [h1, h2] at hs
  · rename_i hs
    obtain ⟨h1, h2⟩ := h
    simp only [List.append_eq_nil_iff] at h1
    refine ⟨⟨h1.1, ?_⟩, h1.2, h2⟩
    cases h0 : r.raised with
    | none => rfl
    | some e => simp [h0] at hs

private theorem andThen_clean {lazy : Bool} {r : Res} {next : Doc → Res} (h : Clean r) : andThen lazy r next = next r.doc := by
  unfold andThen
  rw [h.1, h.2]
  simp

/-- The lazy run and the other one are the same if one of them is without errors. -/
private def Agree (a b : Doc → Res) : Prop := ∀ d, Clean (a d) ∨ Clean (b d) → a d = b d

private theorem runAll_agree {α : Type} {b1 b2 : α → Doc → Res} : ∀ (as : List α), (∀ a ∈ as, Agree (b1 a) (b2 a)) →
    Agree (runAll true b1 as) (runAll false b2 as) := by
  intro as
  induction as with
  | nil => intro _ d _; rfl
  | cons a as ih =>
    intro h d hc
    have ha := h a (by simp) d
    have hr := ih (fun b hb => h b (by simp [hb]))
    simp only [runAll] at hc ⊢
    rcases hc with hc | hc
    · obtain ⟨c1, c2⟩ := clean_andThen hc
      have e := ha (.inl c1)
      rw [andThen_clean c1, andThen_clean (e ▸ c1), ← e]
      exact hr _ (.inl c2)
    · obtain ⟨c1, c2⟩ := clean_andThen hc
      have e := ha (.inr c1)
      rw [andThen_clean (e ▸ c1), andThen_clean c1, e]
      exact hr _ (.inr c2)

private theorem atKey_agree {v1 v2 : Doc → Res} (k : Str) (h : Agree v1 v2) : Agree (atKey k v1) (atKey k v2) := by
  intro d hc
  cases d with
  | dict kvs =>
    simp only [atKey] at hc ⊢
    cases hg : dget kvs k with
    | none => rfl
    | some v =>
      simp only [hg, Clean, List.map_eq_nil_iff] at hc ⊢
      rw [h v hc]
  | _ => rfl

private theorem atItem_agree {v1 v2 : Doc → Res} (i : Nat) (h : Agree v1 v2) : Agree (atItem i v1) (atItem i v2) := by
  intro d hc
  cases d with
  | list xs =>
    simp only [atItem] at hc ⊢
    cases hg : xs[i]? with
    | none => rfl
    | some v =>
      simp only [hg, Clean, List.map_eq_nil_iff] at hc ⊢
      rw [h v hc]
  | _ => rfl

private theorem visit_agree (f : VFlags) (defs : Str → Option CSchema) : ∀ (n : Nat) (s : CSchema),
    Agree (visitC f defs n true s) (visitC f defs n false s) := by
  intro n
  induction n with
  | zero => intro s d _; rfl
  | succ n ih =>
    intro s d hc
    rw [visitC, visitC] at *
    refine runAll_agree _ ?_ d hc
    intro kw _ d hc
    cases kw with
    | check p => rfl
    | properties ps =>
      cases d with
      | dict kvs => exact runAll_agree ps (fun p _ => atKey_agree p.1 (ih p.2)) _ hc
      | _ => rfl
    | keyed sel t =>
      cases d with
      | dict kvs => exact runAll_agree _ (fun k _ => atKey_agree k (ih t)) _ hc
      | _ => rfl
    | items t =>
      cases d with
      | list xs => exact runAll_agree _ (fun i _ => atItem_agree i (ih t)) _ hc
      | _ => rfl
    | allOf ss => exact runAll_agree ss (fun t _ => ih t) _ hc
    | anyOf ss => rfl
    | oneOf ss => rfl
    | not t => rfl
    | cond c t e =>
      simp only [kwRun] at hc ⊢
      split
      · rfl
      · rename_i hr
        rw [if_neg hr, if_neg hr] at hc
        split
        · rename_i he; rw [if_pos he, if_pos he] at hc; exact ih t _ hc
        · rename_i he; rw [if_neg he, if_neg he] at hc; exact ih e _ hc
    | ref name =>
      simp only [kwRun] at hc ⊢
      cases hd : defs name with
      | none => rfl
      | some t => rw [hd] at hc; exact ih t d hc

/-- C111: a validation that stops at the first error accepts the same documents, with or without defaults, as one that goes on to the end, and
leaves the same in them. -/
theorem C111_lazy (f : VFlags) (defs : Str → Option CSchema) (n : Nat) (s : CSchema) (d : Doc) :
    ((visitC f defs n true s d).errs = [] ∧ (visitC f defs n true s d).raised = none ↔
      (visitC f defs n false s d).errs = [] ∧ (visitC f defs n false s d).raised = none) ∧
    ((visitC f defs n true s d).errs = [] → (visitC f defs n true s d).raised = none →
      (visitC f defs n true s d).doc = (visitC f defs n false s d).doc) := by
  have h := visit_agree f defs n s d
  refine ⟨⟨fun hc => ?_, fun hc => ?_⟩, fun h1 h2 => ?_⟩
  · rw [← h (.inl hc)]; exact hc
  · rw [h (.inr hc)]; exact hc
  · rw [h (.inl ⟨h1, h2⟩)]

/-- The lazy run reports the first error of the other one, and ends there; if there is none, they are the same. -/
private def Firsts (a b : Doc → Res) : Prop :=
  ∀ d, (a d).errs = (b d).errs.take 1 ∧ ((b d).errs = [] → a d = b d) ∧ ((a d).errs ≠ [] → (a d).raised = none)

private theorem runAll_first {α : Type} {b1 b2 : α → Doc → Res} : ∀ (as : List α), (∀ a ∈ as, Firsts (b1 a) (b2 a)) →
    Firsts (runAll true b1 as) (runAll false b2 as) := by
  intro as
  induction as with
  | nil => intro _ d; exact ⟨rfl, fun _ => rfl, fun h => absurd rfl h⟩
  | cons a as ih =>
    intro h d
    obtain ⟨h1, h2, h3⟩ := h a (by simp) d
    have hr := ih (fun b hb => h b (by simp [hb]))
    simp only [runAll, andThen]
    by_cases he : (b2 a d).errs = []
    · have e := h2 he
      rw [e]
      by_cases hx : (b2 a d).raised.isSome = true
      · simp [hx, he]
      · obtain ⟨g1, g2, g3⟩ := hr (b2 a d).doc
        simp only [hx, he, Bool.false_or, List.isEmpty_nil, Bool.not_true, Bool.and_false, List.nil_append]
        simp only [Bool.false_eq_true, ↓reduceIte]
        refine ⟨g1, fun g => by rw [g2 g], g3⟩
    · have hne : (b1 a d).errs ≠ [] := by
        rw [h1]
        cases hb : (b2 a d).errs with
        | nil => exact absurd hb he
        | cons x xs => simp
      have hl : (!(b1 a d).errs.isEmpty) = true := by
        cases hb : (b1 a d).errs with
        | nil => exact absurd hb hne
        | cons x xs => rfl
      simp only [hl, Bool.and_true, Bool.or_true, ↓reduceIte, Bool.false_and, Bool.or_false]
      refine ⟨?_, ?_, h3⟩
      · rw [h1]
        split
        · rfl
        · cases hb : (b2 a d).errs with
          | nil => exact absurd hb he
          | cons x xs => simp
      · intro hn
        exfalso
        split at hn
        · exact he hn
        · simp only [List.append_eq_nil_iff] at hn
          exact he hn.1

private theorem atKey_first {v1 v2 : Doc → Res} (k : Str) (h : Firsts v1 v2) : Firsts (atKey k v1) (atKey k v2) := by
  intro d
  cases d with
  | dict kvs =>
    simp only [atKey]
    cases hg : dget kvs k with
    | none => exact ⟨rfl, fun _ => rfl, fun h => absurd rfl h⟩
    | some v =>
      obtain ⟨h1, h2, h3⟩ := h v
      simp only [List.map_eq_nil_iff, ne_eq]
      exact ⟨by rw [h1, List.map_take], fun e => by rw [h2 e], h3⟩
  | _ => exact ⟨rfl, fun _ => rfl, fun h => absurd rfl h⟩

private theorem atItem_first {v1 v2 : Doc → Res} (i : Nat) (h : Firsts v1 v2) : Firsts (atItem i v1) (atItem i v2) := by
  intro d
  cases d with
  | list xs =>
    simp only [atItem]
    cases hg : xs[i]? with
    | none => exact ⟨rfl, fun _ => rfl, fun h => absurd rfl h⟩
    | some v =>
      obtain ⟨h1, h2, h3⟩ := h v
      simp only [List.map_eq_nil_iff, ne_eq]
      exact ⟨by rw [h1, List.map_take], fun e => by rw [h2 e], h3⟩
  | _ => exact ⟨rfl, fun _ => rfl, fun h => absurd rfl h⟩

/-- It has no errors, or one and no exception. -/
private def AtMostOne (r : Res) : Prop := r.errs.take 1 = r.errs ∧ (r.errs ≠ [] → r.raised = none)

private theorem one_self {a : Doc → Res} {d : Doc} (h : AtMostOne (a d)) :
    (a d).errs = (a d).errs.take 1 ∧ ((a d).errs = [] → a d = a d) ∧ ((a d).errs ≠ [] → (a d).raised = none) :=
  ⟨h.1.symm, fun _ => rfl, h.2⟩

private theorem one_anyOf (visit : Bool → CSchema → Doc → Res) : ∀ ss d, AtMostOne (anyOfRun visit ss d) := by
  intro ss
  induction ss with
  | nil => intro d; exact ⟨rfl, fun _ => rfl⟩
  | cons s ss ih =>
    intro d
    simp only [anyOfRun]
    split
    · exact ⟨rfl, fun h => absurd rfl h⟩
    · split
      · exact ⟨rfl, fun h => absurd rfl h⟩
      · exact ih _

private theorem one_others (visit : Bool → CSchema → Doc → Res) : ∀ ss found d, AtMostOne (othersRun visit found ss d) := by
  intro ss
  induction ss with
  | nil => intro found d; cases found <;> exact ⟨rfl, fun _ => rfl⟩
  | cons s ss ih =>
    intro found d
    simp only [othersRun]
    split
    · exact ⟨rfl, fun h => absurd rfl h⟩
    · exact ih _ _

private theorem one_oneOf (visit : Bool → CSchema → Doc → Res) : ∀ ss d, AtMostOne (oneOfRun visit ss d) := by
  intro ss
  induction ss with
  | nil => intro d; exact ⟨rfl, fun _ => rfl⟩
  | cons s ss ih =>
    intro d
    simp only [oneOfRun]
    split
    · exact ⟨rfl, fun h => absurd rfl h⟩
    · split
      · exact one_others _ _ _ _
      · exact ih _

private theorem visit_first (f : VFlags) (defs : Str → Option CSchema) : ∀ (n : Nat) (s : CSchema),
    Firsts (visitC f defs n true s) (visitC f defs n false s) := by
  have none' : ∀ d : Doc, (⟨d, [], none⟩ : Res).errs = (⟨d, [], none⟩ : Res).errs.take 1 ∧
      ((⟨d, [], none⟩ : Res).errs = [] → (⟨d, [], none⟩ : Res) = ⟨d, [], none⟩) ∧
      ((⟨d, [], none⟩ : Res).errs ≠ [] → (⟨d, [], none⟩ : Res).raised = none) :=
    fun d => ⟨rfl, fun _ => rfl, fun h => absurd rfl h⟩
  intro n
  induction n with
  | zero => intro s d; exact ⟨rfl, fun _ => rfl, fun h => absurd rfl h⟩
  | succ n ih =>
    intro s d
    rw [visitC, visitC]
    refine runAll_first _ ?_ d
    intro kw _ d
    cases kw with
    | check p =>
      have g : ∀ b : Bool, (if b then [] else [CErr.failed]) = (if b then [] else [CErr.failed]).take 1 := by intro b; cases b <;> rfl
      exact ⟨g (p d), fun _ => rfl, fun _ => rfl⟩
    | properties ps =>
      cases d with
      | dict kvs => exact runAll_first ps (fun p _ => atKey_first p.1 (ih p.2)) _
      | _ => exact none' _
    | keyed sel t =>
      cases d with
      | dict kvs => exact runAll_first _ (fun k _ => atKey_first k (ih t)) _
      | _ => exact none' _
    | items t =>
      cases d with
      | list xs => exact runAll_first _ (fun i _ => atItem_first i (ih t)) _
      | _ => exact none' _
    | allOf ss => exact runAll_first ss (fun t _ => ih t) _
    | anyOf ss => exact one_self (a := fun d => anyOfRun (visitC f defs n) ss d) (one_anyOf _ ss d)
    | oneOf ss => exact one_self (a := fun d => oneOfRun (visitC f defs n) ss d) (one_oneOf _ ss d)
    | not t =>
      have g : ∀ r : Res, AtMostOne ⟨r.doc, if r.raised.isNone && r.errs.isEmpty then [.excluded] else [], r.raised⟩ := by
        rintro ⟨d, es, _ | e⟩
        · cases es <;> exact ⟨rfl, fun _ => rfl⟩
        · exact ⟨rfl, fun h => absurd rfl h⟩
      exact one_self (a := kwRun f defs (visitC f defs n) true (.not t)) (g (visitC f defs n true t d))
    | cond c t e =>
      by_cases hr : (visitC f defs n true c d).raised.isSome = true
      · simp only [kwRun, hr, ↓reduceIte]
        exact ⟨rfl, fun _ => trivial, fun h => absurd rfl h⟩
      · by_cases he : (visitC f defs n true c d).errs.isEmpty = true
        · simp only [kwRun, hr, he, ↓reduceIte]; exact ih t _
        · simp only [kwRun, hr, he]; exact ih e _
    | ref name =>
      cases hd : defs name with
      | none => simp only [kwRun, hd]; exact ⟨rfl, fun _ => trivial, fun h => absurd rfl h⟩
      | some t => simp only [kwRun, hd]; exact ih t d

/-- C111: of a document with errors, a validation that stops at the first error reports the first one of those that one which goes on to the
end reports, and no other, and raises no exception; of one without errors, both say the same, also if they end in an exception. -/
theorem C111_first (f : VFlags) (defs : Str → Option CSchema) (n : Nat) (s : CSchema) (d : Doc) :
    (∀ e es, (visitC f defs n false s d).errs = e :: es →
      (visitC f defs n true s d).errs = [e] ∧ (visitC f defs n true s d).raised = none) ∧
    ((visitC f defs n false s d).errs = [] → visitC f defs n true s d = visitC f defs n false s d) := by
  obtain ⟨h1, h2, h3⟩ := visit_first f defs n s d
  refine ⟨fun e es he => ?_, h2⟩
  rw [he] at h1
  exact ⟨h1, h3 (by rw [h1]; simp)⟩

/-! #### Cases -/

private def plainC (kws : List CKw) : CSchema := .mk kws false none none none none
private def defaultC (kws : List CKw) (d : Doc) : CSchema := .mk kws false (some d) none none none
private def isInt : CKw := .check (fun d => match d with | .int _ => true | _ => false)
private def needs (k : Str) : CKw := .check (fun d => match d with | .dict kvs => (dget kvs k).isSome | _ => true)
private def fillOn : VFlags := ⟨⟨some true, some false, some false, fun _ => false⟩, fun _ => true⟩
private def fillOff : VFlags := ⟨⟨some false, none, none, fun _ => false⟩, fun _ => true⟩
private def noDefs : Str → Option CSchema := fun _ => none

/-- C111 fails: alternatives, or excluded schemas, that the document is not like leave their defaults in it. -/
theorem C111_trace_refuted :
    (visitC fillOn noDefs 5 false (plainC [.anyOf [plainC [.properties [("a".toList, defaultC [] (.int 1))], needs "b".toList], plainC []]])
      (.dict []) = ⟨.dict [("a".toList, .int 1)], [], none⟩) ∧
    (visitC fillOn noDefs 5 false (plainC [.not (plainC [.properties [("a".toList, defaultC [] (.int 1))], needs "b".toList])])
      (.dict []) = ⟨.dict [("a".toList, .int 1)], [], none⟩) := ⟨rfl, rfl⟩

/-- `{"oneOf": [{"required": ["a"]}, {"properties": {"a": {"default": 1}}}]}` -/
def oneOfTwo : CSchema :=
  plainC [.oneOf [plainC [needs "a".toList], plainC [.properties [("a".toList, defaultC [] (.int 1))]]]]

/-- C111 fails: with defaults, a document is accepted that is not as the schema asks when it is accepted, and refused the next time. -/
theorem C111_verdict_refuted : ∃ d, visitC fillOn noDefs 5 false oneOfTwo (.dict []) = ⟨d, [], none⟩ ∧ InvalidC noDefs oneOfTwo d ∧
    (visitC fillOn noDefs 5 false oneOfTwo d).errs = [.manyAlternatives] := by
  refine ⟨.dict [("a".toList, .int 1)], rfl, ?_, rfl⟩
  refine .mk _ _ _ (List.mem_cons_self ..) ?_
  refine .manyOf _ [] _ [] _ [] _ rfl ?_ ?_
  · refine .mk _ _ ?_
    intro kw hkw
    have e : kw = needs "a".toList := by simpa [plainC, CSchema.kws] using hkw
    subst e
    exact .check _ _ rfl
  · refine .mk _ _ ?_
    intro kw hkw
    have e : kw = .properties [("a".toList, defaultC [] (.int 1))] := by simpa [plainC, CSchema.kws] using hkw
    subst e
    refine .properties _ _ ?_
    intro kvs k s v _ hm _
    have e : s = defaultC [] (.int 1) := by simp at hm; exact hm.2
    subst e
    exact .mk _ _ (by intro kw h; cases h)

/-- A tree: `{"properties": {"size": {"type": "integer", "default": 0}, "kids": {"items": {"$ref": "#/definitions/node"}}}}`. -/
private def node : CSchema :=
  plainC [.properties [("size".toList, defaultC [isInt] (.int 0)), ("kids".toList, plainC [.items (plainC [.ref "node".toList])])]]
private def nodes : Str → Option CSchema := fun s => if s = "node".toList then some node else none
private def someTree : Doc := .dict [("size".toList, .int 3), ("kids".toList, .list [.dict [], .dict [("size".toList, .int 1)]])]

example : ¬ Asked fillOff ∧ (visitC fillOff nodes 10 false node someTree).raised = none ∧ (visitC fillOff nodes 10 false node someTree).errs = [] :=
  ⟨(by rintro (h | h | h) <;> cases h), rfl, rfl⟩
example : (visitC fillOff nodes 10 true node (.dict [("kids".toList, .list [.dict [("size".toList, .str [])]])])).errs =
    [.inside "kids".toList (.item 0 (.inside "size".toList .failed))] := rfl
example : placed [.key "kids".toList, .item 0] someTree = some (.dict []) ∧
    placed ([.key "kids".toList, .item 0] ++ [.key "size".toList]) (visitC fillOn nodes 10 false node someTree).doc = some (.int 0) ∧
    placed [.key "kids".toList, .item 1, .key "size".toList] (visitC fillOn nodes 10 false node someTree).doc = some (.int 1) := ⟨rfl, rfl, rfl⟩
example : DefaultIn nodes node "size".toList (.int 0) := .here _ _ _ _ _ (List.mem_cons_self ..) (List.mem_cons_self ..) rfl
private def nulling : VFlags := ⟨⟨some true, some true, some true, fun _ => false⟩, fun _ => true⟩
private def nullableSize : CSchema := .mk [.properties [("size".toList, .mk [] true (some (.int 0)) none none none)]] false none none none none
example : ∀ k, [Place.key "size".toList].getLast? = some (.key k) → ∀ t, PropertyIn noDefs nullableSize k t → CSchema.Nullable t := by
  intro k hk t ht
  cases ht with
  | here _ ps _ _ hp hm =>
    simp only [nullableSize, CSchema.kws, List.mem_singleton, CKw.properties.injEq] at hp
    subst hp
    simp only [List.mem_singleton, Prod.mk.injEq] at hm
    rw [hm.2]
    rfl
  | inside _ u _ _ hu ht =>
    exfalso
    have leaf : ∀ k t, ¬ PropertyIn noDefs (.mk [] true (some (.int 0)) none none none) k t := by
      intro k t h
      cases h with
      | here _ _ _ _ h _ => simp [CSchema.kws] at h
      | inside _ _ _ _ h _ => cases h <;> simp_all [CSchema.kws]
    have hu' : u = .mk [] true (some (.int 0)) none none none := by
      cases hu <;> simp_all [nullableSize, CSchema.kws]
    rw [hu'] at ht
    exact leaf _ _ ht
example : placed [.key "size".toList] (visitC nulling noDefs 5 false nullableSize (.dict [("size".toList, .null)])).doc = some .null ∧
    placed [.key "size".toList] (visitC nulling noDefs 5 false (plainC [.properties [("size".toList, defaultC [] (.int 0))]])
      (.dict [("size".toList, .null)])).doc = some (.int 0) := ⟨rfl, rfl⟩
/-- Of two errors, the first one (`C111_first`). -/
example : (visitC fillOff noDefs 5 false (plainC [.items (plainC [isInt])]) (.list [.str [], .int 1, .null])).errs =
      [.item 0 .failed, .item 2 .failed] ∧
    (visitC fillOff noDefs 5 true (plainC [.items (plainC [isInt])]) (.list [.str [], .int 1, .null])).errs = [.item 0 .failed] := ⟨rfl, rfl⟩
/-- A reference to itself never ends. -/
example : (visitC fillOff (fun _ => some (plainC [.ref []])) 10 false (plainC [.ref []]) .null).raised = some .recursionError := rfl

end Props
