import Verif.Props.VisitPandas
import Verif.Props.ErrorPaths
/-
C148: the errors that are reported of Series, DataFrames and arrays.
-/
namespace Props
open Py Model Spec Lemmas

/-- If it does not raise, these are the errors. -/
private def Told (o : Option (List PvErr)) (B : VErr → Prop) : Prop := ∀ es, o = some es → ∀ e, (∃ e' ∈ es, SaysSame e' e) ↔ B e

private theorem Told.imp {o : Option (List PvErr)} {B B' : VErr → Prop} (h : Told o B) (hi : ∀ e, B e ↔ B' e) : Told o B' :=
  fun es ho e => (h es ho e).trans (hi e)

private theorem told_nil : Told (some []) (fun _ => False) := by
  rintro es ⟨⟩ e; simp

private theorem told_both {a b : Option (List PvErr)} {A B : VErr → Prop} (ha : Told a A) (hb : Told b B) :
    Told (bothErrs a b) (fun e => A e ∨ B e) := by
  intro es he e
  unfold bothErrs at he
  split at he
  · rename_i x y
    cases he
    show _ ↔ A e ∨ B e
    rw [← ha x rfl e, ← hb y rfl e]
    simp only [List.mem_append, or_and_right, exists_or]
  · cases he

private theorem told_turn {α : Type} {w : α → Option (List PvErr)} {P : α → VErr → Prop} : ∀ (xs : List α), (∀ x ∈ xs, Told (w x) (P x)) →
    Told (inTurn w xs) (fun e => ∃ x ∈ xs, P x e)
  | [], _ => told_nil.imp (by simp)
  | x :: xs, h => by
    refine (told_both (h x (by simp)) (told_turn xs (fun y hy => h y (by simp [hy])))).imp (fun e => ?_)
    simp

private theorem told_items {w : PDoc → Option (List PvErr)} {P : PDoc → VErr → Prop} : ∀ (xs : List PDoc) (i : Nat), (∀ x ∈ xs, Told (w x) (P x)) →
    Told (itemsInTurn w i xs) (fun e => ∃ (j : Nat) (x : PDoc) (e' : VErr), xs[j]? = some x ∧ P x e' ∧ e = .item (i + j) e')
  | [], _, _ => told_nil.imp (by simp)
  | x :: xs, i, h => by
    have hx : Told ((w x).map (·.map (.item i))) (fun e => ∃ e', P x e' ∧ e = .item i e') := by
      intro es he e
      obtain ⟨fs, hf, rfl⟩ := Option.map_eq_some_iff.1 he
      have hw := h x (by simp) fs hf
      constructor
      · rintro ⟨e', hm, hs⟩
        obtain ⟨e2, h2, rfl⟩ := List.mem_map.1 hm
        cases hs with | item _ _ e3 hs => exact ⟨e3, (hw e3).1 ⟨e2, h2, hs⟩, rfl⟩
      · rintro ⟨e3, hp, rfl⟩
        obtain ⟨e2, h2, hs⟩ := (hw e3).2 hp
        exact ⟨_, List.mem_map.2 ⟨e2, h2, rfl⟩, .item _ _ _ hs⟩
    refine (told_both hx (told_items xs (i + 1) (fun y hy => h y (by simp [hy])))).imp (fun e => ⟨?_, ?_⟩)
    · rintro (⟨e', hp, rfl⟩ | ⟨j, y, e', hj, hp, rfl⟩)
      · exact ⟨0, x, e', rfl, hp, rfl⟩
      · exact ⟨j + 1, y, e', hj, hp, by congr 1; omega⟩
    · rintro ⟨j, y, e', hj, hp, rfl⟩
      cases j with
      | zero => cases hj; exact .inl ⟨e', hp, rfl⟩
      | succ j => exact .inr ⟨j, y, e', hj, hp, by congr 1; omega⟩

private theorem told_inside {o : Option (List PvErr)} {B : VErr → Prop} (k : Str) (h : Told o B) :
    Told (o.map (·.map (.inside (.name k)))) (fun e => ∃ e', B e' ∧ e = .inside k e') := by
  intro es he e
  obtain ⟨fs, hf, rfl⟩ := Option.map_eq_some_iff.1 he
  have hw := h fs hf
  constructor
  · rintro ⟨e', hm, hs⟩
    obtain ⟨e2, h2, rfl⟩ := List.mem_map.1 hm
    cases hs with | inside _ _ e3 hs => exact ⟨e3, (hw e3).1 ⟨e2, h2, hs⟩, rfl⟩
  · rintro ⟨e3, hp, rfl⟩
    obtain ⟨e2, h2, hs⟩ := (hw e3).2 hp
    exact ⟨_, List.mem_map.2 ⟨e2, h2, rfl⟩, .inside _ _ _ hs⟩

private theorem told_name {o : Option (List PvErr)} {B : VErr → Prop} (k : Str) (h : Told o B) :
    Told (o.map (·.map (.name (.name k)))) (fun e => ∃ e', B e' ∧ e = .name k e') := by
  intro es he e
  obtain ⟨fs, hf, rfl⟩ := Option.map_eq_some_iff.1 he
  have hw := h fs hf
  constructor
  · rintro ⟨e', hm, hs⟩
    obtain ⟨e2, h2, rfl⟩ := List.mem_map.1 hm
    cases hs with | name _ _ e3 hs => exact ⟨e3, (hw e3).1 ⟨e2, h2, hs⟩, rfl⟩
  · rintro ⟨e3, hp, rfl⟩
    obtain ⟨e2, h2, hs⟩ := (hw e3).2 hp
    exact ⟨_, List.mem_map.2 ⟨e2, h2, rfl⟩, .name _ _ _ hs⟩

private theorem told_kws (f : VFlags) (props : List Str) (d : PDoc) (P : VKw → VErr → Prop) : ∀ kws : List VKw,
    (∀ kw ∈ kws, Told (pvisitKw f props kw d) (P kw)) → Told (pvisitKws f props kws d) (fun e => ∃ kw ∈ kws, P kw e)
  | [], _ => by rw [pvisitKws]; exact told_nil.imp (by simp)
  | kw :: t, h => by
    rw [pvisitKws]
    refine (told_both (h kw (by simp)) (told_kws f props d P t (fun y hy => h y (by simp [hy])))).imp (fun e => ?_)
    simp

private theorem told_own (f : VFlags) (d : PDoc) (P : VSchema → PDoc → VErr → Prop) : ∀ ps : List (Str × VSchema),
    (∀ p ∈ ps, ∀ v, d.get (.name p.1) = some v → Told (pvisit f p.2 v) (P p.2 v)) →
    Told (pvisitOwn f ps d) (fun e => ∃ k t v e', (k, t) ∈ ps ∧ d.get (.name k) = some v ∧ P t v e' ∧ e = .inside k e')
  | [], _ => by rw [pvisitOwn]; exact told_nil.imp (by simp)
  | (k, t) :: ps, h => by
    rw [pvisitOwn]
    have h1 : Told (match d.get (.name k) with | none => some [] | some v => (pvisit f t v).map (·.map (.inside (.name k))))
        (fun e => ∃ v e', d.get (.name k) = some v ∧ P t v e' ∧ e = .inside k e') := by
      cases hg : d.get (.name k) with
      | none => exact told_nil.imp (by simp)
      | some v =>
        refine (told_inside k (h (k, t) (by simp) v hg)).imp (fun e => ?_)
        simp
    refine (told_both h1 (told_own f d P ps (fun p hp => h p (by simp [hp])))).imp (fun e => ⟨?_, ?_⟩)
    · rintro (⟨v, e', hv, hp, rfl⟩ | ⟨k', t', v, e', hm, hv, hp, rfl⟩)
      · exact ⟨k, t, v, e', by simp, hv, hp, rfl⟩
      · exact ⟨k', t', v, e', by simp [hm], hv, hp, rfl⟩
    · rintro ⟨k', t', v, e', hm, hv, hp, rfl⟩
      rcases List.mem_cons.1 hm with hm | hm
      · cases hm; exact .inl ⟨v, e', hv, hp, rfl⟩
      · exact .inr ⟨k', t', v, e', hm, hv, hp, rfl⟩

private theorem in_extras (props : List Str) (d : PDoc) (k : Str) : Label.name k ∈ d.extras props ↔ Label.name k ∈ d.keys ∧ k ∉ props := by
  simp [PDoc.extras, List.mem_eraseDups]

private theorem all_names {ls : List Label} (h : ∀ n, Label.pos n ∉ ls) : ∃ ks : List Str, ls = ks.map .name := by
  induction ls with
  | nil => exact ⟨[], rfl⟩
  | cons l t ih =>
    obtain ⟨ks, rfl⟩ := ih (fun n hn => h n (by simp [hn]))
    cases l with
    | name k => exact ⟨k :: ks, rfl⟩
    | pos n => exact absurd (by simp) (h n)

private theorem names_inj {ks ks' : List Str} (h : (ks.map Label.name).Perm (ks'.map Label.name)) : ks.Perm ks' := by
  have := h.map (fun l => match l with | .name k => k | .pos _ => [])
  simpa [List.map_map, Function.comp_def] using this

/-- C148 (partial, as `C148_verdict_partial`). If the validation of a document that holds Series, DataFrames and arrays does not raise, the
errors that it reports are those that there are in what the document stands for, at the same places. -/
theorem C148_errors_partial (f : VFlags) (s : VSchema) (hd : Throughout DictSchema s) (he : Throughout NoBits s) (d : PDoc) (e : Doc)
    (h : Stands f s d e) (es : List PvErr) (hes : pvisit f s d = some es) (err : VErr) :
    (∃ e' ∈ es, SaysSame e' err) ↔ Breach f s e err := by
  revert err
  revert es
  change Told (pvisit f s d) (Breach f s e)
  induction s using VSchema.ind generalizing d e with
  | h s ih =>
  have key : ∀ kw ∈ s.kws, Told (pvisitKw f (propNames s.kws) kw d) (BreachOf f s.kws kw e) := by
    intro kw hkw
    have hdecl := fun k => declared_iff (once hd.here) k
    cases kw with
    | type ts =>
      have hq : (ts.any fun t => f.isPType t d) = true ↔ ∃ t ∈ ts, HasType f t e := by
        rw [List.any_eq_true]
        exact ⟨fun ⟨t, ht, hh⟩ => ⟨t, ht, (type_same f h hkw ht).1 hh⟩, fun ⟨t, ht, hh⟩ => ⟨t, ht, (type_same f h hkw ht).2 hh⟩⟩
      rw [pvisitKw]
      by_cases hb : (ts.any fun t => f.isPType t d) = true
      · rw [if_pos hb]
        refine told_nil.imp (fun err => ⟨False.elim, ?_⟩)
        intro hbr
        obtain ⟨t, ht, hh⟩ := hq.1 hb
        cases hbr with | type _ _ _ hn => exact hn t ht hh
      · rw [if_neg hb]
        rintro es ⟨⟩ err
        constructor
        · rintro ⟨e', hm, hs⟩
          simp only [List.mem_singleton] at hm; subst hm; cases hs
          exact .type _ _ _ (fun t ht hh => hb (hq.2 ⟨t, ht, hh⟩))
        · intro hbr; cases hbr; exact ⟨_, by simp, .wrongType⟩
    | enum vs =>
      have hs := enum_same h (he.here vs hkw)
      rw [pvisitKw]
      cases hr : d.ruleEnum vs with
      | none => intro es hx; cases hx
      | some b =>
        cases b with
        | true =>
          refine told_nil.imp (fun err => ⟨False.elim, ?_⟩)
          intro hbr
          obtain ⟨v, hv, hh⟩ := hs.1 hr
          cases hbr with | enum _ _ _ hn => exact hn v hv hh
        | false =>
          rintro es ⟨⟩ err
          constructor
          · rintro ⟨e', hm, hss⟩
            simp only [Bool.false_eq_true, ↓reduceIte, List.mem_singleton] at hm; subst hm; cases hss
            refine .enum _ _ _ (fun v hv hh => ?_)
            have := hs.2 ⟨v, hv, hh⟩
            rw [hr] at this; cases this
          · intro hbr; cases hbr; exact ⟨_, by simp, .notListed⟩
    | items t =>
      have hpart : PartOf s t := .items s t hkw
      rw [pvisitKw]
      rcases arrView h with ⟨ys, rfl, v⟩ | ⟨hn, hh⟩
      · rw [if_pos v.array]
        have hall : ∀ x ∈ d.elems, Told (pvisit f t x) (fun e' => ∃ (i : Nat) (y : Doc), d.elems[i]? = some x ∧ ys[i]? = some y ∧ Breach f t y e') := by
          intro x hx es0 hes0 e0
          constructor
          · intro hex
            obtain ⟨i, hi⟩ := List.mem_iff_getElem?.1 hx
            have hi2 : i < ys.length := by rw [← v.size]; exact (List.getElem?_eq_some_iff.1 hi).1
            exact ⟨i, ys[i], hi, List.getElem?_eq_getElem hi2,
              (ih t hpart (hd.inside hpart) (he.inside hpart) _ _ (v.at_ t i _ _ hkw hi (List.getElem?_eq_getElem hi2)) es0 hes0 e0).1 hex⟩
          · rintro ⟨i, y, hi, hy, hb⟩
            exact (ih t hpart (hd.inside hpart) (he.inside hpart) _ _ (v.at_ t i _ _ hkw hi hy) es0 hes0 e0).2 hb
        intro es hes err
        -- the errors of an item are those at its own position
        have hpos : ∀ (j : Nat) x, d.elems[j]? = some x → ∃ y, ys[j]? = some y ∧ Told (pvisit f t x) (Breach f t y) := by
          intro j x hj
          have hj2 : j < ys.length := by rw [← v.size]; exact (List.getElem?_eq_some_iff.1 hj).1
          exact ⟨ys[j], List.getElem?_eq_getElem hj2,
            ih t hpart (hd.inside hpart) (he.inside hpart) _ _ (v.at_ t j _ _ hkw hj (List.getElem?_eq_getElem hj2))⟩
        have hsome : ∀ (xs : List PDoc) (i : Nat) es, itemsInTurn (fun v => pvisit f t v) i xs = some es →
            ∀ x ∈ xs, ∃ fs, pvisit f t x = some fs := by
          intro xs
          induction xs with
          | nil => intro _ _ _ x hx; cases hx
          | cons a xs ihx =>
            intro i es hes x hx
            simp only [itemsInTurn, bothErrs] at hes
            split at hes
            · rename_i u w hu hw
              obtain ⟨fs, hf, -⟩ := Option.map_eq_some_iff.1 hu
              rcases List.mem_cons.1 hx with rfl | hx
              · exact ⟨fs, hf⟩
              · exact ihx _ _ hw x hx
            · cases hes
        rw [told_items d.elems 0 hall es hes err]
        constructor
        · rintro ⟨j, x, e', hj, ⟨i, y, hi, hy, hb⟩, rfl⟩
          obtain ⟨fs, hf⟩ := hsome _ _ _ hes x (List.mem_of_getElem? hj)
          obtain ⟨y2, hy2, ht2⟩ := hpos j x hj
          obtain ⟨y1, hy1, ht1⟩ := hpos i x hi
          rw [hy] at hy1; cases hy1
          rw [Nat.zero_add]
          exact .items _ _ _ _ y2 _ hy2 ((ht2 fs hf e').1 ((ht1 fs hf e').2 hb))
        · intro hbr
          cases hbr with
          | items _ _ i _ y e' hy hb =>
            have hi2 : i < d.elems.length := by rw [v.size]; exact (List.getElem?_eq_some_iff.1 hy).1
            exact ⟨i, d.elems[i], e', List.getElem?_eq_getElem hi2, ⟨i, y, List.getElem?_eq_getElem hi2, hy, hb⟩, by rw [Nat.zero_add]⟩
      · have hf : d.isArray = false := by
          rcases hh with hh | hh
          · exact hh
          · exact absurd hkw (hh.1 t)
        rw [hf, if_neg (by simp)]
        refine told_nil.imp (fun err => ⟨False.elim, ?_⟩)
        intro hbr; cases hbr with | items _ _ i xs => exact absurd rfl (hn xs)
    | properties ps =>
      rw [pvisitKw]
      rcases objView h with ⟨kvs, rfl, v⟩ | ⟨hn, hh⟩
      · rw [if_pos v.object]
        have hpos : ∀ k t x, (k, t) ∈ ps → d.get (.name k) = some x → ∃ y, dget kvs k = some y ∧ Told (pvisit f t x) (Breach f t y) := by
          intro k t x hm hx
          have hpart : PartOf s t := .property s ps k t hkw hm
          have hs : (dget kvs k).isSome := by rw [← v.get, hx]; rfl
          obtain ⟨y, hy⟩ := Option.isSome_iff_exists.1 hs
          exact ⟨y, hy, ih t hpart (hd.inside hpart) (he.inside hpart) _ _ (v.under t k x y (.own ps k t hkw hm) hx hy)⟩
        have := told_own f d (fun t x e' => ∃ fs, pvisit f t x = some fs ∧ ∃ e2 ∈ fs, SaysSame e2 e') ps
          (fun p hp x hx es0 hes0 e0 => ⟨fun hex => ⟨es0, hes0, hex⟩, fun ⟨fs, hfs, hex⟩ => by rw [hes0] at hfs; cases hfs; exact hex⟩)
        intro es hes err
        rw [this es hes err]
        constructor
        · rintro ⟨k, t, x, e', hm, hx, ⟨fs, hfs, hex⟩, rfl⟩
          obtain ⟨y, hy, ht⟩ := hpos k t x hm hx
          exact .property _ ps kvs k t y e' hm hy ((ht fs hfs e').1 hex)
        · intro hbr
          cases hbr with
          | property _ _ _ k t y e' hm hy hb =>
            have hs : (d.get (.name k)).isSome := by rw [v.get, hy]; rfl
            obtain ⟨x, hx⟩ := Option.isSome_iff_exists.1 hs
            obtain ⟨y2, hy2, ht⟩ := hpos k t x hm hx
            rw [hy] at hy2; cases hy2
            have hsome : ∀ (ps : List (Str × VSchema)) es, pvisitOwn f ps d = some es → (k, t) ∈ ps → ∃ fs, pvisit f t x = some fs := by
              intro ps
              induction ps with
              | nil => intro _ _ hx; cases hx
              | cons a ps ihx =>
                intro es hes hm
                obtain ⟨k', t'⟩ := a
                simp only [pvisitOwn, bothErrs] at hes
                split at hes
                · rename_i u w hu hw
                  rcases List.mem_cons.1 hm with hm | hm
                  · cases hm
                    rw [hx] at hu
                    obtain ⟨fs, hf, -⟩ := Option.map_eq_some_iff.1 hu
                    exact ⟨fs, hf⟩
                  · exact ihx _ hw hm
                · cases hes
            obtain ⟨fs, hfs⟩ := hsome ps es hes hm
            exact ⟨k, t, x, e', hm, hx, ⟨fs, hfs, (ht fs hfs e').2 hb⟩, rfl⟩
      · have hf : d.isObject = false := by
          rcases hh with hh | hh
          · exact hh
          · exact absurd hkw (hh.1 ps)
        rw [hf, if_neg (by simp)]
        refine told_nil.imp (fun err => ⟨False.elim, ?_⟩)
        intro hbr; cases hbr with | property _ _ kvs => exact absurd rfl (hn kvs)
    | required ns =>
      rw [pvisitKw]
      rcases objView h with ⟨kvs, rfl, v⟩ | ⟨hn, hh⟩
      · rw [if_pos v.object]
        rintro es ⟨⟩ err
        have hiff : ∀ n, (d.get (.name n)).isNone = true ↔ dget kvs n = none := by
          intro n
          have := v.get n
          cases h1 : d.get (.name n) <;> cases h2 : dget kvs n <;> simp_all
        constructor
        · rintro ⟨e', hm, hs⟩
          obtain ⟨n, hm2, rfl⟩ := List.mem_map.1 hm
          obtain ⟨h1, h2⟩ := List.mem_filter.1 hm2
          cases hs
          exact .required _ _ _ _ h1 ((hiff n).1 h2)
        · intro hbr
          cases hbr with
          | required _ _ _ n h1 h2 => exact ⟨_, List.mem_map.2 ⟨n, List.mem_filter.2 ⟨h1, (hiff n).2 h2⟩, rfl⟩, .missing _⟩
      · have hf : d.isObject = false := by
          rcases hh with hh | hh
          · exact hh
          · exact absurd hkw (hh.2.1 ns)
        rw [hf, if_neg (by simp)]
        refine told_nil.imp (fun err => ⟨False.elim, ?_⟩)
        intro hbr; cases hbr with | required _ _ kvs => exact absurd rfl (hn kvs)
    | additional b =>
      rw [pvisitKw]
      cases b with
      | true =>
        rw [if_neg (by simp)]
        refine told_nil.imp (fun err => ⟨False.elim, ?_⟩)
        intro hbr; cases hbr
      | false =>
        rcases objView h with ⟨kvs, rfl, v⟩ | ⟨hn, hh⟩
        · obtain ⟨ks, hks⟩ := all_names (ls := d.extras (propNames s.kws)) (fun n hm => by
            simp only [PDoc.extras, List.mem_eraseDups, List.mem_filter] at hm
            exact v.noPos n hm.1)
          have hmem : ∀ k, k ∈ ks ↔ (dget kvs k).isSome ∧ ¬ Declared s.kws k := by
            intro k
            have h1 : k ∈ ks ↔ Label.name k ∈ d.extras (propNames s.kws) := by rw [hks]; simp
            rw [h1, in_extras, v.keys, hdecl k]
          have hnd : ks.Nodup := by
            have : (ks.map Label.name).Nodup := by rw [← hks]; exact nodup_eraseDups _ _ (Nat.le_refl _)
            exact List.Pairwise.of_map _ (fun a b hab e => hab (by rw [e])) this
          by_cases hk : ks = []
          · subst hk
            rw [hks, if_neg (by simp)]
            refine told_nil.imp (fun err => ⟨False.elim, ?_⟩)
            intro hbr
            cases hbr with
            | additional _ _ ks' h1 _ h3 =>
              obtain ⟨k, hk⟩ := List.exists_mem_of_ne_nil _ h1
              have := (hmem k).2 ((h3 k).1 hk)
              cases this
          · rw [if_pos (by rw [v.object, hks]; cases ks <;> simp_all)]
            rintro es ⟨⟩ err
            constructor
            · rintro ⟨e', hm, hs⟩
              simp only [List.mem_singleton] at hm; subst hm
              cases hs with
              | unexpected _ ks' hp =>
                rw [hks] at hp
                have hp := names_inj hp
                refine .additional _ _ _ ?_ (hp.nodup_iff.1 hnd) (fun k => by rw [← hp.mem_iff, hmem])
                rintro rfl
                exact hk hp.eq_nil
            · intro hbr
              cases hbr with
              | additional _ _ ks' h1 h2 h3 =>
                refine ⟨_, List.mem_singleton.2 rfl, .unexpected _ _ ?_⟩
                rw [hks]
                refine List.Perm.map _ ((List.perm_ext_iff_of_nodup hnd h2).2 (fun k => by rw [hmem, h3]))
        · have hf : d.isObject = false := by
            rcases hh with hh | hh
            · exact hh
            · exact absurd hkw (hh.2.2.1 _)
          rw [hf, if_neg (by simp)]
          refine told_nil.imp (fun err => ⟨False.elim, ?_⟩)
          intro hbr; cases hbr with | additional _ kvs => exact absurd rfl (hn kvs)
    | additionalS t =>
      have hpart : PartOf s t := .additional s t hkw
      rw [pvisitKw]
      rcases objView h with ⟨kvs, rfl, v⟩ | ⟨hn, hh⟩
      · rw [if_pos v.object]
        have hnp : ∀ l ∈ d.extras (propNames s.kws), ∃ k, l = .name k ∧ Label.name k ∈ d.keys ∧ ¬ Declared s.kws k := by
          intro l hl
          cases l with
          | pos n =>
            simp only [PDoc.extras, List.mem_eraseDups, List.mem_filter] at hl
            exact absurd hl.1 (v.noPos n)
          | name k =>
            obtain ⟨h1, h2⟩ := (in_extras _ _ _).1 hl
            exact ⟨k, rfl, h1, fun hc => h2 ((hdecl k).1 hc)⟩
        refine (told_turn (P := fun l e0 => ∃ k y e', l = Label.name k ∧ dget kvs k = some y ∧ Breach f t y e' ∧ e0 = .inside k e') _ ?_).imp
          (fun err => ⟨?_, ?_⟩)
        · intro l hl
          obtain ⟨k, rfl, hkk, hnd⟩ := hnp l hl
          have hs := (v.keys k).1 hkk
          obtain ⟨y, hy⟩ := Option.isSome_iff_exists.1 hs
          have hs' : (d.get (.name k)).isSome := by rw [v.get, hy]; rfl
          obtain ⟨x, hx⟩ := Option.isSome_iff_exists.1 hs'
          simp only [hx]
          refine (told_inside k (ih t hpart (hd.inside hpart) (he.inside hpart) _ _ (v.under t k x y (.extra k t hkw hnd) hx hy))).imp
            (fun e0 => ⟨?_, ?_⟩)
          · rintro ⟨e', hb, rfl⟩; exact ⟨k, y, e', rfl, hy, hb, rfl⟩
          · rintro ⟨k', y', e', hk, hy', hb, rfl⟩
            cases hk; rw [hy] at hy'; cases hy'
            exact ⟨e', hb, rfl⟩
        · rintro ⟨l, hl, k, y, e', rfl, hy, hb, rfl⟩
          obtain ⟨k', hk, -, hnd⟩ := hnp _ hl
          cases hk
          exact .additionalS _ _ _ k y e' hnd hy hb
        · intro hbr
          cases hbr with
          | additionalS _ _ _ k y e' hnd hy hb =>
            refine ⟨.name k, (in_extras _ _ _).2 ⟨(v.keys k).2 (by rw [hy]; rfl), fun hc => hnd ((hdecl k).2 hc)⟩, k, y, e', rfl, hy, hb, rfl⟩
      · have hf : d.isObject = false := by
          rcases hh with hh | hh
          · exact hh
          · exact absurd hkw (hh.2.2.2.1 t)
        rw [hf, if_neg (by simp)]
        refine told_nil.imp (fun err => ⟨False.elim, ?_⟩)
        intro hbr; cases hbr with | additionalS _ _ kvs => exact absurd rfl (hn kvs)
    | propertyNames t =>
      have hpart : PartOf s t := .names s t hkw
      have hih : ∀ k, Told (pvisit f t (Label.asDoc (.name k))) (Breach f t (.str k)) := fun k =>
        ih t hpart (hd.inside hpart) (he.inside hpart) _ _ (.scalar t false (.str k))
      rw [pvisitKw]
      rcases objView h with ⟨kvs, rfl, v⟩ | ⟨hn, hh⟩
      · rw [if_pos v.object]
        refine (told_turn (P := fun l e0 => ∃ k e', l = Label.name k ∧ Breach f t (.str k) e' ∧ e0 = .name k e') _ ?_).imp
          (fun err => ⟨?_, ?_⟩)
        · intro l hl
          cases l with
          | pos n => exact absurd hl (v.noPos n)
          | name k =>
            refine (told_name k (hih k)).imp (fun e0 => ⟨?_, ?_⟩)
            · rintro ⟨e', hb, rfl⟩; exact ⟨k, e', rfl, hb, rfl⟩
            · rintro ⟨k', e', hk, hb, rfl⟩; cases hk; exact ⟨e', hb, rfl⟩
        · rintro ⟨l, hl, k, e', rfl, hb, rfl⟩
          exact .propertyName _ _ _ k e' ((v.keys k).1 hl) hb
        · intro hbr
          cases hbr with
          | propertyName _ _ _ k e' hs hb => exact ⟨.name k, (v.keys k).2 hs, k, e', rfl, hb, rfl⟩
      · have hf : d.isObject = false := by
          rcases hh with hh | hh
          · exact hh
          · exact absurd hkw (hh.2.2.2.2.1 t)
        rw [hf, if_neg (by simp)]
        refine told_nil.imp (fun err => ⟨False.elim, ?_⟩)
        intro hbr; cases hbr with | propertyName _ _ kvs => exact absurd rfl (hn kvs)
  cases hs : s with
  | mk kws a b c g =>
    subst hs
    rw [pvisit]
    refine (told_kws f (propNames kws) d _ kws key).imp (fun err => ⟨?_, ?_⟩)
    · rintro ⟨kw, hk, hb⟩; exact .mk _ _ kw err hk hb
    · intro hb; cases hb with | mk _ _ kw _ hk hb => exact ⟨kw, hk, hb⟩

/-! #### Cases -/

private def plainS (kws : List VKw) : VSchema := .mk kws none none none none
private def noFill : VFlags := ⟨⟨none, none, none, fun t => t == 0⟩, fun _ => true⟩
private def intS : VSchema := plainS [.type [.integer]]

/-- C148 is false of labels that are there more than once: all values of the label are whole numbers, and yet a validation that asks for a whole
number there reports an error; a single one passes. -/
theorem C148_repeated_refuted :
    pvisit noFill (plainS [.properties [("a".toList, intS)]]) (.series true [(.name "a".toList, .int 1), (.name "b".toList, .int 2)]) = some [] ∧
    pvisit noFill (plainS [.properties [("a".toList, intS)]]) (.series true [(.name "a".toList, .int 1), (.name "a".toList, .int 2)]) =
      some [.inside (.name "a".toList) .wrongType] ∧
    pvisit noFill (plainS [.properties [("a".toList, plainS [.type [.array], .items intS])]])
      (.series true [(.name "a".toList, .int 1), (.name "a".toList, .int 2)]) = some [] := ⟨rfl, rfl, rfl⟩

/-- The errors of a DataFrame: in the second row of a column, and a column that is not foreseen. -/
example : pvisit noFill (plainS [.properties [("c".toList, plainS [.type [.array], .items intS])], .additional false])
    (.frame [.pos 0, .pos 1] [(.name "c".toList, false, [.int 3, .str []]), (.name "d".toList, true, [.int 3, .int 4])]) =
  some [.inside (.name "c".toList) (.item 1 .wrongType), .unexpected [.name "d".toList]] := by rfl

/-- It stands for a document with these errors. -/
example : Stands noFlags (plainS [.properties [("c".toList, plainS [.type [.array], .items intS])], .additional false])
    (.frame [.pos 0, .pos 1] [(.name "c".toList, false, [.int 3, .str []]), (.name "d".toList, true, [.int 3, .int 4])])
    (.dict [("c".toList, .list [.int 3, .str []]), ("d".toList, .list [.int 3, .int 4])]) := by
  refine .frame _ _ _ [("c".toList, false, [.int 3, .str []]), ("d".toList, true, [.int 3, .int 4])] _ ?_ ⟨rfl, by decide⟩ ?_ ?_
  · rintro ⟨-, _, _, _, h, -⟩; cases h
  · intro k
    simp only [dget]
    split
    · rfl
    · split <;> rfl
  · intro t k c y hp hc hy
    cases hp with
    | extra _ _ h _ => simp [plainS, VSchema.kws] at h
    | own ps _ _ h hm =>
      simp only [plainS, VSchema.kws, List.mem_cons, VKw.properties.injEq, reduceCtorEq, List.not_mem_nil, or_false] at h
      subst h
      simp only [List.mem_singleton, Prod.mk.injEq] at hm
      obtain ⟨rfl, rfl⟩ := hm
      cases hc; cases hy
      refine .seriesArray _ _ _ ?_ ?_
      · refine ⟨?_, ?_, ?_, ?_, ?_, ?_⟩ <;> intro x hx <;> simp [VSchema.kws] at hx
        subst hx; simp
      · rintro ⟨-, h, -⟩; cases h

end Props
