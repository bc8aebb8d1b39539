import Verif.Spec.SeriesMerge
import Verif.Spec.Pandel
import Verif.Lemmas.Dict
import Verif.Lemmas.Pandel
/-
C109: merging submodels that are, or have, Series.
-/
namespace Props
open Py Model Spec

private theorem isNull_iff (t : Tree) : t.isNull = true ↔ t = .null := by cases t <;> simp [Tree.isNull]

private theorem toSeries_series (s : List (Label × Tree)) : (Tree.series s).toSeries = s := rfl

private theorem dget_name (kvs : List (Str × Tree)) (k : Str) :
    dget (kvs.map (fun p => (Label.name p.1, p.2))) (.name k) = dget kvs k := by
  induction kvs with
  | nil => rfl
  | cons p t ih =>
    obtain ⟨k', v⟩ := p
    simp only [List.map_cons, dget_cons, Label.name.injEq, ih]

private theorem dget_name_pos (kvs : List (Str × Tree)) (n : Nat) :
    dget (kvs.map (fun p => (Label.name p.1, p.2))) (.pos n) = none := by
  induction kvs with
  | nil => rfl
  | cons p t ih => simp [dget_cons, ih]

private theorem nodup_names {kvs : List (Str × Tree)} (h : (kvs.map (·.1)).Nodup) :
    (dkeys (kvs.map (fun p => (Label.name p.1, p.2)))).Nodup := by
  have e : dkeys (kvs.map (fun p => (Label.name p.1, p.2))) = (kvs.map (·.1)).map Label.name := by simp [dkeys]
  rw [e]
  exact List.Pairwise.map _ (fun a b hab e => hab (Label.name.inj e)) h

private theorem nodup_toSeries {t : Tree} (h : Labelled t) : (dkeys t.toSeries).Nodup := by
  cases h with
  | nothing => simp [Tree.toSeries, dkeys]
  | object kvs h => exact nodup_names h
  | series s h => exact h

private theorem holds_iff {t : Tree} (h : Labelled t) (l : Label) (c : Tree) :
    HoldsAt t l c ↔ dget t.toSeries l = some c ∧ c ≠ .null := by
  cases h with
  | nothing => constructor
               · intro h; cases h
               · rintro ⟨h, -⟩; simp [Tree.toSeries, dget] at h
  | object kvs h =>
    constructor
    · intro hh
      cases hh with
      | object _ k _ hm hn => exact ⟨(dget_name kvs k).trans (dget_of_mem h hm), hn⟩
    · rintro ⟨hg, hn⟩
      cases l with
      | name k => exact .object _ _ _ (mem_of_dget ((dget_name kvs k).symm.trans hg)) hn
      | pos n => exact absurd ((dget_name_pos kvs n).symm.trans hg) (by simp)
  | series s h =>
    constructor
    · intro hh
      cases hh with
      | series _ _ _ hm hn => exact ⟨dget_of_mem h hm, hn⟩
    · rintro ⟨hg, hn⟩
      exact .series _ _ _ (mem_of_dget hg) hn

private theorem hasLabel_iff {t : Tree} (h : Labelled t) (l : Label) :
    HasLabel t l ↔ ∃ c, dget t.toSeries l = some c := by
  cases h with
  | nothing => constructor
               · intro h; cases h
               · rintro ⟨c, h⟩; simp [Tree.toSeries, dget] at h
  | object kvs h =>
    constructor
    · intro hh
      cases hh with
      | object _ k _ hm => exact ⟨_, (dget_name kvs k).trans (dget_of_mem h hm)⟩
    · rintro ⟨c, hg⟩
      cases l with
      | name k => exact .object _ _ _ (mem_of_dget ((dget_name kvs k).symm.trans hg))
      | pos n => exact absurd ((dget_name_pos kvs n).symm.trans hg) (by simp)
  | series s h =>
    constructor
    · intro hh
      cases hh with
      | series _ _ _ hm => exact ⟨_, dget_of_mem h hm⟩
    · rintro ⟨c, hg⟩
      exact .series _ _ _ (mem_of_dget hg)

private theorem dget_combine (b a : List (Label × Tree)) (l : Label) :
    dget (combineFirst b a) l = match dget b l with
      | some v => some (if v.isNull then (dget a l).getD .null else v)
      | none => dget a l := by
  unfold combineFirst
  rw [dget_append, dget_map_val b (fun k v => if v.isNull then (dget a k).getD .null else v),
    dget_filter_key (p := fun k => !(dkeys b).contains k)]
  cases h : dget b l with
  | some v => simp
  | none =>
    have hm : ¬ l ∈ dkeys b := (dget_eq_none_iff _ _).1 h
    have hc : (dkeys b).contains l = false := by simpa using hm
    simp only [Option.map_none, Option.none_or, hc, Bool.not_false, if_true]

private theorem nodup_combine {b a : List (Label × Tree)} (hb : (dkeys b).Nodup) (ha : (dkeys a).Nodup) :
    (dkeys (combineFirst b a)).Nodup := by
  have e : dkeys (combineFirst b a) = dkeys b ++ (dkeys a).filter (fun k => !(dkeys b).contains k) := by
    simp [combineFirst, dkeys, List.filter_map, Function.comp_def]
  rw [e]
  refine List.nodup_append.2 ⟨hb, ha.sublist List.filter_sublist, ?_⟩
  intro x hx y hy
  rintro rfl
  have := (List.mem_filter.1 hy).2
  simp [hx] at this

private theorem merge_series {a b : Tree} (hs : a.isSeries = true ∨ b.isSeries = true) :
    mergeTree a b = .ok (mergeSeries a b) := by
  cases b with
  | series s => simp [mergeTree]
  | _ =>
    cases a with
    | series s => simp [mergeTree, cloneTree, scalarTree, Tree.isSeries]
    | _ => rcases hs with h | h <;> simp [Tree.isSeries] at h

private theorem combined_holds (b a : List (Label × Tree)) (l : Label) (c : Tree) :
    (dget (combineFirst b a) l = some c ∧ c ≠ .null) ↔
      (dget b l = some c ∧ c ≠ .null) ∨ ((dget a l = some c ∧ c ≠ .null) ∧ ∀ c', ¬ (dget b l = some c' ∧ c' ≠ .null)) := by
  simp only [dget_combine]
  cases hbl : dget b l with
  | none => simp
  | some v =>
    by_cases hv : v.isNull = true
    · rw [(isNull_iff v).1 hv]
      simp only [Tree.isNull, if_true, Option.some.injEq]
      constructor
      · rintro ⟨h, hc⟩
        refine Or.inr ⟨⟨?_, hc⟩, fun c' h' => h'.2 h'.1.symm⟩
        cases hal : dget a l with
        | none => rw [hal] at h; exact absurd h.symm hc
        | some x => rw [hal] at h; exact congrArg some h
      · rintro (⟨h, hc⟩ | ⟨⟨h, hc⟩, -⟩)
        · exact absurd h.symm hc
        · rw [h]; exact ⟨rfl, hc⟩
    · have hvn : v ≠ .null := fun e => hv ((isNull_iff v).2 e)
      simp only [hv, Bool.false_eq_true, if_false, Option.some.injEq]
      constructor
      · exact fun h => Or.inl h
      · rintro (h | ⟨-, h⟩)
        · exact h
        · exact absurd ⟨rfl, hvn⟩ (h v)

/-- C109: two submodels, objects or Series or nothing, of which at least one is a Series, are merged into a Series with the labels of both; under each
label it holds what the later one holds, or if that has nothing there (or a missing value) what the earlier one holds. Missing for the full
property: cells that are objects are not merged (`C109_cells_refuted`), lists and scalars do not replace (`C109_list_refuted`,
`C109_scalar_refuted`). -/
theorem C109_series_partial (a b : Tree) (ha : Labelled a) (hb : Labelled b) (hs : a.isSeries = true ∨ b.isSeries = true) :
    ∃ s, mergeTree a b = .ok (.series s) ∧ Labelled (.series s) ∧
      (∀ l, HasLabel (.series s) l ↔ HasLabel a l ∨ HasLabel b l) ∧
      ∀ l c, HoldsAt (.series s) l c ↔ HoldsAt b l c ∨ (HoldsAt a l c ∧ ∀ c', ¬ HoldsAt b l c') := by
  have hn := nodup_combine (nodup_toSeries hb) (nodup_toSeries ha)
  have hl : Labelled (.series (combineFirst b.toSeries a.toSeries)) := .series _ hn
  refine ⟨_, merge_series hs, hl, ?_, ?_⟩
  · intro l
    rw [hasLabel_iff hl, hasLabel_iff ha, hasLabel_iff hb]
    simp only [toSeries_series, dget_combine]
    cases dget b.toSeries l <;> simp
  · intro l c
    simp only [holds_iff hl, holds_iff ha, holds_iff hb]
    exact combined_holds _ _ l c

private theorem dget_labelFrom (xs : List Tree) : ∀ (n : Nat) (l : Label) (c : Tree),
    dget (labelFrom n xs) l = some c ↔ ∃ i, l = .pos (n + i) ∧ xs[i]? = some c := by
  induction xs with
  | nil => intro n l c; simp [labelFrom, dget]
  | cons x xs ih =>
    intro n l c
    simp only [labelFrom, dget_cons]
    by_cases h : l = .pos n
    · rw [if_pos h.symm]
      subst h
      constructor
      · intro e; exact ⟨0, rfl, e⟩
      · rintro ⟨i, e, hi⟩
        have : i = 0 := by have := Label.pos.inj e; omega
        subst this; exact hi
    · rw [if_neg (fun e => h e.symm), ih]
      constructor
      · rintro ⟨i, e, hi⟩; exact ⟨i + 1, by rw [e]; congr 1; omega, hi⟩
      · rintro ⟨i, e, hi⟩
        cases i with
        | zero => exact absurd e h
        | succ i => exact ⟨i, by rw [e]; congr 1; omega, hi⟩

private theorem puts_iff {t : Tree} (h : LabelsOnce t) (l : Label) (c : Tree) : PutsAt t l c ↔ dget t.toSeries l = some c ∧ c ≠ .null := by
  have one : ∀ (v : Tree), v ≠ .null → ((dget [(Label.pos 0, v)] l = some c ∧ c ≠ .null) ↔ l = .pos 0 ∧ c = v) := by
    intro v hv
    simp only [dget_cons]
    by_cases hl : l = .pos 0
    · rw [if_pos hl.symm]
      constructor
      · rintro ⟨e, _⟩; cases e; exact ⟨hl, rfl⟩
      · rintro ⟨_, rfl⟩; exact ⟨rfl, hv⟩
    · rw [if_neg (fun e => hl e.symm)]
      constructor
      · rintro ⟨e, _⟩; cases e
      · rintro ⟨e, _⟩; exact absurd e hl
  have held : (Labelled t) → (¬ ∃ xs, t = .list xs) → (PutsAt t l c → HoldsAt t l c) → (PutsAt t l c ↔ dget t.toSeries l = some c ∧ c ≠ .null) := by
    intro hl _ hp
    rw [← holds_iff hl]
    exact ⟨hp, .held _ _ _⟩
  cases t with
  | null => exact held .nothing (by rintro ⟨xs, e⟩; cases e) (fun h => by cases h; assumption)
  | dict kvs => exact held (.object _ h) (by rintro ⟨xs, e⟩; cases e) (fun h => by cases h; assumption)
  | series s => exact held (.series _ h) (by rintro ⟨xs, e⟩; cases e) (fun h => by cases h; assumption)
  | list xs =>
    simp only [Tree.toSeries, dget_labelFrom, Nat.zero_add]
    constructor
    · intro h
      cases h with
      | held _ _ _ h => cases h
      | item _ i _ h1 h2 => exact ⟨⟨i, rfl, h1⟩, h2⟩
    · rintro ⟨⟨i, rfl, h1⟩, h2⟩; exact .item _ _ _ h1 h2
  | bool b =>
    rw [Tree.toSeries, one _ (by simp)]
    constructor
    · intro h
      cases h with
      | held _ _ _ h => cases h
      | bool => exact ⟨rfl, rfl⟩
    · rintro ⟨rfl, rfl⟩; exact .bool b
  | int b =>
    rw [Tree.toSeries, one _ (by simp)]
    constructor
    · intro h
      cases h with
      | held _ _ _ h => cases h
      | int => exact ⟨rfl, rfl⟩
    · rintro ⟨rfl, rfl⟩; exact .int b
  | atom b =>
    rw [Tree.toSeries, one _ (by simp)]
    constructor
    · intro h
      cases h with
      | held _ _ _ h => cases h
      | atom => exact ⟨rfl, rfl⟩
    · rintro ⟨rfl, rfl⟩; exact .atom b
  | str b =>
    rw [Tree.toSeries, one _ (by simp)]
    constructor
    · intro h
      cases h with
      | held _ _ _ h => cases h
      | text => exact ⟨rfl, rfl⟩
    · rintro ⟨rfl, rfl⟩; exact .text b

private theorem nodup_labels {t : Tree} (h : LabelsOnce t) : (dkeys t.toSeries).Nodup := by
  have hlist : ∀ (xs : List Tree) (n : Nat), (dkeys (labelFrom n xs)).Nodup ∧ ∀ k ∈ dkeys (labelFrom n xs), ∃ i, k = .pos (n + i) := by
    intro xs
    induction xs with
    | nil => intro n; simp [labelFrom, dkeys]
    | cons x xs ih =>
      intro n
      obtain ⟨h1, h2⟩ := ih (n + 1)
      simp only [labelFrom, dkeys, List.map_cons] at h1 h2 ⊢
      refine ⟨List.nodup_cons.2 ⟨fun hm => ?_, h1⟩, ?_⟩
      · obtain ⟨i, e⟩ := h2 _ hm
        have := Label.pos.inj e
        omega
      · intro k hk
        rcases List.mem_cons.1 hk with rfl | hk
        · exact ⟨0, rfl⟩
        · obtain ⟨i, rfl⟩ := h2 k hk
          exact ⟨i + 1, by congr 1; omega⟩
  cases t with
  | dict kvs => exact nodup_names h
  | series s => exact h
  | list xs => exact (hlist xs 0).1
  | _ => simp [Tree.toSeries, dkeys]

/-- C109. What merging does instead of replacing, whatever the other submodel is: two submodels of any kind, of which at least one is a
Series, are merged into a Series. Under each label it holds what the later one puts there, the items of a list being put under their
positions and a single value under position 0, or if that puts nothing there what the earlier one does. -/
theorem C109_anything (a b : Tree) (ha : LabelsOnce a) (hb : LabelsOnce b) (hs : a.isSeries = true ∨ b.isSeries = true) :
    ∃ s, mergeTree a b = .ok (.series s) ∧ Labelled (.series s) ∧
      ∀ l c, HoldsAt (.series s) l c ↔ PutsAt b l c ∨ (PutsAt a l c ∧ ∀ c', ¬ PutsAt b l c') := by
  have hl : Labelled (.series (combineFirst b.toSeries a.toSeries)) := .series _ (nodup_combine (nodup_labels hb) (nodup_labels ha))
  refine ⟨_, merge_series hs, hl, fun l c => ?_⟩
  simp only [holds_iff hl, puts_iff ha, puts_iff hb]
  exact combined_holds _ _ l c

example : LabelsOnce (.series [(.name "a".toList, .int 1)]) ∧ LabelsOnce (.list [.int 7, .null]) ∧ PutsAt (.list [.int 7, .null]) (.pos 0) (.int 7) ∧
    mergeTree (.series [(.name "a".toList, .int 1)]) (.list [.int 7, .null]) =
      .ok (.series [(.pos 0, .int 7), (.pos 1, .null), (.name "a".toList, .int 1)]) :=
  ⟨by simp [LabelsOnce], trivial, .item _ 0 _ rfl (fun h => nomatch h), by rfl⟩

private theorem mergeTrees_get : ∀ (bs as cs : List (Str × Tree)), (dkeys bs).Nodup → mergeTrees as bs = .ok cs →
    ∀ k x y, dget as k = some x → dget bs k = some y → ∃ z, dget cs k = some z ∧ mergeTree x y = .ok z := by
  intro bs
  have keep : ∀ (bs as cs : List (Str × Tree)) (k : Str), k ∉ dkeys bs → mergeTrees as bs = .ok cs → dget cs k = dget as k := by
    intro bs
    induction bs with
    | nil => intro as cs k _ h; simp [mergeTrees] at h; rw [h]
    | cons p t ih =>
      intro as cs k hk h
      obtain ⟨key, bval⟩ := p
      simp only [mergeTrees] at h
      split at h
      · cases h
      · have hk' : k ≠ key ∧ k ∉ dkeys t := by simpa [dkeys] using hk
        rw [ih _ _ _ hk'.2 h, dget_dset_ne _ _ hk'.1]
  induction bs with
  | nil => intro as cs _ _ k x y _ hy; simp [dget] at hy
  | cons p t ih =>
    intro as cs hnd h k x y hx hy
    obtain ⟨key, bval⟩ := p
    simp only [dkeys, List.map_cons, List.nodup_cons] at hnd
    simp only [mergeTrees] at h
    split at h
    · cases h
    · rename_i v hv
      rw [dget_cons] at hy
      by_cases hk : key = k
      · subst hk
        simp at hy
        subst hy
        rw [hx] at hv
        refine ⟨v, ?_, hv⟩
        rw [keep _ _ _ _ hnd.1 h, dget_dset_self]
      · rw [if_neg hk] at hy
        exact ih _ _ hnd.2 h k x y (by rw [dget_dset_ne _ _ (fun e => hk e.symm)]; exact hx) hy

private theorem merge_along : ∀ (ks : List Str) (a b c x y : Tree), KeysOnce ks b → mergeTree a b = .ok c →
    along ks a = some x → along ks b = some y → ∃ z, along ks c = some z ∧ mergeTree x y = .ok z := by
  intro ks
  induction ks with
  | nil =>
    intro a b c x y _ h ha hb
    simp [along] at ha hb
    subst ha hb
    exact ⟨c, rfl, h⟩
  | cons k ks ih =>
    intro a b c x y hk h ha hb
    cases a <;> simp [along] at ha
    cases b <;> simp [along] at hb
    rename_i as bs
    simp only [KeysOnce] at hk
    cases hax : dget as k with
    | none => rw [hax] at ha; cases ha
    | some a' =>
      cases hbx : dget bs k with
      | none => rw [hbx] at hb; cases hb
      | some b' =>
        rw [hax] at ha
        rw [hbx] at hb
        simp only [mergeTree, Tree.isSeries, Bool.false_eq_true, if_false, Tree.dictOrEmpty] at h
        split at h
        · cases h
        · rename_i cs hcs
          cases h
          obtain ⟨z, hz, hm⟩ := mergeTrees_get _ _ _ hk.1 hcs k a' b' hax hbx
          obtain ⟨w, hw, hxy⟩ := ih a' b' z x y (hk.2 _ hbx) hm ha hb
          exact ⟨w, by simp only [along, hz]; exact hw, hxy⟩

/-- C109: the same inside objects, at any depth: where both submodels have an object or a Series along the same keys, and at least one of them is a
Series, the merged one has a Series there, with what the later one holds, or else the earlier one. -/
theorem C109_nested_partial (ks : List Str) (a b c x y : Tree) (hk : KeysOnce ks b) (h : mergeTree a b = .ok c)
    (hx : along ks a = some x) (hy : along ks b = some y) (hxl : Labelled x) (hyl : Labelled y)
    (hs : x.isSeries = true ∨ y.isSeries = true) :
    ∃ s, along ks c = some (.series s) ∧ (∀ l, HasLabel (.series s) l ↔ HasLabel x l ∨ HasLabel y l) ∧
      ∀ l v, HoldsAt (.series s) l v ↔ HoldsAt y l v ∨ (HoldsAt x l v ∧ ∀ v', ¬ HoldsAt y l v') := by
  obtain ⟨z, hz, hm⟩ := merge_along ks a b c x y hk h hx hy
  obtain ⟨s, e, -, h1, h2⟩ := C109_series_partial x y hxl hyl hs
  rw [e] at hm
  cases hm
  exact ⟨s, hz, h1, h2⟩

private theorem merge_last : ∀ (ts : List Tree) (m : Tree), Labelled m → m.isSeries = true → (∀ t ∈ ts, Labelled t) →
    ∃ s, mergeTreesAll m ts = .ok (.series s) ∧ Labelled (.series s) ∧
      ∀ l c, HoldsAt (.series s) l c ↔ LastHeld (m :: ts) l c := by
  intro ts
  induction ts with
  | nil =>
    intro m hm hs _
    cases m <;> simp [Tree.isSeries] at hs
    refine ⟨_, rfl, hm, fun l c => ⟨fun h => .here _ _ _ _ h (by simp), fun h => ?_⟩⟩
    cases h with
    | here _ _ _ _ h => exact h
    | later _ _ _ _ h => cases h
  | cons t ts ih =>
    intro m hm hs ht
    obtain ⟨s, e, hl, -, hh⟩ := C109_series_partial m t hm (ht t (by simp)) (.inl hs)
    obtain ⟨s', e', hl', hh'⟩ := ih (.series s) hl rfl (fun u hu => ht u (by simp [hu]))
    refine ⟨s', by simp only [mergeTreesAll, e, e'], hl', fun l c => ?_⟩
    rw [hh' l c]
    constructor
    · intro h
      cases h with
      | here _ _ _ _ h1 h2 =>
        rcases (hh l c).1 h1 with h1 | ⟨h1, h3⟩
        · exact .later _ _ _ _ (.here _ _ _ _ h1 h2)
        · refine .here _ _ _ _ h1 ?_
          intro u hu
          rcases List.mem_cons.1 hu with rfl | hu
          · exact h3
          · exact h2 u hu
      | later _ _ _ _ h => exact .later _ _ _ _ (.later _ _ _ _ h)
    · intro h
      cases h with
      | here _ _ _ _ h1 h2 =>
        exact .here _ _ _ _ ((hh l c).2 (.inr ⟨h1, h2 t (by simp)⟩)) (fun u hu => h2 u (by simp [hu]))
      | later _ _ _ _ h =>
        cases h with
        | here _ _ _ _ h1 h2 => exact .here _ _ _ _ ((hh l c).2 (.inl h1)) h2
        | later _ _ _ _ h => exact .later _ _ _ _ h

/-- C109: any number of submodels, objects or Series, of which the first is a Series, are merged into a Series that holds under each label the last
value that any of them holds there. -/
theorem C109_last_partial (t : Tree) (ts : List Tree) (ht : Labelled t) (hs : t.isSeries = true) (hts : ∀ u ∈ ts, Labelled u) :
    ∃ s, mergeTreesAll .null (t :: ts) = .ok (.series s) ∧
      ∀ l c, HoldsAt (.series s) l c ↔ LastHeld (t :: ts) l c := by
  obtain ⟨s, e, hl, -, hh⟩ := C109_series_partial .null t .nothing ht (.inr hs)
  obtain ⟨s', e', -, hh'⟩ := merge_last ts (.series s) hl rfl hts
  refine ⟨s', by simp only [mergeTreesAll, e]; exact e', fun l c => ?_⟩
  rw [hh' l c]
  have hst : ∀ l c, HoldsAt (.series s) l c ↔ HoldsAt t l c := by
    intro l c
    rw [hh l c]
    constructor
    · rintro (h | ⟨h, -⟩)
      · exact h
      · cases h
    · exact .inl
  constructor
  · intro h
    cases h with
    | here _ _ _ _ h1 h2 => exact .here _ _ _ _ ((hst l c).1 h1) h2
    | later _ _ _ _ h => exact .later _ _ _ _ h
  · intro h
    cases h with
    | here _ _ _ _ h1 h2 => exact .here _ _ _ _ ((hst l c).2 h1) h2
    | later _ _ _ _ h => exact .later _ _ _ _ h

private theorem dget_ofItems (kvs : List (Str × Doc)) (k : Str) : dget (Tree.ofItems kvs) k = (dget kvs k).map Tree.ofDoc := by
  induction kvs with
  | nil => rfl
  | cons p t ih =>
    obtain ⟨k', v⟩ := p
    simp only [Tree.ofItems, dget_cons, ih]
    split <;> rfl

private theorem dset_ofItems (kvs : List (Str × Doc)) (k : Str) (v : Doc) :
    dset (Tree.ofItems kvs) k (Tree.ofDoc v) = Tree.ofItems (dset kvs k v) := by
  induction kvs with
  | nil => rfl
  | cons p t ih =>
    obtain ⟨k', v'⟩ := p
    simp only [Tree.ofItems, dset, ih]
    split <;> rfl

private theorem cloneTrees_ofDocs {xs : List Doc} (ih : ∀ x ∈ xs, cloneTree (.ofDoc x) = (cloneDoc x).map Tree.ofDoc) :
    cloneTrees (Tree.ofDocs xs) = (cloneItems xs).map Tree.ofDocs := by
  induction xs with
  | nil => rfl
  | cons x xs ihx =>
    simp only [Tree.ofDocs, cloneTrees, cloneItems, ih x (by simp), ihx (fun y hy => ih y (by simp [hy]))]
    cases cloneDoc x <;> simp only [Except.map]
    cases cloneItems xs <;> rfl

private theorem cloneTree_ofDoc (x : Doc) : cloneTree (.ofDoc x) = (cloneDoc x).map Tree.ofDoc := by
  induction x using Doc.ind with
  | h5 xs ih =>
    simp only [Tree.ofDoc, cloneTree, cloneDoc, cloneTrees_ofDocs ih]
    cases cloneItems xs <;> rfl
  | _ => rfl

private theorem mergeTrees_ofItems : ∀ (bs as : List (Str × Doc)),
    (∀ p ∈ bs, ∀ a, mergeTree (.ofDoc a) (.ofDoc p.2) = (mergeDoc a p.2).map Tree.ofDoc) →
    mergeTrees (Tree.ofItems as) (Tree.ofItems bs) = (mergeItems as bs).map Tree.ofItems := by
  intro bs
  induction bs with
  | nil => intro as _; rfl
  | cons p t iht =>
    intro as ih
    obtain ⟨k, y⟩ := p
    simp only [Tree.ofItems, mergeTrees, mergeItems, dget_ofItems]
    cases hx : dget as k with
    | none =>
      simp only [Option.map_none]
      rw [dset_ofItems]
      exact iht _ (fun p hp => ih p (by simp [hp]))
    | some x =>
      simp only [Option.map_some]
      rw [ih (k, y) (by simp) x]
      cases mergeDoc x y with
      | error e => rfl
      | ok v =>
        simp only [Except.map]
        rw [dset_ofItems]
        exact iht _ (fun p hp => ih p (by simp [hp]))

private theorem strs_ofDoc (s : Str) : s.map (fun c => Tree.str [c]) = Tree.ofDocs (s.map (fun c => Doc.str [c])) := by
  induction s with
  | nil => rfl
  | cons c s ih => simp only [List.map_cons, Tree.ofDocs, Tree.ofDoc, ih]

private theorem mergeTree_ofDoc (b : Doc) : ∀ a, mergeTree (.ofDoc a) (.ofDoc b) = (mergeDoc a b).map Tree.ofDoc := by
  induction b using Doc.ind with
  | h0 => intro a; simp only [Tree.ofDoc, mergeTree, mergeDoc]; exact cloneTree_ofDoc a
  | h5 ys =>
    intro a
    have h := cloneTrees_ofDocs (xs := ys) (fun x _ => cloneTree_ofDoc x)
    cases a <;> simp only [Tree.ofDoc, mergeTree, mergeDoc, h] <;> first | rfl | (cases cloneItems ys <;> rfl)
  | h6 bs ih =>
    intro a
    cases a with
    | null =>
      have h := mergeTrees_ofItems bs [] ih
      simp only [Tree.ofItems] at h
      simp only [Tree.ofDoc, mergeTree, mergeDoc, Tree.isSeries, Bool.false_eq_true, if_false, Tree.dictOrEmpty, dictOrEmpty, h]
      cases mergeItems [] bs <;> rfl
    | dict as =>
      have h := mergeTrees_ofItems bs as ih
      simp only [Tree.ofDoc, mergeTree, mergeDoc, Tree.isSeries, Bool.false_eq_true, if_false, Tree.dictOrEmpty, dictOrEmpty, h]
      cases mergeItems as bs <;> rfl
    | _ => rfl
  | h4 s =>
    intro a
    cases a with
    | list xs => simp only [Tree.ofDoc, mergeTree, mergeDoc, Except.map, strs_ofDoc]
    | _ => rfl
  | _ => intro a; cases a <;> rfl

/-- C109: without Series, submodels are merged as C25 says. -/
theorem C109_without (a b : Doc) : mergeTree (.ofDoc a) (.ofDoc b) = (mergeDoc a b).map Tree.ofDoc := mergeTree_ofDoc b a

/-- C109 fails: objects in the cells of a Series are not merged, the later one replaces the earlier one. Merged from objects, both keys
are kept. -/
theorem C109_cells_refuted :
    mergeTree (.dict [("a".toList, .dict [("x".toList, .int 1)])]) (.series [(.name "a".toList, .dict [("y".toList, .int 2)])]) =
      .ok (.series [(.name "a".toList, .dict [("y".toList, .int 2)])]) ∧
    mergeTree (.dict [("a".toList, .dict [("x".toList, .int 1)])]) (.dict [("a".toList, .dict [("y".toList, .int 2)])]) =
      .ok (.dict [("a".toList, .dict [("x".toList, .int 1), ("y".toList, .int 2)])]) :=
  ⟨by simp [mergeTree, mergeSeries, combineFirst, Tree.toSeries, Tree.isNull, dkeys], by rfl⟩

/-- C109 fails: a list over a Series does not replace it, nor does it fail: its items are added under their positions. -/
theorem C109_list_refuted : mergeTree (.series [(.name "a".toList, .int 1)]) (.list [.int 7, .int 8]) =
    .ok (.series [(.pos 0, .int 7), (.pos 1, .int 8), (.name "a".toList, .int 1)]) := by rfl

/-- C109 fails: a scalar over a Series, or a Series over a scalar, is added under position 0. -/
theorem C109_scalar_refuted :
    mergeTree (.series [(.name "a".toList, .int 1)]) (.int 7) = .ok (.series [(.pos 0, .int 7), (.name "a".toList, .int 1)]) ∧
    mergeTree (.int 7) (.series [(.name "a".toList, .int 1)]) = .ok (.series [(.name "a".toList, .int 1), (.pos 0, .int 7)]) :=
  ⟨by rfl, by rfl⟩

/-- The submodels of the documentation, `pandalone/pandata.py:706-707`. -/
def docBase : Tree := .dict [("a".toList, .str "foo".toList), ("b".toList, .int 1)]
def docTop : Tree := .series [(.name "a".toList, .str "bar".toList), (.name "c".toList, .int 2)]

example : Labelled docBase ∧ Labelled docTop ∧ docTop.isSeries = true := ⟨.object _ (by decide), .series _ (by decide), rfl⟩
example : mergeTreesAll .null [docBase, docTop] =
    .ok (.series [(.name "a".toList, .str "bar".toList), (.name "c".toList, .int 2), (.name "b".toList, .int 1)]) := by rfl
example : mergeTree (.dict [("m".toList, docBase)]) (.dict [("m".toList, docTop)]) =
    .ok (.dict [("m".toList, .series [(.name "a".toList, .str "bar".toList), (.name "c".toList, .int 2), (.name "b".toList, .int 1)])]) := by rfl
example : along ["m".toList] (.dict [("m".toList, docBase)]) = some docBase ∧ along ["m".toList] (.dict [("m".toList, docTop)]) = some docTop ∧
    KeysOnce ["m".toList] (.dict [("m".toList, docTop)]) := ⟨rfl, rfl, by decide, fun _ _ => trivial⟩
example : mergeTreesAll .null [docTop, .null, .dict [("b".toList, .int 1)], .series [(.name "a".toList, .null), (.name "c".toList, .int 3)]] =
    .ok (.series [(.name "a".toList, .str "bar".toList), (.name "c".toList, .int 3), (.name "b".toList, .int 1)]) := by rfl

end Props
