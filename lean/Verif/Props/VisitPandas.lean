import Verif.Lemmas.VisitPandas
set_option linter.unusedSimpArgs false
/-
C148: Series, DataFrames and arrays are validated as what they stand for.
-/
namespace Props
open Py Model Spec Lemmas

private theorem mem_extras (props : List Str) (d : PDoc) (k : Str) : Label.name k ∈ d.extras props ↔ Label.name k ∈ d.keys ∧ k ∉ props := by
  simp [PDoc.extras, List.mem_eraseDups]

private theorem extras_name {props : List Str} {d : PDoc} (hp : ∀ n, Label.pos n ∉ d.keys) {l : Label} (h : l ∈ d.extras props) :
    ∃ k, l = .name k := by
  cases l with
  | name k => exact ⟨k, rfl⟩
  | pos n =>
    simp only [PDoc.extras, List.mem_eraseDups, List.mem_filter] at h
    exact absurd h.1 (hp n)

/-- C148 (partial: where an enumeration lists booleans, 0 or 1, and where there is one NaN and the schema takes nulls, see below). A
document that holds Series, DataFrames and arrays passes a validation exactly if what it stands for is as the schema asks, where a Series
is the object with its labels, or the array of its values, and a DataFrame is the object with its columns. -/
theorem C148_verdict_partial (f : VFlags) (s : VSchema) (hd : Throughout DictSchema s) (he : Throughout NoBits s) (d : PDoc) (e : Doc)
    (h : Stands f s d e) : pvisit f s d = some [] ↔ Valid f s e := by
  induction s using VSchema.ind generalizing d e with
  | h s ih =>
  have key : ∀ kw ∈ s.kws, (pvisitKw f (propNames s.kws) kw d = some [] ↔ Holds f s.kws kw e) := by
    intro kw hkw
    have hdecl := fun k => declared_iff (once hd.here) k
    cases kw with
    | type ts =>
      simp only [pvisitKw, Option.some.injEq, ite_eq_left_iff, List.cons_ne_nil, imp_false, Classical.not_not, List.any_eq_true]
      constructor
      · rintro ⟨t, ht, hh⟩; exact .type _ ts t _ ht ((type_same f h hkw ht).1 hh)
      · intro hh; cases hh with | type _ _ t _ ht hh => exact ⟨t, ht, (type_same f h hkw ht).2 hh⟩
    | enum vs =>
      have := enum_same h (he.here vs hkw)
      have hq : pvisitKw f (propNames s.kws) (.enum vs) d = some [] ↔ d.ruleEnum vs = some true := by
        simp only [pvisitKw]
        cases d.ruleEnum vs with
        | none => simp
        | some b => cases b <;> simp
      rw [hq, this]
      constructor
      · rintro ⟨v, hv, hh⟩; exact .enum _ vs v _ hv hh
      · intro hh; cases hh with | enum _ _ v _ hv hh => exact ⟨v, hv, hh⟩
    | items t =>
      have hpart : PartOf s t := .items s t hkw
      rcases arrView h with ⟨ys, rfl, v⟩ | ⟨hn, hh⟩
      · simp only [pvisitKw, v.array, if_true, itemsInTurn_nil]
        constructor
        · intro hall
          refine .items _ t _ ?_
          intro xs x hx hm
          cases hx
          obtain ⟨i, hi, rfl⟩ := List.getElem_of_mem hm
          have hi' : i < d.elems.length := by rw [v.size]; exact hi
          exact (ih t hpart (hd.inside hpart) (he.inside hpart) _ _ (v.at_ t i _ _ hkw (List.getElem?_eq_getElem hi') (List.getElem?_eq_getElem hi))).1
            (hall _ (List.getElem_mem hi'))
        · intro hall x hm
          cases hall with
          | items _ _ _ hall =>
            obtain ⟨i, hi, rfl⟩ := List.getElem_of_mem hm
            have hi' : i < ys.length := by rw [← v.size]; exact hi
            exact (ih t hpart (hd.inside hpart) (he.inside hpart) _ _ (v.at_ t i _ _ hkw (List.getElem?_eq_getElem hi) (List.getElem?_eq_getElem hi'))).2
              (hall ys _ rfl (List.getElem_mem hi'))
      · have hf : d.isArray = false := by
          rcases hh with hh | hh
          · exact hh
          · exact absurd hkw (hh.1 t)
        simp only [pvisitKw, hf, Bool.false_eq_true, if_false, true_iff]
        exact .items _ t _ (fun xs x hx _ => absurd hx (hn xs))
    | properties ps =>
      rcases objView h with ⟨kvs, rfl, v⟩ | ⟨hn, hh⟩
      · simp only [pvisitKw, v.object, if_true, pvisitOwn_nil]
        constructor
        · intro hall
          refine .properties _ ps _ ?_
          intro kvs' k t y hk hm hy
          cases hk
          have hpart : PartOf s t := .property s ps k t hkw hm
          have hs : (d.get (.name k)).isSome := by rw [v.get, hy]; rfl
          obtain ⟨x, hx⟩ := Option.isSome_iff_exists.1 hs
          exact (ih t hpart (hd.inside hpart) (he.inside hpart) _ _ (v.under t k x y (.own ps k t hkw hm) hx hy)).1 (hall (k, t) hm x hx)
        · intro hall p hm x hx
          cases hall with
          | properties _ _ _ hall =>
            have hpart : PartOf s p.2 := .property s ps p.1 p.2 hkw hm
            have hs : (dget kvs p.1).isSome := by rw [← v.get, hx]; rfl
            obtain ⟨y, hy⟩ := Option.isSome_iff_exists.1 hs
            exact (ih p.2 hpart (hd.inside hpart) (he.inside hpart) _ _ (v.under p.2 p.1 x y (.own ps p.1 p.2 hkw hm) hx hy)).2
              (hall kvs p.1 p.2 y rfl hm hy)
      · have hf : d.isObject = false := by
          rcases hh with hh | hh
          · exact hh
          · exact absurd hkw (hh.1 ps)
        simp only [pvisitKw, hf, Bool.false_eq_true, if_false, true_iff]
        exact .properties _ ps _ (fun kvs k t y hk => absurd hk (hn kvs))
    | required ns =>
      rcases objView h with ⟨kvs, rfl, v⟩ | ⟨hn, hh⟩
      · simp only [pvisitKw, v.object, if_true, Option.some.injEq, List.map_eq_nil_iff, List.filter_eq_nil_iff]
        constructor
        · intro hall
          refine .required _ ns _ ?_
          intro kvs' n hk hm
          cases hk
          have := hall n hm
          rw [← v.get]
          cases hg : d.get (.name n) with
          | none => rw [hg] at this; simp at this
          | some _ => rfl
        · intro hall n hm
          cases hall with
          | required _ _ _ hall =>
            have := hall kvs n rfl hm
            rw [← v.get] at this
            cases hg : d.get (.name n) with
            | none => rw [hg] at this; simp at this
            | some _ => simp
      · have hf : d.isObject = false := by
          rcases hh with hh | hh
          · exact hh
          · exact absurd hkw (hh.2.1 ns)
        simp only [pvisitKw, hf, Bool.false_eq_true, if_false, true_iff]
        exact .required _ ns _ (fun kvs k hk => absurd hk (hn kvs))
    | additional b =>
      cases b with
      | true =>
        simp only [pvisitKw, Bool.not_true, Bool.and_false, Bool.false_and, Bool.false_eq_true, if_false, true_iff]
        exact .allowed _ _
      | false =>
        rcases objView h with ⟨kvs, rfl, v⟩ | ⟨hn, hh⟩
        · have hq : pvisitKw f (propNames s.kws) (.additional false) d = some [] ↔ d.extras (propNames s.kws) = [] := by
            simp only [pvisitKw, v.object]
            cases d.extras (propNames s.kws) <;> simp
          rw [hq]
          constructor
          · intro hall
            refine .additional _ _ ?_
            intro kvs' k hk hs
            cases hk
            rw [hdecl k]
            refine Classical.byContradiction fun hnk => ?_
            have := (mem_extras (propNames s.kws) d k).2 ⟨(v.keys k).2 hs, hnk⟩
            rw [hall] at this; simp at this
          · intro hall
            cases hall with
            | additional _ _ hall =>
              rw [List.eq_nil_iff_forall_not_mem]
              intro l hl
              obtain ⟨k, rfl⟩ := extras_name v.noPos hl
              obtain ⟨h1, h2⟩ := (mem_extras _ _ _).1 hl
              exact h2 ((hdecl k).1 (hall kvs k rfl ((v.keys k).1 h1)))
        · have hf : d.isObject = false := by
            rcases hh with hh | hh
            · exact hh
            · exact absurd hkw (hh.2.2.1 _)
          simp only [pvisitKw, hf, Bool.false_and, Bool.false_eq_true, if_false, true_iff]
          exact .additional _ _ (fun kvs k hk => absurd hk (hn kvs))
    | additionalS t =>
      have hpart : PartOf s t := .additional s t hkw
      rcases objView h with ⟨kvs, rfl, v⟩ | ⟨hn, hh⟩
      · simp only [pvisitKw, v.object, if_true, inTurn_nil]
        constructor
        · intro hall
          refine .additionalS _ t _ ?_
          intro kvs' k y hk hnd hy
          cases hk
          have hm := (mem_extras (propNames s.kws) d k).2 ⟨(v.keys k).2 (by rw [hy]; rfl), fun hc => hnd ((hdecl k).2 hc)⟩
          have := hall _ hm
          have hs : (d.get (.name k)).isSome := by rw [v.get, hy]; rfl
          obtain ⟨x, hx⟩ := Option.isSome_iff_exists.1 hs
          rw [hx] at this
          exact (ih t hpart (hd.inside hpart) (he.inside hpart) _ _ (v.under t k x y (.extra k t hkw hnd) hx hy)).1 (map_nil.1 this)
        · intro hall l hl
          cases hall with
          | additionalS _ _ _ hall =>
            obtain ⟨k, rfl⟩ := extras_name v.noPos hl
            obtain ⟨h1, h2⟩ := (mem_extras _ _ _).1 hl
            cases hx : d.get (.name k) with
            | none => rfl
            | some x =>
              have hs : (dget kvs k).isSome := by rw [← v.get, hx]; rfl
              obtain ⟨y, hy⟩ := Option.isSome_iff_exists.1 hs
              have hnd : ¬ Declared s.kws k := fun hc => h2 ((hdecl k).1 hc)
              exact map_nil.2 ((ih t hpart (hd.inside hpart) (he.inside hpart) _ _ (v.under t k x y (.extra k t hkw hnd) hx hy)).2
                (hall kvs k y rfl hnd hy))
      · have hf : d.isObject = false := by
          rcases hh with hh | hh
          · exact hh
          · exact absurd hkw (hh.2.2.2.1 t)
        simp only [pvisitKw, hf, Bool.false_eq_true, if_false, true_iff]
        exact .additionalS _ t _ (fun kvs k y hk => absurd hk (hn kvs))
    | propertyNames t =>
      have hpart : PartOf s t := .names s t hkw
      have hih : ∀ k, pvisit f t (Label.asDoc (.name k)) = some [] ↔ Valid f t (.str k) := fun k =>
        ih t hpart (hd.inside hpart) (he.inside hpart) _ _ (.scalar t false (.str k))
      rcases objView h with ⟨kvs, rfl, v⟩ | ⟨hn, hh⟩
      · simp only [pvisitKw, v.object, if_true, inTurn_nil, map_nil]
        constructor
        · intro hall
          refine .propertyNames _ t _ ?_
          intro kvs' k hk hs
          cases hk
          exact (hih k).1 (hall _ ((v.keys k).2 hs))
        · intro hall l hl
          cases hall with
          | propertyNames _ _ _ hall =>
            cases l with
            | pos n => exact absurd hl (v.noPos n)
            | name k => exact (hih k).2 (hall kvs k rfl ((v.keys k).1 hl))
      · have hf : d.isObject = false := by
          rcases hh with hh | hh
          · exact hh
          · exact absurd hkw (hh.2.2.2.2.1 t)
        simp only [pvisitKw, hf, Bool.false_eq_true, if_false, true_iff]
        exact .propertyNames _ t _ (fun kvs k hk => absurd hk (hn kvs))
  rw [pvisit_kws]
  constructor
  · intro hall; exact .mk _ _ (fun kw hm => (key kw hm).1 (hall kw hm))
  · intro hv kw hm
    cases hv with
    | mk _ _ hv => exact (key kw hm).2 (hv kw hm)

/-- C148 (partial, as before). A Series whose labels are different texts is validated as the object with its labels as keys. -/
theorem C148_series_partial (f : VFlags) (s : VSchema) (hd : Throughout DictSchema s) (he : Throughout NoBits s) (ha : NothingOnArrays s)
    (numeric : Bool) (kvs : List (Str × Scal)) (hn : ¬ (NullAllowed s ∧ LoneNaN f numeric (kvs.map (·.2)))) (hk : (dkeys kvs).Nodup) :
    pvisit f s (.series numeric (kvs.map (fun e => (.name e.1, e.2)))) = some [] ↔ Valid f s (.dict (kvs.map (fun e => (e.1, e.2.doc)))) :=
  C148_verdict_partial f s hd he _ _ (.seriesObject s numeric _ kvs ha (fun h => hn ⟨h.1, by simpa [List.map_map, Function.comp_def] using h.2⟩) ⟨rfl, hk⟩)

/-- C148. The labels of a Series that counts its values are numbers and no names: if it passes, they are valid as numbers by what is asked of
names, no property is required, and there is no value if no other properties are allowed. -/
theorem C148_positions (f : VFlags) (s : VSchema) (hd : Throughout DictSchema s) (he : Throughout NoBits s) (numeric : Bool)
    (es : List (Label × Scal)) (hp : ∀ e ∈ es, ∃ n, e.1 = .pos n) (h : pvisit f s (.series numeric es) = some []) :
    (∀ t, .propertyNames t ∈ s.kws → ∀ (n : Nat) x, (.pos n, x) ∈ es → Valid f t (.int n)) ∧ (∀ ns, .required ns ∈ s.kws → ns = []) ∧
      (.additional false ∈ s.kws → es = []) := by
  rw [pvisit_kws] at h
  refine ⟨?_, ?_, ?_⟩
  · intro t ht n x hx
    have hpart : PartOf s t := .names s t ht
    have := h _ ht
    simp only [pvisitKw, PDoc.isObject, if_true, inTurn_nil, map_nil] at this
    exact (C148_verdict_partial f t (hd.inside hpart) (he.inside hpart) _ _ (.scalar t false (.int n))).1
      (this (.pos n) (List.mem_map.2 ⟨_, hx, rfl⟩))
  · intro ns hns
    have := h _ hns
    simp only [pvisitKw, PDoc.isObject, if_true, Option.some.injEq, List.map_eq_nil_iff] at this
    cases ns with
    | nil => rfl
    | cons a l =>
      exfalso
      have hg : (PDoc.series numeric es).get (.name a) = none := by
        have : es.filter (fun e => e.1 == Label.name a) = [] := by
          rw [List.filter_eq_nil_iff]
          intro e hm
          obtain ⟨n, hn⟩ := hp e hm
          rw [hn, beq_iff_eq]
          exact fun h => nomatch h
        simp only [PDoc.get, this]
      simp [List.filter_cons, hg] at this
  · intro ha
    have := h _ ha
    simp only [pvisitKw, PDoc.isObject, Bool.not_false, Bool.and_true, Bool.true_and, Option.some.injEq] at this
    split at this
    · cases this
    · rename_i hx
      cases es with
      | nil => rfl
      | cons e l =>
        exfalso
        apply hx
        obtain ⟨n, hn⟩ := hp e (by simp)
        have : (.pos n : Label) ∈ (PDoc.series numeric (e :: l)).extras (propNames s.kws) := by
          unfold PDoc.extras
          rw [List.mem_eraseDups]
          exact List.mem_filter.2 ⟨List.mem_map.2 ⟨e, by simp, hn⟩, rfl⟩
        cases hc : (PDoc.series numeric (e :: l)).extras (propNames s.kws) with
        | nil => rw [hc] at this; cases this
        | cons a b => rfl

/-- C148 (partial, as before). A DataFrame whose columns have different texts as names is validated as the object with these names as keys
and the arrays of the values of the columns under them, whatever its index. -/
theorem C148_frame_partial (f : VFlags) (s : VSchema) (hd : Throughout DictSchema s) (he : Throughout NoBits s) (hn : ¬ NullAllowed s)
    (ht : ∀ k t, ForProperty s k t → NothingOnObjects t ∧ ¬ NullAllowed t) (index : List Label) (kvs : List (Str × Bool × List Scal))
    (hk : (dkeys kvs).Nodup) (hl : ∀ k n xs, (k, n, xs) ∈ kvs → xs.length = index.length) :
    pvisit f s (.frame index (kvs.map (fun e => (.name e.1, e.2)))) = some [] ↔
      Valid f s (.dict (kvs.map (fun e => (e.1, .list (e.2.2.map Scal.doc))))) := by
  have hg : ∀ k, dget (kvs.map (fun e => (e.1, Doc.list (e.2.2.map Scal.doc)))) k = (dget kvs k).map (fun c => .list (c.2.map Scal.doc)) :=
    fun k => dget_map_val kvs (fun _ c => Doc.list (c.2.map Scal.doc)) k
  refine C148_verdict_partial f s hd he _ _ (.frame s index _ kvs _ (fun h => hn h.1) ⟨rfl, hk⟩ ?_ ?_)
  · intro k; rw [hg]; simp
  · intro t k c y hp hc hy
    rw [hg, hc] at hy
    simp only [Option.map_some, Option.some.injEq] at hy
    subst hy
    have hlen := hl k c.1 c.2 (mem_of_dget hc)
    have e : c.2.map Scal.doc = (index.zip c.2).map (fun e => e.2.doc) := by
      have : (index.zip c.2).map (fun e => e.2) = c.2 := by
        rw [← List.unzip_snd, List.unzip_zip_right (by omega)]
      conv => lhs; rw [← this]
      simp
    rw [e]
    exact .seriesArray t c.1 _ (ht k t hp).1 (fun h => (ht k t hp).2 h.1)

private def noFlags : VFlags := { autoDefault := some false, autoDefaultNulls := none, autoRemoveNulls := none, nan := fun t => t == 0, num := fun _ => true }
private def bare (kws : List VKw) : VSchema := .mk kws none none none none

/-- The schema of the documentation: an object that needs `foo`, a number, and has nothing else. -/
private def fooSchema : VSchema := bare [.type [.object], .properties [("foo".toList, bare [.type [.number]])], .required ["foo".toList], .additional false]

example : Throughout DictSchema fooSchema ∧ Throughout NoBits fooSchema ∧ NothingOnArrays fooSchema ∧ ¬ NullAllowed fooSchema := by
  have leaf : ∀ P : VSchema → Prop, P (bare [.type [.number]]) → Throughout P (bare [.type [.number]]) := by
    intro P h
    refine .mk _ h (fun t ht => ?_)
    cases ht <;> simp_all [bare, VSchema.kws]
  have sub : ∀ P : VSchema → Prop, P fooSchema → P (bare [.type [.number]]) → Throughout P fooSchema := by
    intro P h1 h2
    refine .mk _ h1 (fun t ht => ?_)
    cases ht with
    | property ps k t hp hm =>
      simp only [fooSchema, bare, VSchema.kws, List.mem_cons, VKw.properties.injEq, reduceCtorEq, List.not_mem_nil, or_false, false_or] at hp
      subst hp
      simp only [List.mem_cons, Prod.mk.injEq, List.not_mem_nil, or_false] at hm
      rw [hm.2]
      exact leaf P h2
    | additional t h => simp [fooSchema, bare, VSchema.kws] at h
    | names t h => simp [fooSchema, bare, VSchema.kws] at h
    | items t h => simp [fooSchema, bare, VSchema.kws] at h
  refine ⟨sub _ ⟨?_, ?_, ?_⟩ ⟨?_, ?_, ?_⟩, sub _ ?_ ?_, ⟨?_, ?_⟩, ?_⟩
  · simp [fooSchema, bare, VSchema.kws]
  · simp [fooSchema, bare, VSchema.kws]
  · intro ps hp
    simp only [fooSchema, bare, VSchema.kws, List.mem_cons, VKw.properties.injEq, reduceCtorEq, List.not_mem_nil, or_false, false_or] at hp
    subst hp
    simp [dkeys]
  · simp [bare, VSchema.kws]
  · simp [bare, VSchema.kws]
  · intro ps hp; simp [bare, VSchema.kws] at hp
  · intro vs hv; simp [fooSchema, bare, VSchema.kws] at hv
  · intro vs hv; simp [bare, VSchema.kws] at hv
  · intro t h; simp [fooSchema, bare, VSchema.kws] at h
  · intro ts h; simp [fooSchema, bare, VSchema.kws] at h; subst h; simp
  · rintro ⟨ts, h, hn⟩; simp [fooSchema, bare, VSchema.kws] at h; subst h; simp at hn

private def verdict (r : Option (List PvErr)) : Nat :=
  match r with
  | none => 0
  | some [] => 1
  | some [.missing _] => 2
  | some [.unexpected _] => 3
  | some [.wrongType] => 4
  | some _ => 5

/-- The examples of the documentation. -/
example :
    verdict (pvisit noFlags fooSchema (.series true [(.name "foo".toList, .int 1)])) = 1 ∧
    verdict (pvisit noFlags fooSchema (.series true [(.name "foo".toList, .int 1), (.name "bar".toList, .int 2)])) = 3 ∧
    verdict (pvisit noFlags fooSchema (.series true [])) = 2 ∧
    verdict (pvisit noFlags (bare [.type [.object]]) (.list [.scal false (.int 1), .scal false (.int 2)])) = 4 := by decide +kernel

/-- The labels of Series that count, as names: numbers, of Python. -/
example : verdict (pvisit noFlags (bare [.propertyNames (bare [.type [.integer]])]) (.series true [(.pos 0, .int 7), (.pos 1, .int 8)])) = 1 ∧
    verdict (pvisit noFlags (bare [.propertyNames (bare [.enum [.bool false]])]) (.series true [(.pos 0, .int 7)])) = 5 ∧
    verdict (pvisit noFlags (bare [.propertyNames (bare [.enum [.int 0]])]) (.series true [(.pos 0, .int 7)])) = 1 ∧
    verdict (pvisit noFlags (bare [.required [], .additional true]) (.series true [(.pos 0, .int 7)])) = 1 := by decide +kernel

private def colSchema : VSchema := bare [.properties [("c".toList, bare [.type [.object]])]]
private def numbers : PDoc := .frame [.pos 0, .pos 1] [(.name "c".toList, true, [.int 3, .int 4])]

/-- C148 is false of columns and objects: the documentation says that the columns are arrays, but a schema for objects takes them too. -/
theorem C148_columns_refuted : pvisit noFlags colSchema numbers = some [] ∧
    ¬ Valid noFlags colSchema (.dict [("c".toList, .list [.int 3, .int 4])]) := by
  refine ⟨rfl, ?_⟩
  rintro ⟨_, _, h⟩
  have := h (.properties [("c".toList, bare [.type [.object]])]) (by simp [colSchema, bare, VSchema.kws])
  cases this with
  | properties _ _ _ this =>
    obtain ⟨_, _, h2⟩ := this _ _ _ _ rfl (List.mem_singleton.2 rfl) rfl
    have := h2 (.type [.object]) (by simp [bare, VSchema.kws])
    cases this with
    | type _ _ t _ ht hh =>
      simp at ht; subst ht; cases hh

private def offSchema : VSchema := bare [.properties [("a".toList, bare [.enum [.bool false]])]]

/-- C148 is false of enumerations: a Series that holds a 0 passes where only `false` is listed, and the dictionary with the 0 does not. -/
theorem C148_enum_refuted : pvisit noFlags offSchema (.series true [(.name "a".toList, .int 0)]) = some [] ∧
    (visit noFlags offSchema (.dict [("a".toList, .int 0)])).2 ≠ [] ∧ ¬ Valid noFlags offSchema (.dict [("a".toList, .int 0)]) := by
  refine ⟨rfl, by rw [show (visit noFlags offSchema (.dict [("a".toList, .int 0)])).2 = [.inside "a".toList .notListed] from rfl]; simp, ?_⟩
  rintro ⟨_, _, h⟩
  have := h (.properties [("a".toList, bare [.enum [.bool false]])]) (by simp [offSchema, bare, VSchema.kws])
  cases this with
  | properties _ _ _ this =>
    obtain ⟨_, _, h2⟩ := this _ _ _ _ rfl (List.mem_singleton.2 rfl) rfl
    have := h2 (.enum [.bool false]) (by simp [bare, VSchema.kws])
    cases this with
    | enum _ _ v _ ht hh =>
      simp at ht; subst ht; cases hh

/-- C148 is false of single NaNs: a column of one row that is empty is null, besides being an array. -/
theorem C148_nan_refuted : pvisit noFlags (bare [.type [.null]]) (.series true [(.pos 0, .atom 0)]) = some [] ∧
    ¬ Valid noFlags (bare [.type [.null]]) (.list [.atom 0]) := by
  refine ⟨rfl, ?_⟩
  rintro ⟨_, _, h⟩
  have := h (.type [.null]) (by simp [bare, VSchema.kws])
  cases this with
  | type _ _ t _ ht hh =>
    simp at ht; subst ht
    rcases hh with _ | _ | _ | _ | _ | _ | _ | ⟨_, hh⟩
    rcases hh with hh | ⟨_, hh, _⟩ <;> cases hh

/-- C148 is false of enumerations for whole Series: the validation raises instead of reporting an error. -/
theorem C148_raises_refuted : pvisit noFlags (bare [.enum [.str "x".toList]]) (.series true [(.pos 0, .int 1), (.pos 1, .int 2)]) = none := rfl

/-- The hypotheses of `C148_verdict_partial`, in a document with a DataFrame and a Series inside. -/
example : Stands noFlags (bare [.properties [("t".toList, bare [.properties [("c".toList, bare [.type [.array], .items (bare [.type [.integer]])])]])]])
    (.dict [("t".toList, numbers), ("u".toList, .scal false .null)])
    (.dict [("t".toList, .dict [("c".toList, .list [.int 3, .int 4])]), ("u".toList, .null)]) := by
  refine .dict _ _ _ ?_ ?_
  · intro k; simp only [dget]; split <;> try rfl
    split <;> rfl
  · intro t k x y hp hx hy
    cases hp with
    | extra _ _ h _ => simp [bare, VSchema.kws] at h
    | own ps _ _ h hm =>
      simp only [bare, VSchema.kws, List.mem_singleton, VKw.properties.injEq] at h
      subst h
      simp only [List.mem_singleton, Prod.mk.injEq] at hm
      obtain ⟨rfl, rfl⟩ := hm
      simp only [dget, if_true, Option.some.injEq] at hx hy
      subst hx; subst hy
      refine .frame _ _ _ [("c".toList, true, [.int 3, .int 4])] _ ?_ ⟨rfl, by simp [dkeys]⟩ ?_ ?_
      · rintro ⟨⟨ts, h, -⟩, -⟩; simp [VSchema.kws] at h
      · intro k; simp only [dget]; split <;> rfl
      · intro t k c y hp hx hy
        cases hp with
        | extra _ _ h _ => simp [VSchema.kws] at h
        | own ps _ _ h hm =>
          simp only [VSchema.kws, List.mem_singleton, VKw.properties.injEq] at h
          subst h
          simp only [List.mem_singleton, Prod.mk.injEq] at hm
          obtain ⟨rfl, rfl⟩ := hm
          simp only [dget, if_true, Option.some.injEq] at hx hy
          subst hx; subst hy
          refine .seriesArray _ true [(.pos 0, .int 3), (.pos 1, .int 4)] ?_ (by rintro ⟨-, -, _, -, h⟩; cases h)
          refine ⟨?_, ?_, ?_, ?_, ?_, ?_⟩ <;> simp [VSchema.kws]

end Props
