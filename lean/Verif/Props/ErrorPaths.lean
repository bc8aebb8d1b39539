import Verif.Spec.ErrorPaths
import Verif.Props.Visitor
set_option linter.unusedSimpArgs false
/-
C139: errors of a validation say where and what is wrong.
-/
namespace Props
open Py Model Spec

/-! ### The errors of the loops -/

theorem own_mem (f : VFlags) (ps : List (Str × VSchema)) (e : VErr) : ∀ kvs, (dkeys ps).Nodup →
    (e ∈ (visitOwn f ps kvs).2 ↔ ∃ k t v e', (k, t) ∈ ps ∧ dget kvs k = some v ∧ e' ∈ (visit f t v).2 ∧ e = .inside k e') := by
  induction ps with
  | nil => intro kvs _; simp [visitOwn]
  | cons a t ih =>
    obtain ⟨p, s⟩ := a
    intro kvs hnd
    simp only [dkeys, List.map_cons, List.nodup_cons] at hnd
    have hne : ∀ {k u}, (k, u) ∈ t → k ≠ p := by
      rintro k u hm rfl; exact hnd.1 (List.mem_map.2 ⟨_, hm, rfl⟩)
    rw [visitOwn]
    cases hv : dget kvs p with
    | none =>
      simp only
      rw [ih _ hnd.2]
      constructor
      · rintro ⟨k, u, v, e', hm, h⟩; exact ⟨k, u, v, e', List.mem_cons_of_mem _ hm, h⟩
      · rintro ⟨k, u, v, e', hm, h⟩
        rcases List.mem_cons.1 hm with eq | hm
        · cases eq; rw [hv] at h; cases h.1
        · exact ⟨k, u, v, e', hm, h⟩
    | some w =>
      simp only [List.mem_append]
      rw [ih _ hnd.2]
      constructor
      · rintro (h | ⟨k, u, v, e', hm, hg, h⟩)
        · obtain ⟨e', he, rfl⟩ := List.mem_map.1 h
          exact ⟨p, s, w, e', by simp, hv, he, rfl⟩
        · rw [dget_dset_ne _ _ (hne hm)] at hg
          exact ⟨k, u, v, e', List.mem_cons_of_mem _ hm, hg, h⟩
      · rintro ⟨k, u, v, e', hm, hg, h⟩
        rcases List.mem_cons.1 hm with eq | hm
        · cases eq; rw [hv] at hg; cases hg
          exact .inl (List.mem_map.2 ⟨e', h.1, h.2.symm⟩)
        · refine .inr ⟨k, u, v, e', hm, ?_, h⟩
          rw [dget_dset_ne _ _ (hne hm)]; exact hg

theorem keys_mem (w : Doc → Doc × List VErr) (ks : List Str) (e : VErr) : ∀ kvs, ks.Nodup →
    (e ∈ (visitKeys w ks kvs).2 ↔ ∃ k v e', k ∈ ks ∧ dget kvs k = some v ∧ e' ∈ (w v).2 ∧ e = .inside k e') := by
  induction ks with
  | nil => intro kvs _; simp [visitKeys]
  | cons p t ih =>
    intro kvs hnd
    simp only [List.nodup_cons] at hnd
    have hne : ∀ {k}, k ∈ t → k ≠ p := by rintro k hm rfl; exact hnd.1 hm
    rw [visitKeys]
    cases hv : dget kvs p with
    | none =>
      simp only
      rw [ih _ hnd.2]
      constructor
      · rintro ⟨k, v, e', hm, h⟩; exact ⟨k, v, e', List.mem_cons_of_mem _ hm, h⟩
      · rintro ⟨k, v, e', hm, h⟩
        rcases List.mem_cons.1 hm with eq | hm
        · cases eq; rw [hv] at h; cases h.1
        · exact ⟨k, v, e', hm, h⟩
    | some x =>
      simp only [List.mem_append]
      rw [ih _ hnd.2]
      constructor
      · rintro (h | ⟨k, v, e', hm, hg, h⟩)
        · obtain ⟨e', he, rfl⟩ := List.mem_map.1 h
          exact ⟨p, x, e', by simp, hv, he, rfl⟩
        · rw [dget_dset_ne _ _ (hne hm)] at hg
          exact ⟨k, v, e', List.mem_cons_of_mem _ hm, hg, h⟩
      · rintro ⟨k, v, e', hm, hg, h⟩
        rcases List.mem_cons.1 hm with eq | hm
        · cases eq; rw [hv] at hg; cases hg
          exact .inl (List.mem_map.2 ⟨e', h.1, h.2.symm⟩)
        · refine .inr ⟨k, v, e', hm, ?_, h⟩
          rw [dget_dset_ne _ _ (hne hm)]; exact hg

theorem items_mem (w : Doc → Doc × List VErr) (xs : List Doc) (e : VErr) : ∀ i,
    (e ∈ (visitItems w i xs).2 ↔ ∃ (j : Nat) (x : Doc) (e' : VErr), xs[j]? = some x ∧ e' ∈ (w x).2 ∧ e = .item (i + j) e') := by
  induction xs with
  | nil => intro i; simp [visitItems]
  | cons x xs ih =>
    intro i
    simp only [visitItems, List.mem_append]
    rw [ih]
    constructor
    · rintro (h | ⟨j, y, e', hj, he, rfl⟩)
      · obtain ⟨e', he, rfl⟩ := List.mem_map.1 h
        exact ⟨0, x, e', rfl, he, rfl⟩
      · exact ⟨j + 1, y, e', by simpa using hj, he, by rw [Nat.add_assoc, Nat.add_comm 1 j]⟩
    · rintro ⟨j, y, e', hj, he, rfl⟩
      cases j with
      | zero =>
        simp at hj; subst hj
        exact .inl (List.mem_map.2 ⟨e', he, rfl⟩)
      | succ j => exact .inr ⟨j, y, e', by simpa using hj, he, by rw [Nat.add_assoc, Nat.add_comm 1 j]⟩

/-! ### One keyword -/

theorem same_refl (e : VErr) : SameError e e := by
  induction e with
  | wrongType => exact .wrongType
  | missing k => exact .missing k
  | unexpected ks => exact .unexpected _ _ (List.Perm.refl _)
  | notListed => exact .notListed
  | inside k e ih => exact .inside _ _ _ ih
  | item k e ih => exact .item _ _ _ ih
  | name k e ih => exact .name _ _ _ ih

private theorem perm_of_same {ks ks' : List Str} (h : ks.Nodup) (h' : ks'.Nodup) (hm : ∀ k, k ∈ ks ↔ k ∈ ks') : ks.Perm ks' :=
  (List.perm_ext_iff_of_nodup h h').2 hm

/-- What a keyword reports is what is wrong in the end. -/
private theorem kw_errors (f : VFlags) (s : VSchema) (hd : DictSchema s) (hc : ClearEnums s)
    (ih : ∀ t, PartOf s t → ∀ d e, (∃ e' ∈ (visit f t d).2, SameError e' e) ↔ Breach f t (visit f t d).1 e)
    (kw : VKw) (t : List VKw) (hk : kw ∈ s.kws) (ht : ∀ k ∈ t, k ∈ s.kws) (ho : Once (kw :: t))
    (hset : ∀ b ∈ t, ¬ Spoils kw b) (d : Doc) (e : VErr) :
    (∃ e' ∈ (visitKw f (propNames s.kws) kw d).2, SameError e' e) ↔
      BreachOf f s.kws kw (visitKws f (propNames s.kws) t (visitKw f (propNames s.kws) kw d).1).1 e := by
  have hpt : ∀ ps, .properties ps ∈ t → dkeys ps = propNames s.kws ∧ (dkeys ps).Nodup :=
    fun ps hp => names_ok hd ps (ht _ hp)
  have hon := once hd
  cases kw with
  | type ts =>
    simp only [visitKw]
    constructor
    · rintro ⟨e', he, hs⟩
      split at he
      · cases he
      · next h' =>
        simp only [List.mem_singleton] at he; subst he; cases hs
        refine .type _ _ _ ?_
        intro x hx hx'
        rw [← isType_iff, after_type f _ t ho.tail hpt] at hx'
        exact h' (List.any_eq_true.2 ⟨x, hx, hx'⟩)
    · intro h
      cases h with
      | type _ _ _ h =>
        rw [if_neg]
        · exact ⟨.wrongType, by simp, .wrongType⟩
        · intro h'
          obtain ⟨x, hx, hx'⟩ := List.any_eq_true.1 h'
          refine h x hx ((isType_iff ..).1 ?_)
          rw [after_type f _ t ho.tail hpt]; exact hx'
  | properties ps =>
    obtain ⟨e1, e2⟩ := names_ok hd ps hk
    cases d with
    | dict kvs =>
      simp only [visitKw]
      obtain ⟨kvs', h1, h2⟩ := kws_dict f (propNames s.kws) t ho.tail hpt (visitOwn f ps (fillProps f ps kvs)).1
      rw [h1]
      have hget : ∀ k u, (k, u) ∈ ps → dget kvs' k = (dget (fillProps f ps kvs) k).map (fun v => (visit f u v).1) := by
        intro k u hm
        rw [h2, entryAfter, if_pos (by rw [← e1]; exact List.mem_map.2 ⟨_, hm, rfl⟩), propsOf_nil ho.props,
          visitOwn_get f ps _ e2, dget_of_mem e2 hm]
        rfl
      constructor
      · rintro ⟨e', he, hs⟩
        obtain ⟨k, u, v, e2', hm, hv, he', rfl⟩ := (own_mem f ps e' _ e2).1 he
        cases hs with
        | inside _ _ e3 hs =>
          refine .property _ _ _ k u (visit f u v).1 _ hm ?_ ((ih u (.property s ps k u hk hm) v e3).1 ⟨e2', he', hs⟩)
          rw [hget k u hm, hv]; rfl
      · intro h
        cases h with
        | property _ _ _ k u v e3 hm hv hb =>
          rw [hget k u hm] at hv
          cases hw : dget (fillProps f ps kvs) k with
          | none => rw [hw] at hv; cases hv
          | some w =>
            rw [hw] at hv; cases hv
            obtain ⟨e4, he4, hs⟩ := (ih u (.property s ps k u hk hm) w e3).2 hb
            exact ⟨.inside k e4, (own_mem f ps _ _ e2).2 ⟨k, u, w, e4, hm, hw, he4, rfl⟩, .inside _ _ _ hs⟩
    | _ =>
      simp only [visitKw, List.not_mem_nil, false_and, exists_false, false_iff]
      generalize hq : (visitKws f (propNames s.kws) t _).1 = q
      intro h
      cases h with
      | property _ _ kvs => exact after_notDict f _ t ho.tail _ (by simp) kvs hq
  | required ns =>
    have hno : ∀ ps, .properties ps ∉ t := fun ps hp => hset _ hp (.required ns ps)
    cases d with
    | dict kvs =>
      simp only [visitKw]
      obtain ⟨kvs', h1, h2⟩ := kws_dict f (propNames s.kws) t ho.tail hpt kvs
      rw [h1]
      have hget : ∀ k, (dget kvs' k).isSome = (dget kvs k).isSome := by
        intro k
        rw [h2, entryAfter, propsOf_nil hno]
        split
        · rfl
        · cases addOf t <;> simp
      have hin : ∀ n, (!(dkeys kvs).contains n) = true ↔ dget kvs' n = none := by
        intro n
        rw [← Option.isNone_iff_eq_none, ← Option.not_isSome, hget, Bool.not_eq_true', Bool.not_eq_true',
          ← Bool.not_eq_true, ← Bool.not_eq_true, List.contains_iff_mem, mem_dkeys_iff, Option.isSome_iff_exists]
      constructor
      · rintro ⟨e', he, hs⟩
        obtain ⟨n, hn, rfl⟩ := List.mem_map.1 he
        obtain ⟨hn, hn'⟩ := List.mem_filter.1 hn
        cases hs
        exact .required _ _ _ n hn ((hin n).1 hn')
      · intro h
        cases h with
        | required _ _ _ n hn hn' =>
          exact ⟨.missing n, List.mem_map.2 ⟨n, List.mem_filter.2 ⟨hn, (hin n).2 hn'⟩, rfl⟩, .missing n⟩
    | _ =>
      simp only [visitKw, List.not_mem_nil, false_and, exists_false, false_iff]
      generalize hq : (visitKws f (propNames s.kws) t _).1 = q
      intro h
      cases h with
      | required _ _ kvs => exact after_notDict f _ t ho.tail _ (by simp) kvs hq
  | additional b =>
    cases b with
    | true =>
      constructor
      · rintro ⟨e', he, hs⟩; cases d <;> simp [visitKw] at he
      · intro h; cases h
    | false =>
      cases d with
      | dict kvs =>
        simp only [visitKw]
        obtain ⟨kvs', h1, h2⟩ := kws_dict f (propNames s.kws) t ho.tail hpt kvs
        rw [h1]
        have hget : ∀ k, k ∈ extraKeys (propNames s.kws) kvs ↔ (dget kvs' k).isSome ∧ ¬ Declared s.kws k := by
          intro k
          rw [mem_extraKeys, declared_iff hon]
          by_cases hk : k ∈ propNames s.kws
          · simp [hk]
          · rw [h2, entryAfter, if_neg hk]
            cases addOf t <;> simp
        constructor
        · rintro ⟨e', he, hs⟩
          split at he
          · cases he
          · next h' =>
            simp only [List.mem_singleton] at he; subst he
            cases hs with
            | unexpected _ ks hp =>
              refine .additional _ _ ks ?_ (hp.nodup_iff.1 (extraKeys_nodup ..)) ?_
              · rintro rfl
                rw [List.perm_nil] at hp
                exact h' (by simp [hp])
              · intro k; rw [← hp.mem_iff]; exact hget k
        · intro h
          cases h with
          | additional _ _ ks hne hnd hm =>
            have hp : (extraKeys (propNames s.kws) kvs).Perm ks :=
              perm_of_same (extraKeys_nodup ..) hnd (fun k => (hget k).trans (hm k).symm)
            rw [if_neg]
            · exact ⟨_, List.mem_singleton.2 rfl, .unexpected _ _ hp⟩
            · intro h'
              have h' : extraKeys (propNames s.kws) kvs = [] := by simpa using h'
              rw [h'] at hp
              exact hne (List.nil_perm.1 hp)
      | _ =>
        simp only [visitKw, List.not_mem_nil, false_and, exists_false, false_iff]
        generalize hq : (visitKws f (propNames s.kws) t _).1 = q
        intro h
        cases h with
        | additional _ kvs => exact after_notDict f _ t ho.tail _ (by simp) kvs hq
  | additionalS u =>
    cases d with
    | dict kvs =>
      simp only [visitKw]
      obtain ⟨kvs', h1, h2⟩ := kws_dict f (propNames s.kws) t ho.tail hpt
        (visitKeys (fun v => visit f u v) (extraKeys (propNames s.kws) kvs) kvs).1
      rw [h1]
      have hget : ∀ k, k ∉ propNames s.kws → dget kvs' k = (dget kvs k).map (fun v => (visit f u v).1) := by
        intro k hk
        rw [h2, entryAfter, if_neg hk, addOf_none ho.add, visitKeys_get _ _ _ (extraKeys_nodup ..)]
        simp only [mem_extraKeys, hk, not_false_eq_true, and_true]
        cases dget kvs k <;> simp
      constructor
      · rintro ⟨e', he, hs⟩
        obtain ⟨k, v, e2', hm, hv, he', rfl⟩ := (keys_mem _ _ e' _ (extraKeys_nodup ..)).1 he
        obtain ⟨_, hnd⟩ := (mem_extraKeys ..).1 hm
        cases hs with
        | inside _ _ e3 hs =>
          refine .additionalS _ _ _ k (visit f u v).1 _ (by rw [declared_iff hon]; exact hnd) ?_
            ((ih u (.additional s u hk) v e3).1 ⟨e2', he', hs⟩)
          rw [hget k hnd, hv]; rfl
      · intro h
        cases h with
        | additionalS _ _ _ k v e3 hnd hv hb =>
          rw [declared_iff hon] at hnd
          rw [hget k hnd] at hv
          cases hw : dget kvs k with
          | none => rw [hw] at hv; cases hv
          | some w =>
            rw [hw] at hv; cases hv
            obtain ⟨e4, he4, hs⟩ := (ih u (.additional s u hk) w e3).2 hb
            exact ⟨.inside k e4, (keys_mem _ _ _ _ (extraKeys_nodup ..)).2
              ⟨k, w, e4, (mem_extraKeys ..).2 ⟨by simp [hw], hnd⟩, hw, he4, rfl⟩, .inside _ _ _ hs⟩
    | _ =>
      simp only [visitKw, List.not_mem_nil, false_and, exists_false, false_iff]
      generalize hq : (visitKws f (propNames s.kws) t _).1 = q
      intro h
      cases h with
      | additionalS _ _ kvs => exact after_notDict f _ t ho.tail _ (by simp) kvs hq
  | propertyNames u =>
    have hno : ∀ ps, .properties ps ∉ t := fun ps hp => hset _ hp (.names u ps)
    cases d with
    | dict kvs =>
      simp only [visitKw]
      obtain ⟨kvs', h1, h2⟩ := kws_dict f (propNames s.kws) t ho.tail hpt kvs
      rw [h1]
      have hget : ∀ k, (dget kvs' k).isSome = (dget kvs k).isSome := by
        intro k
        rw [h2, entryAfter, propsOf_nil hno]
        split
        · rfl
        · cases addOf t <;> simp
      have hstr : ∀ k, (visit f u (.str k)).1 = .str k := by
        intro k; rw [visit_eq, kws_scalar _ _ _ _ (by simp) (by simp)]
      have hv : ∀ k e, (∃ e' ∈ (visit f u (.str k)).2, SameError e' e) ↔ Breach f u (.str k) e := by
        intro k e
        have := ih u (.names s u hk) (.str k) e
        rwa [hstr] at this
      constructor
      · rintro ⟨e', he, hs⟩
        obtain ⟨k, hk', he⟩ := List.mem_flatMap.1 he
        obtain ⟨e2', he', rfl⟩ := List.mem_map.1 he
        cases hs with
        | name _ _ e3 hs =>
          refine .propertyName _ _ _ k _ ?_ ((hv k e3).1 ⟨e2', he', hs⟩)
          rw [hget, Option.isSome_iff_exists, ← mem_dkeys_iff]; exact hk'
      · intro h
        cases h with
        | propertyName _ _ _ k e3 hs hb =>
          rw [hget, Option.isSome_iff_exists, ← mem_dkeys_iff] at hs
          obtain ⟨e4, he4, hs'⟩ := (hv k e3).2 hb
          exact ⟨.name k e4, List.mem_flatMap.2 ⟨k, hs, List.mem_map.2 ⟨e4, he4, rfl⟩⟩, .name _ _ _ hs'⟩
    | _ =>
      simp only [visitKw, List.not_mem_nil, false_and, exists_false, false_iff]
      generalize hq : (visitKws f (propNames s.kws) t _).1 = q
      intro h
      cases h with
      | propertyName _ _ kvs => exact after_notDict f _ t ho.tail _ (by simp) kvs hq
  | enum vs =>
    simp only [visitKw]
    rw [noChange f _ t (fun k hk' hch => hset k hk' (.enum vs k hch))]
    have := clear_enum (hc vs hk) d
    constructor
    · rintro ⟨e', he, hs⟩
      split at he
      · cases he
      · next h' =>
        simp only [List.mem_singleton] at he; subst he; cases hs
        exact .enum _ _ _ (fun v hv hs => h' (this.2 ⟨v, hv, hs⟩))
    · intro h
      cases h with
      | enum _ _ _ h =>
        rw [if_neg]
        · exact ⟨.notListed, by simp, .notListed⟩
        · intro h'
          obtain ⟨v, hv, hs⟩ := this.1 h'
          exact h v hv hs
  | items u =>
    cases d with
    | list xs =>
      simp only [visitKw, visitItems_fst]
      rw [kws_list f _ t ho.tail, itemsOf_none ho.items]
      constructor
      · rintro ⟨e', he, hs⟩
        obtain ⟨j, x, e2', hj, he', rfl⟩ := (items_mem _ _ e' 0).1 he
        rw [Nat.zero_add] at hs
        cases hs with
        | item _ _ e3 hs =>
          refine .items _ _ j _ (visit f u x).1 _ ?_ ((ih u (.items s u hk) x e3).1 ⟨e2', he', hs⟩)
          simp [hj]
      · intro h
        cases h with
        | items _ _ j _ y e3 hj hb =>
          simp only [List.getElem?_map, Option.map_eq_some_iff] at hj
          obtain ⟨x, hx, rfl⟩ := hj
          obtain ⟨e4, he4, hs⟩ := (ih u (.items s u hk) x e3).2 hb
          exact ⟨.item j e4, (items_mem _ _ _ 0).2 ⟨j, x, e4, hx, he4, by simp⟩, .item _ _ _ hs⟩
    | _ =>
      simp only [visitKw, List.not_mem_nil, false_and, exists_false, false_iff]
      generalize hq : (visitKws f (propNames s.kws) t _).1 = q
      intro h
      cases h with
      | items _ _ _ xs => exact after_notList f _ t ho.tail hpt _ (by simp) xs hq

/-! ### The whole -/

/-- C139: the errors that are reported are those that there are in the document that is left, each said with its place,
when in no schema the properties come after keywords that they may spoil, and enumerations list scalars other than 0 and 1.
See `C139_order_refuted` and `C91_true_refuted`. -/
theorem C139_errors_partial (f : VFlags) (s : VSchema) (hd : Throughout DictSchema s) (ho : Throughout Settled s)
    (hc : Throughout ClearEnums s) (d : Doc) (e : VErr) :
    (∃ e' ∈ (visit f s d).2, SameError e' e) ↔ Breach f s (visit f s d).1 e := by
  induction s using VSchema.ind generalizing d e with
  | h s ih =>
    have hw := fun t (w : PartOf s t) => ih t w (hd.inside w) (ho.inside w) (hc.inside w)
    have key : ∀ (t : List VKw), (∀ k ∈ t, k ∈ s.kws) → Once t → t.Pairwise (fun a b => ¬ Spoils a b) → ∀ d,
        (∃ e' ∈ (visitKws f (propNames s.kws) t d).2, SameError e' e) ↔
          ∃ kw ∈ t, BreachOf f s.kws kw (visitKws f (propNames s.kws) t d).1 e := by
      intro t
      induction t with
      | nil => intro _ _ _ d; simp [visitKws]
      | cons kw t iht =>
        intro hm hon hset d
        have h1 := kw_errors f s hd.here hc.here hw kw t (hm kw (by simp)) (fun k hk => hm k (List.mem_cons_of_mem _ hk))
          hon (List.pairwise_cons.1 hset).1 d e
        have h2 := iht (fun k hk => hm k (List.mem_cons_of_mem _ hk)) hon.tail (List.pairwise_cons.1 hset).2
          (visitKw f (propNames s.kws) kw d).1
        simp only [visitKws, List.mem_append, or_and_right, exists_or, List.mem_cons, exists_eq_left]
        rw [h1, h2]
    rw [visit_eq, key s.kws (fun k hk => hk) (once hd.here) ho.here]
    constructor
    · rintro ⟨kw, hk, h⟩; exact .mk _ _ kw _ hk h
    · intro h; cases h with | mk _ _ kw _ hk h => exact ⟨kw, hk, h⟩

/-! ### What is to be reported, and what the schema asks -/

/-- The reports that there are to make about a document are about what the schema asks. -/
private theorem no_breach (f : VFlags) (s : VSchema) (d : Doc) (h : Valid f s d) (e : VErr) : ¬ Breach f s d e := by
  induction s using VSchema.ind generalizing d e with
  | h s ih =>
    intro hb
    cases hb with
    | mk _ _ kw _ hk hb =>
      cases h with
      | mk _ _ h =>
        have h := h kw hk
        cases hb with
        | type _ ts _ hn => cases h with | type _ _ x _ hx hx' => exact hn x hx hx'
        | property _ ps kvs k u v e hm hv hb =>
          cases h with | properties _ _ _ h => exact ih u (.property s ps k u hk hm) v (h kvs k u v rfl hm hv) e hb
        | required _ ns kvs n hn hv =>
          cases h with | required _ _ _ h => have := h kvs n rfl hn; rw [hv] at this; cases this
        | additional _ kvs ks hne _ hm =>
          cases h with
          | additional _ _ h =>
            cases ks with
            | nil => exact hne rfl
            | cons k ks =>
              obtain ⟨h1, h2⟩ := (hm k).1 (by simp)
              exact h2 (h kvs k rfl h1)
        | additionalS _ u kvs k v e hn hv hb =>
          cases h with | additionalS _ _ _ h => exact ih u (.additional s u hk) v (h kvs k v rfl hn hv) e hb
        | propertyName _ u kvs k e hv hb =>
          cases h with | propertyNames _ _ _ h => exact ih u (.names s u hk) _ (h kvs k rfl hv) e hb
        | enum _ vs _ hn => cases h with | enum _ _ v _ hv hs => exact hn v hv hs
        | items _ u i xs x e hx hb =>
          cases h with | items _ _ _ h => exact ih u (.items s u hk) x (h xs x rfl (List.mem_of_getElem? hx)) e hb

/-- C139: there is something to report about a document if and only if it is not as the schema asks. -/
theorem C139_breaches (f : VFlags) (s : VSchema) (d : Doc) : Valid f s d ↔ ∀ e, ¬ Breach f s d e := by
  constructor
  · exact fun h e => no_breach f s d h e
  · induction s using VSchema.ind generalizing d with
    | h s ih =>
      intro h
      refine .mk _ _ ?_
      intro kw hk
      have h : ∀ e, ¬ BreachOf f s.kws kw d e := fun e he => h e (.mk _ _ kw _ hk he)
      cases kw with
      | type ts =>
        refine Classical.byContradiction fun hn => h .wrongType (.type _ _ _ ?_)
        intro x hx hx'
        exact hn (.type _ _ x _ hx hx')
      | properties ps =>
        refine .properties _ _ _ ?_
        rintro kvs k u v rfl hm hv
        exact ih u (.property s ps k u hk hm) v (fun e he => h (.inside k e) (.property _ _ _ k u v e hm hv he))
      | required ns =>
        refine .required _ _ _ ?_
        rintro kvs n rfl hn
        cases hv : dget kvs n with
        | some v => rfl
        | none => exact absurd (.required _ _ _ n hn hv) (h (.missing n))
      | additional b =>
        cases b with
        | true => exact .allowed _ _
        | false =>
          refine .additional _ _ ?_
          rintro kvs k rfl hv
          refine Classical.byContradiction fun hn => ?_
          have hdec : ∃ l : List Str, l.Nodup ∧ ∀ k, k ∈ l ↔ (dget kvs k).isSome ∧ ¬ Declared s.kws k := by
            classical
            refine ⟨((dkeys kvs).filter (fun k => decide (¬ Declared s.kws k))).eraseDups,
              nodup_eraseDups (α := Str) _ _ (Nat.le_refl _), ?_⟩
            intro k
            rw [List.mem_eraseDups, List.mem_filter, mem_dkeys_iff, Option.isSome_iff_exists]
            simp
          obtain ⟨l, h1, h2⟩ := hdec
          refine h (.unexpected l) (.additional _ _ l ?_ h1 h2)
          rintro rfl
          exact absurd ((h2 k).2 ⟨hv, hn⟩) (by simp)
      | additionalS u =>
        refine .additionalS _ _ _ ?_
        rintro kvs k v rfl hn hv
        exact ih u (.additional s u hk) v (fun e he => h (.inside k e) (.additionalS _ _ _ k v e hn hv he))
      | propertyNames u =>
        refine .propertyNames _ _ _ ?_
        rintro kvs k rfl hv
        exact ih u (.names s u hk) _ (fun e he => h (.name k e) (.propertyName _ _ _ k e hv he))
      | enum vs =>
        refine Classical.byContradiction fun hn => h .notListed (.enum _ _ _ ?_)
        intro v hv hs
        exact hn (.enum _ _ v _ hv hs)
      | items u =>
        refine .items _ _ _ ?_
        rintro xs x rfl hx
        obtain ⟨i, hi⟩ := List.getElem?_of_mem hx
        exact ih u (.items s u hk) x (fun e he => h (.item i e) (.items _ _ i xs x e hi he))

private theorem path_str (f : VFlags) (s : VSchema) (k : Str) (e : VErr) (h : Breach f s (.str k) e) : e.path = [] := by
  cases h with
  | mk _ _ kw _ hk h => cases h <;> rfl

private theorem breach_place (f : VFlags) (s : VSchema) (d : Doc) (e : VErr) (h : Breach f s d e) :
    ∃ t w, WithinSchema s t ∧ LeadsTo e.path d w ∧ ¬ Valid f t w := by
  induction s using VSchema.ind generalizing d e with
  | h s ih =>
    have hself : e.path = [] → ∃ t w, WithinSchema s t ∧ LeadsTo e.path d w ∧ ¬ Valid f t w := by
      intro hp
      rw [hp]
      exact ⟨s, d, .self s, .here d, fun hv => no_breach f s d hv e h⟩
    cases h with
    | mk _ _ kw _ hk h =>
      cases h with
      | property _ ps kvs k u v e hm hv hb =>
        obtain ⟨t, w, h1, h2, h3⟩ := ih u (.property s ps k u hk hm) v e hb
        exact ⟨t, w, .inside _ _ _ (.property s ps k u hk hm) h1, .key k _ _ v w hv h2, h3⟩
      | additionalS _ u kvs k v e hn hv hb =>
        obtain ⟨t, w, h1, h2, h3⟩ := ih u (.additional s u hk) v e hb
        exact ⟨t, w, .inside _ _ _ (.additional s u hk) h1, .key k _ _ v w hv h2, h3⟩
      | items _ u i xs x e hx hb =>
        obtain ⟨t, w, h1, h2, h3⟩ := ih u (.items s u hk) x e hb
        exact ⟨t, w, .inside _ _ _ (.items s u hk) h1, .index i _ _ x w hx h2, h3⟩
      | propertyName _ u kvs k e hv hb => exact hself (path_str f u k e hb)
      | _ => exact hself rfl

/-- C139: the path of every error leads to a value in the document that is left which is not as its schema asks. -/
theorem C139_place_partial (f : VFlags) (s : VSchema) (hd : Throughout DictSchema s) (ho : Throughout Settled s)
    (hc : Throughout ClearEnums s) (d : Doc) (e : VErr) (he : e ∈ (visit f s d).2) :
    ∃ t w, WithinSchema s t ∧ LeadsTo e.path (visit f s d).1 w ∧ ¬ Valid f t w :=
  breach_place f s _ e ((C139_errors_partial f s hd ho hc d e).1 ⟨e, he, same_refl e⟩)

/-! ### Paths, whatever the order of the keywords -/

private theorem kw_leads (f : VFlags) (s : VSchema) (hd : DictSchema s)
    (ih : ∀ t, PartOf s t → ∀ d, ∀ e ∈ (visit f t d).2, ∃ w, LeadsTo e.path (visit f t d).1 w)
    (kw : VKw) (t : List VKw) (hk : kw ∈ s.kws) (ht : ∀ k ∈ t, k ∈ s.kws) (ho : Once (kw :: t)) (d : Doc) (e : VErr)
    (he : e ∈ (visitKw f (propNames s.kws) kw d).2) :
    ∃ w, LeadsTo e.path (visitKws f (propNames s.kws) t (visitKw f (propNames s.kws) kw d).1).1 w := by
  have hpt : ∀ ps, .properties ps ∈ t → dkeys ps = propNames s.kws ∧ (dkeys ps).Nodup :=
    fun ps hp => names_ok hd ps (ht _ hp)
  have hself : e.path = [] →
      ∃ w, LeadsTo e.path (visitKws f (propNames s.kws) t (visitKw f (propNames s.kws) kw d).1).1 w := by
    intro hp; rw [hp]; exact ⟨_, .here _⟩
  cases kw with
  | type ts =>
    refine hself ?_
    simp only [visitKw] at he
    split at he
    · cases he
    · simp only [List.mem_singleton] at he; subst he; rfl
  | enum ts =>
    refine hself ?_
    simp only [visitKw] at he
    split at he
    · cases he
    · simp only [List.mem_singleton] at he; subst he; rfl
  | required ns =>
    refine hself ?_
    cases d with
    | dict kvs =>
      simp only [visitKw] at he
      obtain ⟨n, _, rfl⟩ := List.mem_map.1 he
      rfl
    | _ => simp [visitKw] at he
  | additional b =>
    refine hself ?_
    cases d with
    | dict kvs =>
      simp only [visitKw] at he
      split at he
      · cases he
      · simp only [List.mem_singleton] at he; subst he; rfl
    | _ => simp [visitKw] at he
  | propertyNames u =>
    refine hself ?_
    cases d with
    | dict kvs =>
      simp only [visitKw] at he
      obtain ⟨k, _, he⟩ := List.mem_flatMap.1 he
      obtain ⟨e', he', rfl⟩ := List.mem_map.1 he
      obtain ⟨w, hw⟩ := ih u (.names s u hk) (.str k) e' he'
      have hstr : (visit f u (.str k)).1 = .str k := by rw [visit_eq, kws_scalar _ _ _ _ (by simp) (by simp)]
      rw [hstr] at hw
      generalize hp : e'.path = p at hw
      cases hw
      simp [VErr.path, hp]
    | _ => simp [visitKw] at he
  | properties ps =>
    obtain ⟨e1, e2⟩ := names_ok hd ps hk
    cases d with
    | dict kvs =>
      simp only [visitKw] at he ⊢
      obtain ⟨kvs', h1, h2⟩ := kws_dict f (propNames s.kws) t ho.tail hpt (visitOwn f ps (fillProps f ps kvs)).1
      rw [h1]
      obtain ⟨k, u, v, e', hm, hv, he', rfl⟩ := (own_mem f ps e _ e2).1 he
      obtain ⟨w, hw⟩ := ih u (.property s ps k u hk hm) v e' he'
      refine ⟨w, .key k _ _ (visit f u v).1 w ?_ hw⟩
      rw [h2, entryAfter, if_pos (by rw [← e1]; exact List.mem_map.2 ⟨_, hm, rfl⟩), propsOf_nil ho.props,
        visitOwn_get f ps _ e2, dget_of_mem e2 hm]
      simp [hv]
    | _ => simp [visitKw] at he
  | additionalS u =>
    cases d with
    | dict kvs =>
      simp only [visitKw] at he ⊢
      obtain ⟨kvs', h1, h2⟩ := kws_dict f (propNames s.kws) t ho.tail hpt
        (visitKeys (fun v => visit f u v) (extraKeys (propNames s.kws) kvs) kvs).1
      rw [h1]
      obtain ⟨k, v, e', hm, hv, he', rfl⟩ := (keys_mem _ _ e _ (extraKeys_nodup ..)).1 he
      obtain ⟨_, hnd⟩ := (mem_extraKeys ..).1 hm
      obtain ⟨w, hw⟩ := ih u (.additional s u hk) v e' he'
      refine ⟨w, .key k _ _ (visit f u v).1 w ?_ hw⟩
      rw [h2, entryAfter, if_neg hnd, addOf_none ho.add, visitKeys_get _ _ _ (extraKeys_nodup ..)]
      simp [hm, hv]
    | _ => simp [visitKw] at he
  | items u =>
    cases d with
    | list xs =>
      simp only [visitKw, visitItems_fst] at he ⊢
      rw [kws_list f _ t ho.tail, itemsOf_none ho.items]
      obtain ⟨j, x, e', hj, he', rfl⟩ := (items_mem _ _ e 0).1 he
      obtain ⟨w, hw⟩ := ih u (.items s u hk) x e' he'
      rw [Nat.zero_add]
      exact ⟨w, .index j _ _ (visit f u x).1 w (by simp [hj]) hw⟩
    | _ => simp [visitKw] at he

/-- C139: the path of every error leads to a value of the document that is left, whatever the order of the keywords. -/
theorem C139_leads (f : VFlags) (s : VSchema) (hd : Throughout DictSchema s) (d : Doc) (e : VErr)
    (he : e ∈ (visit f s d).2) : ∃ w, LeadsTo e.path (visit f s d).1 w := by
  induction s using VSchema.ind generalizing d e with
  | h s ih =>
    have hw := fun t (w : PartOf s t) => ih t w (hd.inside w)
    have key : ∀ (t : List VKw), (∀ k ∈ t, k ∈ s.kws) → Once t → ∀ d,
        e ∈ (visitKws f (propNames s.kws) t d).2 → ∃ w, LeadsTo e.path (visitKws f (propNames s.kws) t d).1 w := by
      intro t
      induction t with
      | nil => intro _ _ d h; simp [visitKws] at h
      | cons kw t iht =>
        intro hm hon d h
        simp only [visitKws, List.mem_append] at h ⊢
        rcases h with h | h
        · exact kw_leads f s hd.here hw kw t (hm kw (by simp)) (fun k hk => hm k (List.mem_cons_of_mem _ hk)) hon d e h
        · exact iht (fun k hk => hm k (List.mem_cons_of_mem _ hk)) hon.tail _ h
    rw [visit_eq] at he ⊢
    exact key s.kws (fun k hk => hk) (once hd.here) d he

/-- C139: with properties after what they may spoil, an error is reported of a document that, as it is left, has none; and
none is reported of one that has. -/
theorem C139_order_refuted :
    (∃ f s d e, Throughout DictSchema s ∧ e ∈ (visit f s d).2 ∧ ∀ e', ¬ Breach f s (visit f s d).1 e') ∧
    (∃ f s d e, Throughout DictSchema s ∧ (visit f s d).2 = [] ∧ Breach f s (visit f s d).1 e) := by
  obtain ⟨⟨f, s, d, h1, h2, h3, _⟩, g, u, c, k1, k2, k3, _⟩ := C90_order_refuted
  refine ⟨?_, ?_⟩
  · obtain ⟨e, he⟩ := List.exists_mem_of_ne_nil _ h2
    exact ⟨f, s, d, e, h1, he, no_breach f s _ h3⟩
  · have : ∃ e, Breach g u (visit g u c).1 e := by
      refine Classical.byContradiction fun hn => k3 ((C139_breaches g u _).2 (fun e he => hn ⟨e, he⟩))
    obtain ⟨e, he⟩ := this
    exact ⟨g, u, c, e, k1, k2, he⟩

/-! #### Cases -/

/-- `{"c": [null, 5], "b": 7, "d": []}` breaks the schema in three ways: an item that is not null, a property of the
wrong type, and a name that is not listed. -/
private def bad : Doc := .dict [("c".toList, .list [.null, .int 5]), ("b".toList, .int 7), ("d".toList, .list [])]

example : (visit petFlags petSchema bad).2 = [.inside "b".toList .wrongType,
    .inside "c".toList (.item 1 .wrongType), .name "d".toList .notListed] := by rfl
example : (visit petFlags petSchema bad).2.map VErr.path = [[.key "b".toList], [.key "c".toList, .index 1], []] := by rfl
example : Breach petFlags petSchema (visit petFlags petSchema bad).1 (.inside "c".toList (.item 1 .wrongType)) :=
  (C139_errors_partial petFlags petSchema petSchema_dict petSchema_settled petSchema_clear bad _).1
    ⟨_, List.mem_cons_of_mem _ List.mem_cons_self, same_refl _⟩
example : ∃ w, LeadsTo [.key "c".toList, .index 1] (visit petFlags petSchema bad).1 w :=
  C139_leads petFlags petSchema petSchema_dict bad (.inside "c".toList (.item 1 .wrongType))
    (List.mem_cons_of_mem _ List.mem_cons_self)

end Props
