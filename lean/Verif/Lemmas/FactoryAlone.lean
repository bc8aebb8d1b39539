import Verif.Lemmas.FactoryThreads
/-
Lemmas on calls that run alone.
-/
namespace Lemmas
open Py Model Spec Props

/-- A call that runs alone, to its end. -/
def finish (op : Nat → Str → ShId → Except PyErr SheetObj) : Todo → SharedFactory → SharedFactory × Except ThreadErr SheetObj
  | .done r, S => (S, r)
  | .outerGet w k, S => finish op (k ((dget S.outer w).map (fun n => (w, n)))) S
  | .outerNew w k, S => finish op (k (w, S.made)) { S with outer := dset S.outer w S.made, made := S.made + 1 }
  | .outerIter k, S => finish op (k S.outer.length) S
  | .outerNext size pos k, S => finish op (k (if S.outer.length = size then .ok (S.outer[pos]?) else .error .changedSize)) S
  | .innerGet d sh k, S => finish op (k (dget (S.inner d) sh)) S
  | .innerPut d sh s k, S => finish op k { S with inner := fun d' => if d' = d then dset (S.inner d) sh s else S.inner d' }
  | .innerItems d k, S => finish op (k (S.inner d)) S
  | .innerDel d sh k, S =>
    match dget (S.inner d) sh with
    | none => finish op (k (.error .missingKey)) S
    | some _ => finish op (k (.ok ())) { S with inner := fun d' => if d' = d then ddel (S.inner d) sh else S.inner d' }
  | .close s k, S => finish op k { S with closed := s :: S.closed }
  | .openBook w sh k, S => finish op (k (op S.opened w sh)) { S with opened := S.opened + 1 }

section
variable {op : Nat → Str → ShId → Except PyErr SheetObj}

theorem finish_step (t : Todo) (S : SharedFactory) : finish op (t.step op S).2 (t.step op S).1 = finish op t S := by
  cases t <;> try rfl
  case innerDel d sh k =>
    simp only [Todo.step, finish]
    cases dget (S.inner d) sh <;> rfl

theorem run_alone (S : SharedFactory) (t : Todo) (n : Nat) : ∃ S' t', Crew.run op ⟨S, [t]⟩ (List.replicate n 0) = ⟨S', [t']⟩ ∧
    finish op t' S' = finish op t S := by
  induction n generalizing S t with
  | zero => exact ⟨S, t, rfl, rfl⟩
  | succ n ih =>
    obtain ⟨S', t', h1, h2⟩ := ih (t.step op S).1 (t.step op S).2
    refine ⟨S', t', ?_, h2.trans (finish_step t S)⟩
    rw [← h1]
    rfl

theorem run_finish (t : Todo) : ∀ S, ∃ n, Crew.run op ⟨S, [t]⟩ (List.replicate n 0) = ⟨(finish op t S).1, [.done (finish op t S).2]⟩ := by
  have hstep : ∀ (t : Todo) S, (∃ n, Crew.run op ⟨(t.step op S).1, [(t.step op S).2]⟩ (List.replicate n 0) =
      ⟨(finish op (t.step op S).2 (t.step op S).1).1, [.done (finish op (t.step op S).2 (t.step op S).1).2]⟩) →
      ∃ n, Crew.run op ⟨S, [t]⟩ (List.replicate n 0) = ⟨(finish op t S).1, [.done (finish op t S).2]⟩ := by
    rintro t S ⟨n, h⟩
    refine ⟨n + 1, ?_⟩
    rw [finish_step] at h
    rw [← h]
    rfl
  induction t with
  | done r => exact fun S => ⟨0, rfl⟩
  | outerGet w k ih => exact fun S => hstep _ _ (ih _ _)
  | outerNew w k ih => exact fun S => hstep _ _ (ih _ _)
  | outerIter k ih => exact fun S => hstep _ _ (ih _ _)
  | outerNext size pos k ih => exact fun S => hstep _ _ (ih _ _)
  | innerGet d sh k ih => exact fun S => hstep _ _ (ih _ _)
  | innerPut d sh s k ih => exact fun S => hstep _ _ (ih _)
  | innerItems d k ih => exact fun S => hstep _ _ (ih _ _)
  | innerDel d sh k ih =>
    intro S
    refine hstep _ _ ?_
    simp only [Todo.step]
    cases dget (S.inner d) sh with
    | none => exact ih _ _
    | some x => exact ih _ _
  | close s k ih => exact fun S => hstep _ _ (ih _)
  | openBook w sh k ih => exact fun S => hstep _ _ (ih _ _)

/-- The dictionaries are in order. -/
structure WellKept (S : SharedFactory) : Prop where
  outer : (S.outer.map (·.1)).Nodup
  old : ∀ e ∈ S.outer, e.2 < S.made
  fresh : ∀ d : DictRef, S.made ≤ d.2 → S.inner d = []
  inner : ∀ d, ((S.inner d).map (·.1)).Nodup

theorem get_seen (S : SharedFactory) (key : SKey) :
    (factorySeen S).get key = match dget S.outer key.1 with
      | none => none
      | some n => dget (S.inner (key.1, n)) key.2 := by
  unfold Factory.get factorySeen
  simp only
  rw [dget_map_val S.outer (fun w n => S.inner (w, n)) key.1]
  cases dget S.outer key.1 <;> rfl

theorem finish_get (S : SharedFactory) (key : SKey) (k : Option SheetObj → Todo) :
    finish op (cacheGetT key k) S = finish op (k ((factorySeen S).get key)) S := by
  rw [get_seen]
  simp only [cacheGetT, finish]
  cases dget S.outer key.1 <;> rfl

theorem map_dset_some {γ : Type} (g : Str × Nat → γ) (w : Str) (n : Nat) (v : γ) : ∀ (l : List (Str × Nat)), (l.map (·.1)).Nodup →
    dget l w = some n → l.map (fun e => (e.1, if e = (w, n) then v else g e)) = dset (l.map (fun e => (e.1, g e))) w v
  | [], _, h => nomatch h
  | (w', n') :: l, hn, h => by
    simp only [List.map_cons, List.nodup_cons] at hn
    simp only [List.map_cons, dset]
    rw [dget_cons] at h
    by_cases e : w' = w
    · subst e
      rw [if_pos rfl] at h
      cases h
      simp only [if_true, List.cons.injEq, true_and]
      apply List.map_congr_left
      rintro ⟨a, b⟩ hab
      rw [if_neg]
      rintro h
      cases h
      exact hn.1 (List.mem_map.2 ⟨_, hab, rfl⟩)
    · rw [if_neg e] at h
      rw [if_neg e, if_neg (fun h => e (congrArg Prod.fst h))]
      simp only [List.cons.injEq, true_and]
      exact map_dset_some g w n v l hn.2 h

theorem dset_none {γ : Type} (w : Str) (v : γ) : ∀ (l : List (Str × γ)), dget l w = none → dset l w v = l ++ [(w, v)]
  | [], _ => rfl
  | (w', n') :: l, h => by
    rw [dget_cons] at h
    unfold dset
    by_cases e : w' = w
    · rw [if_pos e] at h; cases h
    · rw [if_neg e] at h ⊢
      rw [dset_none w v l h]
      rfl

theorem finish_put {S : SharedFactory} (hS : WellKept S) (key : SKey) (s : SheetObj) (k : Todo) :
    ∃ S', finish op (cachePutT key s k) S = finish op k S' ∧ factorySeen S' = (factorySeen S).put key s ∧ WellKept S' := by
  obtain ⟨w, sh⟩ := key
  have hget : dget (factorySeen S).cache w = (dget S.outer w).map (fun n => S.inner (w, n)) :=
    dget_map_val S.outer (fun w n => S.inner (w, n)) w
  cases hg : dget S.outer w with
  | some n =>
    refine ⟨{ S with inner := fun d' => if d' = (w, n) then dset (S.inner (w, n)) sh s else S.inner d' }, ?_, ?_, ?_⟩
    · simp only [cachePutT, finish, hg, Option.map_some]
    · simp only [Factory.put, hget, hg, Option.map_some, Option.getD_some]
      have := map_dset_some (fun e => S.inner (e.1, e.2)) w n (dset (S.inner (w, n)) sh s) S.outer hS.outer hg
      simp only [factorySeen, ← this]
    · refine ⟨hS.outer, hS.old, ?_, ?_⟩
      · intro d hd
        simp only
        rw [if_neg]
        · exact hS.fresh d hd
        · rintro rfl
          have := hS.old _ (mem_of_dget hg)
          simp only at this hd
          omega
      · intro d
        simp only
        split
        · exact nodup_dset (hS.inner _)
        · exact hS.inner d
  | none =>
    refine ⟨{ S with outer := dset S.outer w S.made, made := S.made + 1, inner := fun d' => 
        if d' = (w, S.made) then dset (S.inner (w, S.made)) sh s else S.inner d' }, ?_, ?_, ?_⟩
    · simp only [cachePutT, finish, hg, Option.map_none]
    · simp only [Factory.put, hget, hg, Option.map_none, Option.getD_none]
      simp only [factorySeen]
      have hg' : dget (S.outer.map (fun e => (e.1, S.inner (e.1, e.2)))) w = none := hget.trans (by rw [hg]; rfl)
      rw [dset_none w _ _ hg, dset_none w _ _ hg']
      rw [List.map_append, hS.fresh (w, S.made) (Nat.le_refl _)]
      congr 1
      congr 1
      · apply List.map_congr_left
        rintro ⟨a, b⟩ hab
        rw [if_neg]
        intro h
        have := hS.old _ hab
        have h2 : b = S.made := congrArg Prod.snd h
        simp only at this
        omega
      · simp
    · refine ⟨nodup_dset hS.outer, ?_, ?_, ?_⟩
      · intro e he
        simp only
        rw [dset_none w _ _ hg] at he
        rcases List.mem_append.1 he with he | he
        · have := hS.old e he
          omega
        · rw [List.mem_singleton.1 he]; exact Nat.lt_succ_self _
      · intro d hd
        simp only at hd ⊢
        rw [if_neg (by rintro rfl; simp only at hd; omega)]
        exact hS.fresh d (by omega)
      · intro d
        simp only
        split
        · exact nodup_dset (hS.inner _)
        · exact hS.inner d

/-- A factory where some dictionaries lost all entries of a sheet. -/
def sweptOf (t : SheetObj) (ds : List (Str × Nat)) (S : SharedFactory) : SharedFactory :=
  { S with inner := fun d => if d ∈ ds then (S.inner d).filter (fun e => e.2 ≠ t) else S.inner d }

theorem finish_sweepOne (t : SheetObj) (d : DictRef) (k : Except ThreadErr Unit → Todo) : ∀ (l pre : List (ShId × SheetObj)) (S : SharedFactory),
    S.inner d = pre ++ l → ((pre ++ l).map (·.1)).Nodup → (∀ e ∈ pre, e.2 ≠ t) →
    finish op (sweepOneT t d k l) S = finish op (k (.ok ())) (sweptOf t [d] S)
  | [], pre, S, h, _, hp => by
    have : sweptOf t [d] S = S := by
      unfold sweptOf
      have : (fun d' => if d' ∈ [d] then (S.inner d').filter (fun e => e.2 ≠ t) else S.inner d') = S.inner := by
        funext d'
        split
        · rename_i e
          rw [List.mem_singleton.1 e, h, List.append_nil, List.filter_eq_self]
          intro e he
          simpa using hp e he
        · rfl
      rw [this]
    rw [this]
    rfl
  | (sh, x) :: l, pre, S, h, hn, hp => by
    unfold sweepOneT
    by_cases hx : x = t
    · rw [if_pos hx]
      have hn' := hn
      simp only [List.map_append, List.map_cons] at hn'
      have hnp : sh ∉ pre.map (·.1) := by
        intro hm
        exact (List.nodup_append.1 hn').2.2 _ hm _ (by simp) rfl
      have hnl : sh ∉ l.map (·.1) := (List.nodup_cons.1 (List.nodup_append.1 hn').2.1).1
      have hg : dget (S.inner d) sh = some x := by
        rw [h]
        exact dget_append_mid hnp
      simp only [finish, hg]
      have hdel : ddel (S.inner d) sh = pre ++ l := by
        rw [h]
        unfold ddel
        rw [List.filter_append, List.filter_cons]
        simp only [ne_eq, not_true_eq_false, decide_false, Bool.false_eq_true, if_false]
        congr 1
        · rw [List.filter_eq_self]
          intro e he
          simp only [decide_eq_true_eq]
          rintro rfl
          exact hnp (List.mem_map.2 ⟨_, he, rfl⟩)
        · rw [List.filter_eq_self]
          intro e he
          simp only [decide_eq_true_eq]
          rintro rfl
          exact hnl (List.mem_map.2 ⟨_, he, rfl⟩)
      rw [finish_sweepOne t d k l pre _ (by simp only [if_true]; exact hdel) ?_ hp]
      · congr 1
        unfold sweptOf
        congr 1
        funext d'
        by_cases e : d' = d
        · subst e
          simp only [List.mem_singleton, if_true, hdel]
          rw [h, List.filter_append, List.filter_append, List.filter_cons]
          simp [hx]
        · simp [e]
      · rw [List.map_append]
        refine List.nodup_append.2 ⟨(List.nodup_append.1 hn').1, (List.nodup_cons.1 (List.nodup_append.1 hn').2.1).2, ?_⟩
        intro a ha b hb
        exact (List.nodup_append.1 hn').2.2 a ha b (by simp only [List.mem_cons]; exact .inr hb)
    · rw [if_neg hx]
      have e : pre ++ (sh, x) :: l = (pre ++ [(sh, x)]) ++ l := by simp
      refine finish_sweepOne t d k l (pre ++ [(sh, x)]) S (by rw [h, e]) (by rw [← e]; exact hn) ?_
      intro y hy
      rcases List.mem_append.1 hy with hy | hy
      · exact hp y hy
      · rw [List.mem_singleton.1 hy]; exact hx

theorem wellKept_swept {S : SharedFactory} (hS : WellKept S) (t : SheetObj) (ds : List (Str × Nat)) : WellKept (sweptOf t ds S) := by
  refine ⟨hS.outer, hS.old, ?_, ?_⟩
  · intro d hd
    have := hS.fresh d hd
    simp only [sweptOf, this]
    split <;> rfl
  · intro d
    simp only [sweptOf]
    split
    · exact (hS.inner d).sublist (List.Sublist.map _ List.filter_sublist)
    · exact hS.inner d

theorem swept_swept (t : SheetObj) (d : Str × Nat) (ds : List (Str × Nat)) (S : SharedFactory) :
    sweptOf t ds (sweptOf t [d] S) = sweptOf t (d :: ds) S := by
  unfold sweptOf
  congr 1
  funext d'
  by_cases e1 : d' = d <;> by_cases e2 : d' ∈ ds <;> simp [e1, e2, List.filter_filter]

theorem finish_sweep (t : SheetObj) (size : Nat) (k : Except ThreadErr Unit → Todo) : ∀ (left : Nat) (S : SharedFactory), WellKept S →
    S.outer.length = size → left ≤ size →
    finish op (sweepT t size k left) S = finish op (k (.ok ())) (sweptOf t (S.outer.drop (size - left)) S)
  | 0, S, _, hs, _ => by
    have : sweptOf t (S.outer.drop (size - 0)) S = S := by
      rw [Nat.sub_zero, ← hs, List.drop_length]
      unfold sweptOf
      simp
    rw [this]
    simp only [sweepT, finish, hs, if_true]
  | left + 1, S, hS, hs, hl => by
    have hp : size - (left + 1) < S.outer.length := by omega
    simp only [sweepT, finish, hs, if_true, List.getElem?_eq_getElem hp]
    rw [finish_sweepOne t _ _ (S.inner S.outer[size - (left + 1)]) [] S rfl (hS.inner _) (fun e he => nomatch he)]
    simp only
    rw [finish_sweep t size k left (sweptOf t [S.outer[size - (left + 1)]] S) (wellKept_swept hS _ _) hs (by omega)]
    have : size - left = size - (left + 1) + 1 := by omega
    congr 1
    show sweptOf t (S.outer.drop (size - left)) _ = _
    rw [swept_swept, this, List.drop_eq_getElem_cons hp]

theorem finish_close {S : SharedFactory} (hS : WellKept S) (key : SKey) (k : Except ThreadErr Unit → Todo) :
    ∃ S', finish op (closeSheetT key k) S = finish op (k (.ok ())) S' ∧ factorySeen S' = (factorySeen S).closeSheet key ∧ WellKept S' := by
  unfold closeSheetT
  rw [finish_get]
  unfold Factory.closeSheet
  cases hg : (factorySeen S).get key with
  | none => exact ⟨S, rfl, rfl, hS⟩
  | some t =>
    simp only [finish]
    have hS' : WellKept { S with closed := t :: S.closed } := ⟨hS.outer, hS.old, hS.fresh, hS.inner⟩
    rw [finish_sweep t _ k _ _ hS' rfl (Nat.le_refl _)]
    refine ⟨_, rfl, ?_, wellKept_swept hS' _ _⟩
    simp only [Nat.sub_self, List.drop_zero, factorySeen, sweptOf, List.map_map]
    congr 1
    apply List.map_congr_left
    rintro ⟨a, b⟩ hab
    simp only [Function.comp, hab, if_true]

theorem finish_addKeys (s : SheetObj) : ∀ (ks : List SKey) {S : SharedFactory}, WellKept S →
    ∃ S', finish op (addKeysT s ks) S = (S', .ok s) ∧ factorySeen S' = (factorySeen S).addKeys s ks ∧ WellKept S'
  | [], S, hS => ⟨S, rfl, rfl, hS⟩
  | key :: ks, S, hS => by
    have hput : ∀ S1, WellKept S1 → ∃ S', finish op (cachePutT key s (addKeysT s ks)) S1 = (S', .ok s) ∧
        factorySeen S' = ((factorySeen S1).put key s).addKeys s ks ∧ WellKept S' := by
      intro S1 h1
      obtain ⟨S2, a1, a2, a3⟩ := finish_put (op := op) h1 key s (addKeysT s ks)
      obtain ⟨S3, b1, b2, b3⟩ := finish_addKeys s ks a3
      exact ⟨S3, a1.trans b1, by rw [b2, a2], b3⟩
    unfold addKeysT
    rw [finish_get]
    unfold Factory.addKeys
    cases hg : (factorySeen S).get key with
    | none => exact hput S hS
    | some old =>
      simp only
      by_cases e : old ≠ s
      · rw [if_pos e, if_pos e]
        obtain ⟨S1, a1, a2, a3⟩ := finish_close (op := op) hS key (fun r => match r with
            | .error e => .done (.error e)
            | .ok () => cachePutT key s (addKeysT s ks))
        obtain ⟨S2, b1, b2, b3⟩ := hput S1 a3
        exact ⟨S2, a1.trans b1, by rw [b2, a2], b3⟩
      · rw [if_neg e, if_neg e]
        exact hput S hS

/-- What an error of the calls looks like here. -/
def asRaised : Except PyErr SheetObj → Except ThreadErr SheetObj
  | .ok s => .ok s
  | .error e => .error (.raised e)

theorem finish_fetch {S : SharedFactory} (hS : WellKept S) (order : List SKey → List SKey) (w : Str) (sh : ShId) :
    ∃ S', finish op (fetchT order w sh) S = (S', asRaised ((factorySeen S).cachedOr order w sh (fun n => op n w sh)).2) ∧
      factorySeen S' = ((factorySeen S).cachedOr order w sh (fun n => op n w sh)).1 ∧ WellKept S' := by
  unfold fetchT Factory.cachedOr
  rw [finish_get]
  cases hg : (factorySeen S).get (w, sh) with
  | some s => exact ⟨S, rfl, rfl, hS⟩
  | none =>
    have hS' : WellKept { S with opened := S.opened + 1 } := ⟨hS.outer, hS.old, hS.fresh, hS.inner⟩
    simp only [finish]
    have hop : (factorySeen S).opened = S.opened := rfl
    rw [hop]
    cases ho : op S.opened w sh with
    | error e => exact ⟨_, rfl, rfl, hS'⟩
    | ok s =>
      simp only [Factory.add]
      cases he : (deriveKeys s (.one w) (.one sh)).isEmpty with
      | true => exact ⟨_, rfl, rfl, hS'⟩
      | false =>
        obtain ⟨S1, a1, a2, a3⟩ := finish_addKeys (op := op) s (order (deriveKeys s (.one w) (.one sh))) hS'
        exact ⟨S1, a1, a2, a3⟩

theorem oneByOne_kept {W : Surroundings} {S : SharedFactory} (h : OneByOne W S) : WellKept S := by
  induction h with
  | new => exact ⟨List.nodup_nil, fun _ h => (nomatch h), fun _ _ => rfl, fun _ => List.nodup_nil⟩
  | @call S S' order w sh n r hS ho hr ih =>
    obtain ⟨S1, t1, h1, h2⟩ := run_alone (op := W.opener) S (fetchT order w sh) n
    rw [hr] at h1
    cases h1
    obtain ⟨S2, a1, a2, a3⟩ := finish_fetch (op := W.opener) ih order w sh
    rw [a1] at h2
    cases h2
    exact a3

end

end Lemmas
