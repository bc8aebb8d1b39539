import Verif.Spec.Pandel
import Verif.Lemmas.Dict
import Verif.Lemmas.Pmod
set_option linter.unusedSimpArgs false
namespace Model
open Py Spec

theorem Doc.ind {P : Doc → Prop} (h0 : P .null) (h1 : ∀ b, P (.bool b)) (h2 : ∀ i, P (.int i))
    (h3 : ∀ t, P (.atom t)) (h4 : ∀ s, P (.str s)) (h5 : ∀ xs, (∀ x ∈ xs, P x) → P (.list xs))
    (h6 : ∀ kvs, (∀ kv ∈ kvs, P kv.2) → P (.dict kvs)) : ∀ d, P d := by
  intro d
  refine Doc.rec (motive_1 := P) (motive_2 := fun xs => ∀ x ∈ xs, P x)
    (motive_3 := fun kvs => ∀ kv ∈ kvs, P kv.2) (motive_4 := fun kv => P kv.2)
    h0 h1 h2 h3 h4 h5 h6 ?_ ?_ ?_ ?_ ?_ d
  · simp
  · intro x xs hx hxs y hy
    rcases List.mem_cons.1 hy with e | e
    · subst e; exact hx
    · exact hxs _ e
  · simp
  · intro x xs hx hxs y hy
    rcases List.mem_cons.1 hy with e | e
    · subst e; exact hx
    · exact hxs _ e
  · intro a b hb; exact hb

theorem cloneItems_ok {xs ys : List Doc} (ih : ∀ x ∈ xs, ∀ y, cloneDoc x = .ok y → y = x)
    (h : cloneItems xs = .ok ys) : ys = xs := by
  induction xs generalizing ys with
  | nil => simp [cloneItems] at h; exact h.symm ▸ rfl
  | cons x xs ihx =>
    simp only [cloneItems] at h
    split at h
    · cases h
    · rename_i y hy
      split at h
      · cases h
      · rename_i zs hz
        cases h
        rw [ih x (by simp) y hy, ihx (fun x hx => ih x (by simp [hx])) hz]

/-- Cloning gives an equal value. -/
theorem cloneDoc_eq (x : Doc) : ∀ y, cloneDoc x = .ok y → y = x := by
  induction x using Doc.ind with
  | h0 => intro y h; simp [cloneDoc] at h
  | h1 b => intro y h; simp [cloneDoc] at h; exact h.symm
  | h2 b => intro y h; simp [cloneDoc] at h; exact h.symm
  | h3 b => intro y h; simp [cloneDoc] at h; exact h.symm
  | h4 b => intro y h; simp [cloneDoc] at h; exact h.symm
  | h5 xs ih =>
    intro y h
    simp only [cloneDoc] at h
    split at h
    · cases h
    · rename_i ys hy
      cases h
      rw [cloneItems_ok ih hy]
  | h6 kvs ih => intro y h; simp [cloneDoc] at h; exact h.symm

theorem cloneItems_isOk {xs : List Doc} (ih : ∀ x ∈ xs, (cloneDoc x = .ok x ↔ NoNones x)) :
    cloneItems xs = .ok xs ↔ ∀ x ∈ xs, NoNones x := by
  induction xs with
  | nil => simp [cloneItems]
  | cons x xs ihx =>
    have ihx' := ihx (fun x hx => ih x (by simp [hx]))
    have hx := ih x (by simp)
    simp only [List.mem_cons, forall_eq_or_imp]
    rw [← hx, ← ihx']
    constructor
    · intro h
      have h' := h
      simp only [cloneItems] at h
      split at h
      · cases h
      · rename_i y hy
        split at h
        · cases h
        · rename_i zs hz
          cases h
          exact ⟨hy, hz⟩
    · rintro ⟨ha, hb⟩
      simp [cloneItems, ha, hb]

theorem cloneDoc_isOk (x : Doc) : cloneDoc x = .ok x ↔ NoNones x := by
  induction x using Doc.ind with
  | h0 => constructor
          · intro h; simp [cloneDoc] at h
          · intro h; cases h
  | h1 b => exact ⟨fun _ => .bool b, fun _ => rfl⟩
  | h2 b => exact ⟨fun _ => .int b, fun _ => rfl⟩
  | h3 b => exact ⟨fun _ => .atom b, fun _ => rfl⟩
  | h4 b => exact ⟨fun _ => .str b, fun _ => rfl⟩
  | h6 b => exact ⟨fun _ => .dict b, fun _ => rfl⟩
  | h5 xs ih =>
    constructor
    · intro h
      simp only [cloneDoc] at h
      split at h
      · cases h
      · rename_i ys hy
        cases h
        exact .list _ ((cloneItems_isOk ih).1 hy)
    · intro h
      cases h with
      | list _ h =>
        have := (cloneItems_isOk ih).2 h
        simp [cloneDoc, this]

theorem cloneItems_iff (xs ys : List Doc) : cloneItems xs = .ok ys ↔ ys = xs ∧ ∀ x ∈ xs, NoNones x := by
  constructor
  · intro h
    have e := cloneItems_ok (fun x _ => cloneDoc_eq x) h
    subst e
    exact ⟨rfl, (cloneItems_isOk (fun x _ => cloneDoc_isOk x)).1 h⟩
  · rintro ⟨rfl, h⟩
    exact (cloneItems_isOk (fun x _ => cloneDoc_isOk x)).2 h

theorem cloneDoc_iff (x y : Doc) : cloneDoc x = .ok y ↔ y = x ∧ NoNones x := by
  constructor
  · intro h
    have e := cloneDoc_eq _ _ h
    subst e
    exact ⟨rfl, (cloneDoc_isOk _).1 h⟩
  · rintro ⟨rfl, h⟩
    exact (cloneDoc_isOk _).2 h

/-- Merging of optional values. -/
def mergeOptDoc : Option Doc → Option Doc → Option (Except PyErr Doc)
  | some x, some y => some (mergeDoc x y)
  | some x, none => some (.ok x)
  | none, some y => some (.ok y)
  | none, none => none

theorem mergeItems_get : ∀ (bs as cs : List (Str × Doc)), (dkeys bs).Nodup → mergeItems as bs = .ok cs →
    (∀ k, (dget cs k).map Except.ok = mergeOptDoc (dget as k) (dget bs k)) ∧
    dkeys cs = dkeys as ++ (dkeys bs).filter (fun k => !(dkeys as).contains k) := by
  intro bs
  induction bs with
  | nil =>
    intro as cs _ h
    simp [mergeItems] at h
    subst h
    refine ⟨fun k => ?_, by simp [dkeys]⟩
    cases dget as k <;> simp [mergeOptDoc]
  | cons b t ih =>
    intro as cs hnd h
    obtain ⟨key, bval⟩ := b
    simp only [dkeys, List.map_cons, List.nodup_cons] at hnd
    simp only [mergeItems] at h
    split at h
    · cases h
    · rename_i v hv
      obtain ⟨h1, h2⟩ := ih _ _ hnd.2 h
      have hnone : dget t key = none := (dget_eq_none_iff _ _).2 hnd.1
      constructor
      · intro k
        rw [h1 k, dget_dset, dget_cons]
        by_cases hk : k = key
        · subst hk
          simp only [if_true, hnone]
          cases ha : dget as k with
          | none => rw [ha] at hv; simp at hv; subst hv; rfl
          | some x => rw [ha] at hv; simp at hv; simp [mergeOptDoc, hv]
        · rw [if_neg hk, if_neg (fun e => hk e.symm)]
      · rw [h2, dkeys_dset]
        have e : dkeys ((key, bval) :: t) = key :: dkeys t := rfl
        rw [e, List.filter_cons]
        by_cases hm : key ∈ dkeys as
        · simp [hm]
        · simp only [hm, if_false]
          have hc : (dkeys as).contains key = false := by simpa using hm
          simp only [hc, Bool.not_false, if_true, List.append_assoc, List.singleton_append]
          congr 2
          apply List.filter_congr
          intro k hk
          have hne : k ≠ key := fun e => hnd.1 (e ▸ hk)
          simp [hne]

theorem mergeItems_isOk : ∀ (bs as : List (Str × Doc)), (dkeys bs).Nodup →
    ((∃ cs, mergeItems as bs = .ok cs) ↔
      ∀ k x y, dget as k = some x → dget bs k = some y → ∃ z, mergeDoc x y = .ok z) := by
  intro bs
  induction bs with
  | nil => intro as _; simp [mergeItems]
  | cons b t ih =>
    intro as hnd
    obtain ⟨key, bval⟩ := b
    simp only [dkeys, List.map_cons, List.nodup_cons] at hnd
    have hnone : dget t key = none := (dget_eq_none_iff _ _).2 hnd.1
    constructor
    · rintro ⟨cs, h⟩ k x y hx hy
      simp only [mergeItems] at h
      split at h
      · cases h
      · rename_i v hv
        rw [dget_cons] at hy
        by_cases hk : key = k
        · subst hk
          simp at hy; subst hy
          rw [hx] at hv
          exact ⟨_, hv⟩
        · rw [if_neg hk] at hy
          refine (ih _ hnd.2).1 ⟨_, h⟩ k x y ?_ hy
          rw [dget_dset_ne _ _ (fun e => hk e.symm)]; exact hx
    · intro h
      have hv : ∃ v, mergeItems as ((key, bval) :: t) = mergeItems (dset as key v) t := by
        cases ha : dget as key with
        | none => exact ⟨bval, by simp [mergeItems, ha]⟩
        | some x =>
          obtain ⟨z, hz⟩ := h key x bval ha (by simp [dget_cons])
          exact ⟨z, by simp [mergeItems, ha, hz]⟩
      obtain ⟨v, hv⟩ := hv
      rw [hv]
      apply (ih _ hnd.2).2
      intro k x y hx hy
      have hne : k ≠ key := by
        intro e; subst e; rw [hnone] at hy; cases hy
      rw [dget_dset_ne _ _ hne] at hx
      exact h k x y hx (by rw [dget_cons, if_neg (fun e => hne e.symm)]; exact hy)

theorem keysOk_dict {kvs : List (Str × Doc)} (h : KeysOk (.dict kvs)) :
    (dkeys kvs).Nodup ∧ ∀ k x, dget kvs k = some x → KeysOk x := by
  cases h with
  | dict _ h1 h2 => exact ⟨h1, fun k x hx => h2 _ (mem_of_dget hx)⟩

theorem keysOk_dict_iff {kvs : List (Str × Doc)} : KeysOk (.dict kvs) ↔
    (dkeys kvs).Nodup ∧ ∀ k x, dget kvs k = some x → KeysOk x := by
  refine ⟨keysOk_dict, fun ⟨h1, h2⟩ => .dict _ h1 (fun p hp => h2 p.1 p.2 (dget_of_mem h1 hp))⟩

/-- Cases of a merge that succeeds. -/
theorem mergeDoc_cases {a b c : Doc} (h : mergeDoc a b = .ok c) :
    (b = .null ∧ c = a ∧ NoNones a) ∨
    (∃ bs as cs, b = .dict bs ∧ dictOrEmpty a = .ok as ∧ mergeItems as bs = .ok cs ∧ c = .dict cs) ∨
    (∃ ys, b = .list ys ∧ ¬ isDict a ∧ c = .list ys ∧ NoNones (.list ys)) ∨
    (∃ s, b = .str s ∧ ¬ isDict a ∧ ((∃ xs, a = .list xs) ∧ c = .list (s.map (fun c => .str [c])) ∨
       (∀ xs, a ≠ .list xs) ∧ c = .str s)) ∨
    (b ≠ .null ∧ ¬ isDict b ∧ (∀ ys, b ≠ .list ys) ∧ (∀ s, b ≠ .str s) ∧ ¬ isDict a ∧ (∀ xs, a ≠ .list xs) ∧ c = b) := by
  cases b with
  | null =>
    simp only [mergeDoc] at h
    exact .inl ⟨rfl, (cloneDoc_iff _ _).1 h⟩
  | dict bs =>
    simp only [mergeDoc] at h
    split at h
    · cases h
    · rename_i as ha
      split at h
      · cases h
      · rename_i cs hc
        cases h
        exact .inr (.inl ⟨bs, as, cs, rfl, ha, hc, rfl⟩)
  | list ys =>
    simp only [mergeDoc] at h
    right; right; left
    split at h
    · cases h
    · rename_i hnd
      split at h
      · cases h
      · rename_i zs hz
        cases h
        obtain ⟨rfl, hn⟩ := (cloneItems_iff _ _).1 hz
        refine ⟨_, rfl, ?_, rfl, .list _ hn⟩
        intro hd
        cases a <;> simp [isDict] at hd
        exact hnd _ rfl
  | str s =>
    right; right; right; left
    refine ⟨s, rfl, ?_⟩
    cases a <;> simp [mergeDoc, isDict] at h ⊢ <;> exact h.symm
  | bool x => right; right; right; right; cases a <;> simp [mergeDoc, mergeScalar, isDict] at h ⊢ <;> exact h.symm
  | int x => right; right; right; right; cases a <;> simp [mergeDoc, mergeScalar, isDict] at h ⊢ <;> exact h.symm
  | atom x => right; right; right; right; cases a <;> simp [mergeDoc, mergeScalar, isDict] at h ⊢ <;> exact h.symm

theorem mergeItems_nil (bs cs : List (Str × Doc)) (hnd : (dkeys bs).Nodup) (h : mergeItems [] bs = .ok cs) :
    cs = bs := by
  obtain ⟨h1, h2⟩ := mergeItems_get bs [] cs hnd h
  have hk : dkeys cs = dkeys bs := by
    rw [h2]; simp [dkeys]
  refine assoc_ext (hk ▸ hnd) hk ?_
  intro k _
  have := h1 k
  cases hc : dget cs k <;> cases hb : dget bs k <;> rw [hc, hb] at this <;> simp [mergeOptDoc] at this ⊢
  exact this

theorem merge_over (b : Doc) : ∀ a c, KeysOk a → KeysOk b → ¬ TextOverList a b → mergeDoc a b = .ok c →
    Over a b c := by
  induction b using Doc.ind with
  | h6 bs ih =>
    intro a c ha hb ht h
    rcases mergeDoc_cases h with ⟨e, -⟩ | ⟨bs', as, cs, e, has, hc, rfl⟩ | ⟨_, e, -⟩ | ⟨_, e, -⟩ | ⟨_, e, -⟩
    · cases e
    · cases e
      obtain ⟨hnd, hbk⟩ := keysOk_dict hb
      cases a with
      | null =>
        simp [dictOrEmpty] at has
        subst has
        rw [mergeItems_nil _ _ hnd hc]
        exact .first _ (by simp)
      | dict as' =>
        simp [dictOrEmpty] at has
        subst has
        obtain ⟨h1, -⟩ := mergeItems_get _ _ _ hnd hc
        obtain ⟨-, hak⟩ := keysOk_dict ha
        refine .objects _ _ _ (fun k => (dget cs k).getD .null) ?_ ?_ ?_ ?_
        · intro k hk
          have := h1 k
          rw [hk] at this
          cases hx : dget as' k <;> cases hy : dget cs k <;> rw [hx, hy] at this <;> simp_all [mergeOptDoc]
        · intro k y hx hy
          have := h1 k
          rw [hx, hy] at this
          cases hz : dget cs k <;> rw [hz] at this <;> simp_all [mergeOptDoc]
        · intro k x y hx hy
          have := h1 k
          rw [hx, hy] at this
          cases hz : dget cs k <;> rw [hz] at this <;> simp_all [mergeOptDoc]
        · intro k x y hx hy
          have := h1 k
          rw [hx, hy] at this
          cases hz : dget cs k with
          | none => rw [hz] at this; simp [mergeOptDoc] at this
          | some z =>
            rw [hz] at this
            simp [mergeOptDoc] at this
            refine ih _ (mem_of_dget hy) x z (hak _ _ hx) (hbk _ _ hy) ?_ this.symm
            exact fun hh => ht (.inside _ _ k x y hx hy hh)
      | _ => simp [dictOrEmpty] at has
    · cases e
    · cases e
    · exact absurd trivial e
  | h0 =>
    intro a c ha hb ht h
    rcases mergeDoc_cases h with ⟨-, rfl, hn⟩ | ⟨_, _, _, e, -⟩ | ⟨_, e, -⟩ | ⟨_, e, -⟩ | ⟨e, -⟩
    · exact .keep _ (by rintro rfl; cases hn)
    all_goals first | cases e | exact absurd rfl e
  | h4 s =>
    intro a c ha hb ht h
    rcases mergeDoc_cases h with ⟨e, -⟩ | ⟨_, _, _, e, -⟩ | ⟨_, e, -⟩ | ⟨s', e, hd, h'⟩ | ⟨_, _, _, e, -⟩
    · cases e
    · cases e
    · cases e
    · cases e
      rcases h' with ⟨⟨xs, rfl⟩, -⟩ | ⟨-, rfl⟩
      · exact absurd (.here _ _) ht
      · exact .replace _ _ hd (by simp [isDict]) (by simp)
    · exact absurd rfl (e s)
  | h5 xs _ =>
    intro a c ha hb ht h
    rcases mergeDoc_cases h with ⟨e, -⟩ | ⟨_, _, _, e, -⟩ | ⟨_, e, hd, rfl, -⟩ | ⟨_, e, -⟩ | ⟨_, _, e, -⟩
    · cases e
    · cases e
    · cases e
      exact .replace _ _ hd (by simp [isDict]) (by simp)
    · cases e
    · exact absurd rfl (e _)
  | h1 x =>
    intro a c ha hb ht h
    rcases mergeDoc_cases h with ⟨e, -⟩ | ⟨_, _, _, e, -⟩ | ⟨_, e, -⟩ | ⟨_, e, -⟩ | ⟨hn, hb, _, _, ha, _, rfl⟩
    iterate 4 cases e
    exact .replace _ _ ha hb hn
  | h2 x =>
    intro a c ha hb ht h
    rcases mergeDoc_cases h with ⟨e, -⟩ | ⟨_, _, _, e, -⟩ | ⟨_, e, -⟩ | ⟨_, e, -⟩ | ⟨hn, hb, _, _, ha, _, rfl⟩
    iterate 4 cases e
    exact .replace _ _ ha hb hn
  | h3 x =>
    intro a c ha hb ht h
    rcases mergeDoc_cases h with ⟨e, -⟩ | ⟨_, _, _, e, -⟩ | ⟨_, e, -⟩ | ⟨_, e, -⟩ | ⟨hn, hb, _, _, ha, _, rfl⟩
    iterate 4 cases e
    exact .replace _ _ ha hb hn

theorem merge_defined (b : Doc) : ∀ a, KeysOk a → KeysOk b → ((∃ c, mergeDoc a b = .ok c) ↔ Mergeable a b) := by
  induction b using Doc.ind with
  | h0 =>
    intro a ha hb
    constructor
    · rintro ⟨c, h⟩
      simp only [mergeDoc] at h
      exact .keep _ ((cloneDoc_iff _ _).1 h).2
    · intro h
      cases h with
      | keep _ h => exact ⟨a, (cloneDoc_iff _ _).2 ⟨rfl, h⟩⟩
      | scalar _ _ _ _ h => exact absurd rfl h
  | h6 bs ih =>
    intro a ha hb
    obtain ⟨hnd, hbk⟩ := keysOk_dict hb
    constructor
    · rintro ⟨c, h⟩
      rcases mergeDoc_cases h with ⟨e, -⟩ | ⟨bs', as, cs, e, has, hc, rfl⟩ | ⟨_, e, -⟩ | ⟨_, e, -⟩ | ⟨_, e, -⟩
      · cases e
      · cases e
        cases a with
        | null => exact .first _
        | dict as' =>
          simp [dictOrEmpty] at has
          subst has
          obtain ⟨-, hak⟩ := keysOk_dict ha
          refine .objects _ _ (fun k x y hx hy => ?_)
          exact (ih _ (mem_of_dget hy) x (hak _ _ hx) (hbk _ _ hy)).1
            ((mergeItems_isOk _ _ hnd).1 ⟨_, hc⟩ k x y hx hy)
        | _ => simp [dictOrEmpty] at has
      · cases e
      · cases e
      · exact absurd trivial e
    · intro h
      cases h with
      | first =>
        obtain ⟨cs, hc⟩ := (mergeItems_isOk bs [] hnd).2 (by simp)
        exact ⟨.dict cs, by simp [mergeDoc, dictOrEmpty, hc]⟩
      | objects as _ hm =>
        obtain ⟨-, hak⟩ := keysOk_dict ha
        obtain ⟨cs, hc⟩ := (mergeItems_isOk bs as hnd).2 (fun k x y hx hy =>
          (ih _ (mem_of_dget hy) x (hak _ _ hx) (hbk _ _ hy)).2 (hm k x y hx hy))
        exact ⟨.dict cs, by simp [mergeDoc, dictOrEmpty, hc]⟩
      | scalar _ _ _ _ _ h => exact absurd trivial h
  | h5 ys _ =>
    intro a ha hb
    constructor
    · rintro ⟨c, h⟩
      rcases mergeDoc_cases h with ⟨e, -⟩ | ⟨_, _, _, e, -⟩ | ⟨_, e, hd, _, hn⟩ | ⟨_, e, -⟩ | ⟨_, _, e, -⟩
      · cases e
      · cases e
      · cases e; exact .list _ _ hd hn
      · cases e
      · exact absurd rfl (e _)
    · intro h
      cases h with
      | list _ _ hd hn =>
        have : cloneItems ys = .ok ys := by
          cases hn with
          | list _ h => exact (cloneItems_iff _ _).2 ⟨rfl, h⟩
        refine ⟨.list ys, ?_⟩
        cases a <;> simp [isDict] at hd <;> simp [mergeDoc, this]
      | scalar _ _ _ _ _ _ h => exact absurd rfl (h ys)
  | h4 s =>
    intro a ha hb
    constructor
    · rintro ⟨c, h⟩
      rcases mergeDoc_cases h with ⟨e, -⟩ | ⟨_, _, _, e, -⟩ | ⟨_, e, -⟩ | ⟨s', e, hd, h'⟩ | ⟨_, _, _, e, -⟩
      · cases e
      · cases e
      · cases e
      · exact .text _ _ hd
      · exact absurd rfl (e s)
    · intro h
      have hd : ¬ isDict a := by cases h <;> assumption
      cases a <;> simp [isDict] at hd <;> exact ⟨_, rfl⟩
  | h1 x =>
    intro a ha hb
    constructor
    · rintro ⟨c, h⟩
      rcases mergeDoc_cases h with ⟨e, -⟩ | ⟨_, _, _, e, -⟩ | ⟨_, e, -⟩ | ⟨_, e, -⟩ | ⟨hn, hb, hl, _, ha, hl', rfl⟩
      iterate 4 cases e
      exact .scalar _ _ ha hl' hn hb hl
    · intro h
      cases h with
      | scalar _ _ h1 h2 => cases a <;> simp [isDict] at h1 h2 <;> exact ⟨_, rfl⟩
  | h2 x =>
    intro a ha hb
    constructor
    · rintro ⟨c, h⟩
      rcases mergeDoc_cases h with ⟨e, -⟩ | ⟨_, _, _, e, -⟩ | ⟨_, e, -⟩ | ⟨_, e, -⟩ | ⟨hn, hb, hl, _, ha, hl', rfl⟩
      iterate 4 cases e
      exact .scalar _ _ ha hl' hn hb hl
    · intro h
      cases h with
      | scalar _ _ h1 h2 => cases a <;> simp [isDict] at h1 h2 <;> exact ⟨_, rfl⟩
  | h3 x =>
    intro a ha hb
    constructor
    · rintro ⟨c, h⟩
      rcases mergeDoc_cases h with ⟨e, -⟩ | ⟨_, _, _, e, -⟩ | ⟨_, e, -⟩ | ⟨_, e, -⟩ | ⟨hn, hb, hl, _, ha, hl', rfl⟩
      iterate 4 cases e
      exact .scalar _ _ ha hl' hn hb hl
    · intro h
      cases h with
      | scalar _ _ h1 h2 => cases a <;> simp [isDict] at h1 h2 <;> exact ⟨_, rfl⟩

theorem merge_keysOk (b : Doc) : ∀ a c, KeysOk a → KeysOk b → mergeDoc a b = .ok c → KeysOk c := by
  induction b using Doc.ind with
  | h6 bs ih =>
    intro a c ha hb h
    obtain ⟨hnd, hbk⟩ := keysOk_dict hb
    rcases mergeDoc_cases h with ⟨e, -⟩ | ⟨bs', as, cs, e, has, hc, rfl⟩ | ⟨_, e, -⟩ | ⟨_, e, -⟩ | ⟨_, e, -⟩
    · cases e
    · cases e
      have hA : KeysOk (.dict as) := by
        cases a <;> simp [dictOrEmpty] at has
        · subst has; exact .dict _ (by simp) (by simp)
        · subst has; exact ha
      obtain ⟨hand, hak⟩ := keysOk_dict hA
      obtain ⟨h1, h2⟩ := mergeItems_get _ _ _ hnd hc
      refine keysOk_dict_iff.2 ⟨h2 ▸ nodup_filter_append hand hnd, ?_⟩
      intro k z hz
      have := h1 k
      rw [hz] at this
      cases hx : dget as k with
      | none => cases hy : dget bs k with
        | none => rw [hx, hy] at this; simp [mergeOptDoc] at this
        | some y => rw [hx, hy] at this; simp [mergeOptDoc] at this; subst this; exact hbk _ _ hy
      | some x => cases hy : dget bs k with
        | none => rw [hx, hy] at this; simp [mergeOptDoc] at this; subst this; exact hak _ _ hx
        | some y =>
          rw [hx, hy] at this; simp [mergeOptDoc] at this
          exact ih _ (mem_of_dget hy) x z (hak _ _ hx) (hbk _ _ hy) this.symm
    · cases e
    · cases e
    · exact absurd trivial e
  | _ =>
    intro a c ha hb h
    rcases mergeDoc_cases h with ⟨e, rfl, -⟩ | ⟨_, _, _, e, -⟩ | ⟨_, e, _, rfl, -⟩ | ⟨s, e, _, h'⟩ | ⟨_, _, _, _, _, _, rfl⟩
    · exact ha
    · cases e
    · first | (cases e; done) | (cases e; exact hb)
    · rcases h' with ⟨-, rfl⟩ | ⟨-, rfl⟩
      · refine .list _ ?_
        intro x hx
        obtain ⟨c, -, rfl⟩ := List.mem_map.1 hx
        exact .str _
      · exact .str _
    · exact hb

/-- Values that are no objects nor lists are overridden by anything. -/
theorem merge_absorb {a m r : Doc} (h1 : ¬ isDict a) (h2 : ∀ xs, a ≠ .list xs) (hm : m ≠ .null) (hk : KeysOk m)
    (h : mergeDoc a m = .ok r) : r = m := by
  rcases mergeDoc_cases h with ⟨e, -⟩ | ⟨bs', as, cs, rfl, has, hc, rfl⟩ | ⟨_, rfl, _, rfl, -⟩ | ⟨s, rfl, _, h'⟩ |
      ⟨_, _, _, _, _, _, rfl⟩
  · exact absurd e hm
  · cases a <;> simp [dictOrEmpty] at has
    · subst has
      rw [mergeItems_nil _ _ (keysOk_dict hk).1 hc]
    · exact absurd trivial h1
  · rfl
  · rcases h' with ⟨⟨xs, e⟩, -⟩ | ⟨-, rfl⟩
    · exact absurd e (h2 xs)
    · rfl
  · rfl

theorem merge_null_ne {b c r : Doc} (h : mergeDoc b c = .ok r) : r ≠ .null := by
  rcases mergeDoc_cases h with ⟨e, rfl, hn⟩ | ⟨_, _, _, _, _, _, rfl⟩ | ⟨_, _, _, rfl, -⟩ | ⟨s, _, _, h'⟩ | ⟨hn, _, _, _, _, _, rfl⟩
  · rintro rfl; cases hn
  · simp
  · simp
  · rcases h' with ⟨-, rfl⟩ | ⟨-, rfl⟩ <;> simp
  · exact hn

theorem mergeDoc_dicts {as bs : List (Str × Doc)} {c : Doc} (h : mergeDoc (.dict as) (.dict bs) = .ok c) :
    ∃ cs, c = .dict cs ∧ mergeItems as bs = .ok cs := by
  simp only [mergeDoc, dictOrEmpty] at h
  split at h
  · cases h
  · rename_i cs hc
    cases h
    exact ⟨cs, rfl, hc⟩

theorem map_ok_some {x : Option Doc} {y : Doc} (h : x.map (Except.ok (ε := PyErr)) = some (.ok y)) : x = some y := by
  cases x with
  | none => cases h
  | some x => simp at h; rw [h]

theorem map_ok_none {x : Option Doc} (h : x.map (Except.ok (ε := PyErr)) = none) : x = none := by
  cases x with
  | none => rfl
  | some x => simp at h

theorem opt_assoc {x y z ab bc r1 r2 : Option Doc} (e1 : ab.map Except.ok = mergeOptDoc x y)
    (e2 : r1.map Except.ok = mergeOptDoc ab z) (e3 : bc.map Except.ok = mergeOptDoc y z)
    (e4 : r2.map Except.ok = mergeOptDoc x bc)
    (ih : ∀ x' y' z' xy yz w w', x = some x' → y = some y' → z = some z' → mergeDoc x' y' = .ok xy →
      mergeDoc xy z' = .ok w → mergeDoc y' z' = .ok yz → mergeDoc x' yz = .ok w' → w = w') : r1 = r2 := by
  cases y with
  | none =>
    have h1 : ab = x := by
      cases x with
      | none => exact map_ok_none e1
      | some x => exact map_ok_some e1
    have h2 : bc = z := by
      cases z with
      | none => exact map_ok_none e3
      | some x => exact map_ok_some e3
    subst h1; subst h2
    rw [← e2] at e4
    cases r1 <;> cases r2 <;> simp at e4 ⊢
    exact e4.symm
  | some y =>
    cases x with
    | none =>
      have h1 : ab = some y := map_ok_some e1
      subst h1
      rw [← e3] at e2
      cases bc with
      | none => cases z <;> simp [mergeOptDoc] at e3
      | some bc =>
        have h4 : r2 = some bc := map_ok_some e4
        have h2 : r1 = some bc := map_ok_some e2
        rw [h2, h4]
    | some x =>
      cases z with
      | none =>
        have h3 : bc = some y := map_ok_some e3
        subst h3
        rw [← e1] at e4
        cases ab with
        | none => simp [mergeOptDoc] at e1
        | some ab =>
          have h4 : r2 = some ab := map_ok_some e4
          have h2 : r1 = some ab := map_ok_some e2
          rw [h2, h4]
      | some z =>
        cases ab with
        | none => simp [mergeOptDoc] at e1
        | some ab => cases bc with
          | none => simp [mergeOptDoc] at e3
          | some bc => cases r1 with
            | none => simp [mergeOptDoc] at e2
            | some r1 => cases r2 with
              | none => simp [mergeOptDoc] at e4
              | some r2 =>
                simp only [Option.map_some, mergeOptDoc, Option.some.injEq] at e1 e2 e3 e4
                congr 1
                exact ih x y z ab bc r1 r2 rfl rfl rfl e1.symm e2.symm e3.symm e4.symm

theorem keys_assoc (a b c : List Str) :
    (a ++ b.filter (fun k => !a.contains k)) ++ c.filter (fun k => !(a ++ b.filter (fun k => !a.contains k)).contains k) =
    a ++ (b ++ c.filter (fun k => !b.contains k)).filter (fun k => !a.contains k) := by
  rw [List.filter_append, List.append_assoc, List.filter_filter]
  congr 2
  apply List.filter_congr
  intro k hk
  by_cases h1 : k ∈ a <;> by_cases h2 : k ∈ b <;> simp [h1, h2]

theorem mergeDoc_assoc (b : Doc) : ∀ a c ab bc r1 r2, KeysOk a → KeysOk b → KeysOk c →
    mergeDoc a b = .ok ab → mergeDoc ab c = .ok r1 → mergeDoc b c = .ok bc → mergeDoc a bc = .ok r2 → r1 = r2 := by
  induction b using Doc.ind with
  | h6 bs ih =>
    intro a c ab bc r1 r2 ha hb hc h1 h2 h3 h4
    obtain ⟨hbn, hbk⟩ := keysOk_dict hb
    cases a with
    | null =>
      have e := merge_absorb (by simp [isDict]) (by simp) (by simp) hb h1
      subst e
      have e := merge_absorb (by simp [isDict]) (by simp) (merge_null_ne h3) (merge_keysOk _ _ _ hb hc h3) h4
      rw [h2] at h3; cases h3; exact e.symm
    | dict as =>
      obtain ⟨han, hak⟩ := keysOk_dict ha
      cases c with
      | null =>
        rcases mergeDoc_cases h2 with ⟨-, rfl, -⟩ | ⟨_, _, _, e, -⟩ | ⟨_, e, -⟩ | ⟨_, e, -⟩ | ⟨e, -⟩
        · rcases mergeDoc_cases h3 with ⟨-, rfl, -⟩ | ⟨_, _, _, e, -⟩ | ⟨_, e, -⟩ | ⟨_, e, -⟩ | ⟨e, -⟩
          · rw [h1] at h4; cases h4; rfl
          all_goals first | cases e | exact absurd rfl e
        all_goals first | cases e | exact absurd rfl e
      | dict cs =>
        obtain ⟨hcn, hck⟩ := keysOk_dict hc
        obtain ⟨abs, rfl, hab⟩ := mergeDoc_dicts h1
        obtain ⟨r1s, rfl, hr1⟩ := mergeDoc_dicts h2
        obtain ⟨bcs, rfl, hbc⟩ := mergeDoc_dicts h3
        obtain ⟨r2s, rfl, hr2⟩ := mergeDoc_dicts h4
        obtain ⟨g1, k1⟩ := mergeItems_get _ _ _ hbn hab
        obtain ⟨g2, k2⟩ := mergeItems_get _ _ _ hcn hr1
        obtain ⟨g3, k3⟩ := mergeItems_get _ _ _ hcn hbc
        have hbcn : (dkeys bcs).Nodup := by rw [k3]; exact nodup_filter_append hbn hcn
        have habn : (dkeys abs).Nodup := by rw [k1]; exact nodup_filter_append han hbn
        obtain ⟨g4, k4⟩ := mergeItems_get _ _ _ hbcn hr2
        have hk : dkeys r1s = dkeys r2s := by
          rw [k2, k4, k1, k3]; exact keys_assoc _ _ _
        congr 1
        refine assoc_ext ?_ hk ?_
        · rw [k2]; exact nodup_filter_append habn hcn
        · intro k _
          refine opt_assoc (g1 k) (g2 k) (g3 k) (g4 k) ?_
          intro x y z xy yz w w' hx hy hz e1 e2 e3 e4
          exact ih _ (mem_of_dget hy) x z xy yz w w' (hak _ _ hx) (hbk _ _ hy) (hck _ _ hz) e1 e2 e3 e4
      | _ => simp [mergeDoc, mergeScalar] at h3
    | _ => simp [mergeDoc, dictOrEmpty] at h1
  | h0 =>
    intro a c ab bc r1 r2 ha hb hc h1 h2 h3 h4
    have e : ab = a := by
      simp only [mergeDoc] at h1; exact ((cloneDoc_iff _ _).1 h1).1
    subst e
    have hcn : c ≠ .null := by rintro rfl; simp [mergeDoc, cloneDoc] at h3
    have e := merge_absorb (by simp [isDict]) (by simp) hcn hc h3
    subst e
    rw [h2] at h4; cases h4; rfl
  | h5 ys _ =>
    intro a c ab bc r1 r2 ha hb hc h1 h2 h3 h4
    have e : ab = .list ys ∧ ¬ isDict a := by
      rcases mergeDoc_cases h1 with ⟨e, -⟩ | ⟨_, _, _, e, -⟩ | ⟨_, e, hd, rfl, _⟩ | ⟨_, e, -⟩ | ⟨_, _, e, -⟩
      · cases e
      · cases e
      · cases e; exact ⟨rfl, hd⟩
      · cases e
      · exact absurd rfl (e _)
    obtain ⟨rfl, hd⟩ := e
    have e : r1 = bc := by rw [h2] at h3; cases h3; rfl
    subst e
    -- the result is a list
    have hl : ∃ zs, r1 = .list zs := by
      rcases mergeDoc_cases h2 with ⟨_, rfl, -⟩ | ⟨_, _, _, _, e, _⟩ | ⟨_, _, _, rfl, _⟩ | ⟨_, _, _, h'⟩ | ⟨_, _, _, _, _, e, _⟩
      · exact ⟨_, rfl⟩
      · simp [dictOrEmpty] at e
      · exact ⟨_, rfl⟩
      · rcases h' with ⟨-, rfl⟩ | ⟨e, -⟩
        · exact ⟨_, rfl⟩
        · exact absurd rfl (e _)
      · exact absurd rfl (e _)
    obtain ⟨zs, rfl⟩ := hl
    rcases mergeDoc_cases h4 with ⟨e, -⟩ | ⟨_, _, _, e, -⟩ | ⟨_, e, hd, rfl, _⟩ | ⟨_, e, -⟩ | ⟨_, _, e, -⟩
    · cases e
    · cases e
    · cases e; rfl
    · cases e
    · exact absurd rfl (e _)
  | h4 s =>
    intro a c ab bc r1 r2 ha hb hc h1 h2 h3 h4
    rcases mergeDoc_cases h1 with ⟨e, -⟩ | ⟨_, _, _, e, -⟩ | ⟨_, e, -⟩ | ⟨s', e, hd, h'⟩ | ⟨_, _, _, e, -⟩
    · cases e
    · cases e
    · cases e
    · cases e
      rcases h' with ⟨⟨xs, rfl⟩, rfl⟩ | ⟨hl, rfl⟩
      · -- an exploded text
        rcases mergeDoc_cases h2 with ⟨rfl, rfl, -⟩ | ⟨_, _, _, _, e, _⟩ | ⟨_, rfl, _, rfl, _⟩ | ⟨s2, rfl, _, h'⟩ | ⟨_, _, _, _, _, e, _⟩
        · simp [mergeDoc, cloneDoc] at h3
          subst h3
          rw [h1] at h4; cases h4; rfl
        · simp [dictOrEmpty] at e
        · have e := merge_absorb (by simp [isDict]) (by simp) (by simp) hc h3
          subst e
          rcases mergeDoc_cases h4 with ⟨e, -⟩ | ⟨_, _, _, e, -⟩ | ⟨_, e, hd, rfl, _⟩ | ⟨_, e, -⟩ | ⟨_, _, e, -⟩
          · cases e
          · cases e
          · cases e; rfl
          · cases e
          · exact absurd rfl (e _)
        · simp [mergeDoc] at h3
          subst h3
          simp [mergeDoc] at h4
          subst h4
          rcases h' with ⟨-, rfl⟩ | ⟨e, -⟩
          · rfl
          · exact absurd rfl (e _)
        · exact absurd rfl (e _)
      · rw [h2] at h3
        cases h3
        exact (merge_absorb hd hl (merge_null_ne h2) (merge_keysOk _ _ _ hb hc h2) h4).symm
    · exact absurd rfl (e s)
  | _ =>
    intro a c ab bc r1 r2 ha hb hc h1 h2 h3 h4
    rcases mergeDoc_cases h1 with ⟨e, -⟩ | ⟨_, _, _, e, -⟩ | ⟨_, e, -⟩ | ⟨_, e, -⟩ | ⟨hn, hb', _, _, ha', hl, rfl⟩
    iterate 4 cases e
    rw [h2] at h3
    cases h3
    exact (merge_absorb ha' hl (merge_null_ne h2) (merge_keysOk _ _ _ hb hc h2) h4).symm

end Model
