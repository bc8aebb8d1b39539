import Verif.Spec.Pmod
import Verif.Lemmas.Dict
set_option linter.unusedSimpArgs false
namespace Model
open Py Spec

theorem Pmod.ind {P : Pmod → Prop}
    (h : ∀ a s r, (∀ kv ∈ s, P kv.2) → (∀ kv ∈ r, P kv.2) → P (.mk a s r)) : ∀ p, P p := by
  intro p
  refine Pmod.rec (motive_1 := P) (motive_2 := fun l => ∀ kv ∈ l, P kv.2)
    (motive_3 := fun kv => P kv.2) ?_ ?_ ?_ ?_ p
  · intro a s r hs hr; exact h a s r hs hr
  · simp
  · intro hd tl h1 h2 kv hkv
    rcases List.mem_cons.1 hkv with e | e
    · subst e; exact h1
    · exact h2 kv e
  · intro a b hb; exact hb

/-- Merging of optional pmods. -/
def mergeOpt : Option Pmod → Option Pmod → Option Pmod
  | some x, some y => some (x.merge y)
  | some x, none => some x
  | none, y => y

@[simp] theorem mergeOpt_none_left (y) : mergeOpt none y = y := by cases y <;> rfl
@[simp] theorem mergeOpt_none_right (x) : mergeOpt x none = x := by cases x <;> rfl
@[simp] theorem mergeOpt_some (x y) : mergeOpt (some x) (some y) = some (x.merge y) := rfl

theorem mergeSteps_get (s' : List (Str × Pmod)) : ∀ s, (dkeys s').Nodup → ∀ k,
    dget (Pmod.mergeSteps s s') k = mergeOpt (dget s k) (dget s' k) := by
  induction s' with
  | nil => intro s _ k; simp [Pmod.mergeSteps]
  | cons kv t ih =>
    intro s hnd k
    obtain ⟨name, o⟩ := kv
    simp only [dkeys, List.map_cons, List.nodup_cons] at hnd
    rw [Pmod.mergeSteps, ih _ hnd.2, dget_dset, dget_cons]
    by_cases h : k = name
    · subst h
      have : dget t k = none := (dget_eq_none_iff _ _).2 hnd.1
      simp only [this, if_true, mergeOpt_none_right]
      cases dget s k <;> simp
    · simp [h, Ne.symm h]

theorem mergeSteps_keys (s' : List (Str × Pmod)) : ∀ s, (dkeys s').Nodup →
    dkeys (Pmod.mergeSteps s s') = dkeys s ++ (dkeys s').filter (fun k => !(dkeys s).contains k) := by
  induction s' with
  | nil => intro s _; simp [Pmod.mergeSteps, dkeys]
  | cons kv t ih =>
    intro s hnd
    obtain ⟨name, o⟩ := kv
    simp only [dkeys, List.map_cons, List.nodup_cons] at hnd
    rw [Pmod.mergeSteps, ih _ hnd.2, dkeys_dset]
    have e : dkeys ((name, o) :: t) = name :: dkeys t := rfl
    rw [e, List.filter_cons]
    by_cases h : name ∈ dkeys s
    · simp [h]
    · simp only [h, if_false]
      have hc : (dkeys s).contains name = false := by simpa using h
      simp only [hc, Bool.not_false, if_true, List.append_assoc, List.singleton_append]
      congr 2
      apply List.filter_congr
      intro x hx
      have hxn : x ≠ name := fun e => hnd.1 (e ▸ hx)
      simp [hxn]

theorem mergeRegxs_get (r : List (Str × Pmod)) (r' : List (Str × Pmod)) (k : Str) :
    dget (Pmod.mergeRegxs r r') k = (dget r' k).map (fun y => match dget r k with
      | some x => x.merge y
      | none => y) := by
  induction r' with
  | nil => simp [Pmod.mergeRegxs]
  | cons kv t ih =>
    obtain ⟨name, o⟩ := kv
    rw [Pmod.mergeRegxs, dget_cons, dget_cons, ih]
    split
    · next h => subst h; simp only [Option.map_some]; cases dget r name <;> rfl
    · rfl

theorem mergeRegxs_keys (r r' : List (Str × Pmod)) : dkeys (Pmod.mergeRegxs r r') = dkeys r' := by
  induction r' with
  | nil => simp [Pmod.mergeRegxs]
  | cons kv t ih =>
    obtain ⟨name, o⟩ := kv
    simp only [Pmod.mergeRegxs, dkeys, List.map_cons] at *
    rw [ih]

theorem merge_alias (x y : Pmod) : (x.merge y).alias = y.alias.or x.alias := by
  obtain ⟨a, s, r⟩ := x; obtain ⟨a', s', r'⟩ := y
  rw [Pmod.merge]
  cases a' <;> simp [Pmod.alias]

theorem merge_steps_get (x y : Pmod) (h : (dkeys y.steps).Nodup) (k : Str) :
    dget (x.merge y).steps k = mergeOpt (dget x.steps k) (dget y.steps k) := by
  obtain ⟨a, s, r⟩ := x; obtain ⟨a', s', r'⟩ := y
  rw [Pmod.merge]
  simp only [Pmod.steps] at *
  split
  · next e => rw [List.isEmpty_iff] at e; subst e; simp
  · split
    · next e => rw [List.isEmpty_iff] at e; subst e; simp
    · exact mergeSteps_get _ _ h _

theorem merge_steps_keys (x y : Pmod) (h : (dkeys y.steps).Nodup) :
    dkeys (x.merge y).steps = dkeys x.steps ++ (dkeys y.steps).filter (fun k => !(dkeys x.steps).contains k) := by
  obtain ⟨a, s, r⟩ := x; obtain ⟨a', s', r'⟩ := y
  rw [Pmod.merge]
  simp only [Pmod.steps] at *
  split
  · next e => rw [List.isEmpty_iff] at e; subst e; simp [dkeys]
  · split
    · next e => rw [List.isEmpty_iff] at e; subst e; simp [dkeys, List.filter_eq_self.2]
    · exact mergeSteps_keys _ _ h

theorem merge_regxs_keys (x y : Pmod) :
    dkeys (x.merge y).regxs = (dkeys x.regxs).filter (fun k => !(dkeys y.regxs).contains k) ++ dkeys y.regxs := by
  obtain ⟨a, s, r⟩ := x; obtain ⟨a', s', r'⟩ := y
  rw [Pmod.merge]
  simp only [Pmod.regxs] at *
  split
  · next e => rw [List.isEmpty_iff] at e; subst e; simp [dkeys, List.filter_eq_self.2]
  · split
    · next e => rw [List.isEmpty_iff] at e; subst e; simp [dkeys]
    · have := mergeRegxs_keys r r'
      simp only [dkeys, List.map_append] at *
      rw [this, List.filter_map]; rfl

theorem merge_regxs_get (x y : Pmod) (k : Str) :
    dget (x.merge y).regxs k = mergeOpt (dget x.regxs k) (dget y.regxs k) := by
  obtain ⟨a, s, r⟩ := x; obtain ⟨a', s', r'⟩ := y
  rw [Pmod.merge]
  simp only [Pmod.regxs] at *
  split
  · next e => rw [List.isEmpty_iff] at e; subst e; simp
  · split
    · next e => rw [List.isEmpty_iff] at e; subst e; simp
    · rw [dget_append, dget_filter_key (p := fun k => !(dkeys r').contains k), mergeRegxs_get]
      by_cases hk : k ∈ dkeys r'
      · obtain ⟨v, hv⟩ := (mem_dkeys_iff _ _).1 hk
        have hc : (dkeys r').contains k = true := by simpa using hk
        simp only [hc, hv]
        cases dget r k <;> simp
      · have hv : dget r' k = none := (dget_eq_none_iff _ _).2 hk
        have hc : (dkeys r').contains k = false := by simpa using hk
        simp only [hc, hv]
        simp

theorem Pmod.ext' {x y : Pmod} (h1 : x.alias = y.alias) (h2 : x.steps = y.steps) (h3 : x.regxs = y.regxs) :
    x = y := by
  obtain ⟨a, s, r⟩ := x; obtain ⟨a', s', r'⟩ := y
  simp only [Pmod.alias, Pmod.steps, Pmod.regxs] at *
  subst h1; subst h2; subst h3; rfl

/-- Association lists with distinct keys, equal keys in order and equal lookups are equal. -/
theorem assoc_ext {α β : Type} [DecidableEq α] {l m : List (α × β)} (hl : (dkeys l).Nodup)
    (hk : dkeys l = dkeys m) (hg : ∀ k ∈ dkeys l, dget l k = dget m k) : l = m := by
  induction l generalizing m with
  | nil => cases m with
    | nil => rfl
    | cons a t => simp [dkeys] at hk
  | cons a t ih =>
    cases m with
    | nil => simp [dkeys] at hk
    | cons b u =>
      obtain ⟨k, v⟩ := a; obtain ⟨k', v'⟩ := b
      simp only [dkeys, List.map_cons, List.cons.injEq] at hk
      obtain ⟨e, hk⟩ := hk
      subst e
      have h0 := hg k (by simp [dkeys])
      simp [dget_cons] at h0
      subst h0
      simp only [dkeys, List.map_cons, List.nodup_cons] at hl
      congr 1
      apply ih hl.2 hk
      intro k2 h2
      have h3 := hg k2 (by simp only [dkeys, List.map_cons, List.mem_cons]; exact Or.inr h2)
      have hne : k ≠ k2 := fun e => hl.1 (e ▸ h2)
      simpa [dget_cons, hne] using h3

theorem _root_.Spec.DistinctKeys.steps_nodup {x : Pmod} (h : DistinctKeys x) : (dkeys x.steps).Nodup := by
  cases h; assumption
theorem _root_.Spec.DistinctKeys.regxs_nodup {x : Pmod} (h : DistinctKeys x) : (dkeys x.regxs).Nodup := by
  cases h; assumption
theorem _root_.Spec.DistinctKeys.step {x c : Pmod} (h : DistinctKeys x) {k} (hc : dget x.steps k = some c) :
    DistinctKeys c := by
  cases h with
  | mk a s r h1 h2 h3 h4 => exact h3 _ (mem_of_dget hc)
theorem _root_.Spec.DistinctKeys.regx {x c : Pmod} (h : DistinctKeys x) {k} (hc : dget x.regxs k = some c) :
    DistinctKeys c := by
  cases h with
  | mk a s r h1 h2 h3 h4 => exact h4 _ (mem_of_dget hc)

theorem distinctKeys_iff (x : Pmod) : DistinctKeys x ↔ (dkeys x.steps).Nodup ∧ (dkeys x.regxs).Nodup ∧
    (∀ k c, dget x.steps k = some c → DistinctKeys c) ∧ (∀ k c, dget x.regxs k = some c → DistinctKeys c) := by
  constructor
  · intro h; exact ⟨h.steps_nodup, h.regxs_nodup, fun _ _ => h.step, fun _ _ => h.regx⟩
  · rintro ⟨h1, h2, h3, h4⟩
    obtain ⟨a, s, r⟩ := x
    exact .mk a s r h1 h2 (fun kv hk => h3 kv.1 kv.2 (dget_of_mem h1 hk))
      (fun kv hk => h4 kv.1 kv.2 (dget_of_mem h2 hk))

theorem mergeOpt_distinct {P : Pmod → Prop} {x y : Option Pmod} {c}
    (hx : ∀ z, x = some z → P z) (hy : ∀ z, y = some z → P z)
    (hm : ∀ z w, x = some z → y = some w → P (z.merge w)) (h : mergeOpt x y = some c) : P c := by
  cases x with
  | none => simp at h; exact hy _ h
  | some x => cases y with
    | none => simp at h; exact hx _ (by rw [h])
    | some y => simp at h; subst h; exact hm _ _ rfl rfl

theorem nodup_filter_append {a b : List Str} (ha : a.Nodup) (hb : b.Nodup) :
    (a ++ b.filter (fun k => !a.contains k)).Nodup := by
  rw [List.nodup_append]
  refine ⟨ha, hb.filter _, ?_⟩
  intro x hx y hy e
  subst e
  rw [List.mem_filter] at hy
  simp [hx] at hy

theorem nodup_filter_append' {a b : List Str} (ha : a.Nodup) (hb : b.Nodup) :
    (a.filter (fun k => !b.contains k) ++ b).Nodup := by
  rw [List.nodup_append]
  refine ⟨ha.filter _, hb, ?_⟩
  intro x hx y hy e
  subst e
  rw [List.mem_filter] at hx
  simp [hy] at hx

theorem merge_distinct : ∀ (x y : Pmod), DistinctKeys x → DistinctKeys y → DistinctKeys (x.merge y) := by
  intro x
  induction x using Pmod.ind with
  | h a s r hs hr =>
    intro y hx hy
    rw [distinctKeys_iff]
    have hx' := hx
    have hy' := hy
    rw [distinctKeys_iff] at hx' hy'
    obtain ⟨x1, x2, x3, x4⟩ := hx'
    obtain ⟨y1, y2, y3, y4⟩ := hy'
    refine ⟨?_, ?_, ?_, ?_⟩
    · rw [merge_steps_keys _ _ y1]; exact nodup_filter_append x1 y1
    · rw [merge_regxs_keys]; exact nodup_filter_append' x2 y2
    · intro k c hc
      rw [merge_steps_get _ _ y1] at hc
      exact mergeOpt_distinct (fun z hz => x3 k z hz) (fun z hz => y3 k z hz)
        (fun z w hz hw => hs (k, z) (mem_of_dget hz) w (x3 k z hz) (y3 k w hw)) hc
    · intro k c hc
      rw [merge_regxs_get] at hc
      exact mergeOpt_distinct (fun z hz => x4 k z hz) (fun z hz => y4 k z hz)
        (fun z w hz hw => hr (k, z) (mem_of_dget hz) w (x4 k z hz) (y4 k w hw)) hc

theorem contains_eq_decide (l : List Str) (k : Str) : l.contains k = decide (k ∈ l) := by
  simp

theorem merge_assoc : ∀ (x y z : Pmod), DistinctKeys x → DistinctKeys y → DistinctKeys z →
    (x.merge y).merge z = x.merge (y.merge z) := by
  intro x
  induction x using Pmod.ind with
  | h a s r hs hr =>
    intro y z hx hy hz
    have hxy := merge_distinct _ _ hx hy
    have hyz := merge_distinct _ _ hy hz
    apply Pmod.ext'
    · simp only [merge_alias]
      cases z.alias <;> simp
    · apply assoc_ext (merge_distinct _ _ hxy hz).steps_nodup
      · rw [merge_steps_keys _ _ hz.steps_nodup, merge_steps_keys _ _ hyz.steps_nodup,
          merge_steps_keys _ _ hy.steps_nodup, merge_steps_keys _ _ hz.steps_nodup]
        rw [List.filter_append, ← List.append_assoc]
        congr 1
        rw [List.filter_filter]
        apply List.filter_congr
        intro k _
        simp only [contains_eq_decide, List.mem_append, List.mem_filter]
        by_cases h1 : k ∈ dkeys (Pmod.mk a s r).steps <;> by_cases h2 : k ∈ dkeys y.steps <;> simp [h1, h2]
      · intro k _
        rw [merge_steps_get _ _ hz.steps_nodup, merge_steps_get _ _ hyz.steps_nodup,
          merge_steps_get _ _ hy.steps_nodup, merge_steps_get _ _ hz.steps_nodup]
        cases h1 : dget (Pmod.mk a s r).steps k with
        | none => simp
        | some u => cases h2 : dget y.steps k with
          | none => simp
          | some v => cases h3 : dget z.steps k with
            | none => simp
            | some w =>
              simp only [mergeOpt_some]
              rw [hs (k, u) (mem_of_dget h1) v w (hx.step h1) (hy.step h2) (hz.step h3)]
    · apply assoc_ext (merge_distinct _ _ hxy hz).regxs_nodup
      · simp only [merge_regxs_keys, List.filter_append, List.append_assoc]
        congr 1
        rw [List.filter_filter]
        apply List.filter_congr
        intro k _
        simp only [contains_eq_decide, List.mem_append, List.mem_filter]
        by_cases h1 : k ∈ dkeys z.regxs <;> by_cases h2 : k ∈ dkeys y.regxs <;> simp [h1, h2]
      · intro k _
        simp only [merge_regxs_get]
        cases h1 : dget (Pmod.mk a s r).regxs k with
        | none => simp
        | some u => cases h2 : dget y.regxs k with
          | none => simp
          | some v => cases h3 : dget z.regxs k with
            | none => simp
            | some w =>
              simp only [mergeOpt_some]
              rw [hr (k, u) (mem_of_dget h1) v w (hx.regx h1) (hy.regx h2) (hz.regx h3)]

theorem merge_self : ∀ (x : Pmod), DistinctKeys x → x.merge x = x := by
  intro x
  induction x using Pmod.ind with
  | h a s r hs hr =>
    intro hx
    have hn1 := hx.steps_nodup
    have hn2 := hx.regxs_nodup
    apply Pmod.ext'
    · rw [merge_alias]; cases (Pmod.mk a s r).alias <;> simp
    · symm
      apply assoc_ext hn1
      · rw [merge_steps_keys _ _ hn1]
        have : (dkeys (Pmod.mk a s r).steps).filter (fun k => !(dkeys (Pmod.mk a s r).steps).contains k) = [] := by
          rw [List.filter_eq_nil_iff]; intro k hk; simp [hk]
        rw [this]; simp
      · intro k hk
        rw [merge_steps_get _ _ hn1]
        obtain ⟨v, hv⟩ := (mem_dkeys_iff _ _).1 hk
        rw [hv, mergeOpt_some, hs (k, v) (mem_of_dget hv) (hx.step hv)]
    · symm
      apply assoc_ext hn2
      · rw [merge_regxs_keys]
        have : (dkeys (Pmod.mk a s r).regxs).filter (fun k => !(dkeys (Pmod.mk a s r).regxs).contains k) = [] := by
          rw [List.filter_eq_nil_iff]; intro k hk; simp [hk]
        rw [this]; simp
      · intro k hk
        rw [merge_regxs_get]
        obtain ⟨v, hv⟩ := (mem_dkeys_iff _ _).1 hk
        rw [hv, mergeOpt_some, hr (k, v) (mem_of_dget hv) (hx.regx hv)]

theorem merge_empty_left (x : Pmod) : Pmod.empty.merge x = x := by
  obtain ⟨a, s, r⟩ := x
  rw [Pmod.empty, Pmod.merge]
  cases a <;> cases s <;> cases r <;> simp

theorem merge_empty_right (x : Pmod) : x.merge Pmod.empty = x := by
  obtain ⟨a, s, r⟩ := x
  rw [Pmod.empty, Pmod.merge]
  simp

/-- nodes of a merge -/
theorem nodeAt_merge (ks : List Key) : ∀ (x y : Pmod), DistinctKeys x → DistinctKeys y →
    nodeAt (x.merge y) ks = mergeOpt (nodeAt x ks) (nodeAt y ks) := by
  induction ks with
  | nil => intro x y _ _; rfl
  | cons k ks ih =>
    intro x y hx hy
    cases k with
    | name n =>
      simp only [nodeAt, merge_steps_get _ _ hy.steps_nodup]
      cases h1 : dget x.steps n with
      | none => simp
      | some u => cases h2 : dget y.steps n with
        | none => simp
        | some v => simp [ih u v (hx.step h1) (hy.step h2)]
    | regx n =>
      simp only [nodeAt, merge_regxs_get]
      cases h1 : dget x.regxs n with
      | none => simp
      | some u => cases h2 : dget y.regxs n with
        | none => simp
        | some v => simp [ih u v (hx.regx h1) (hy.regx h2)]

theorem aliasAt_merge (ks : List Key) (x y : Pmod) (hx : DistinctKeys x) (hy : DistinctKeys y) :
    aliasAt (x.merge y) ks = (aliasAt y ks).or (aliasAt x ks) := by
  unfold aliasAt
  rw [nodeAt_merge _ _ _ hx hy]
  cases nodeAt x ks <;> cases nodeAt y ks <;> simp [merge_alias]

theorem regxsAt_merge (ks : List Key) (x y : Pmod) (hx : DistinctKeys x) (hy : DistinctKeys y) :
    regxsAt (x.merge y) ks =
      (regxsAt x ks).filter (fun k => !(regxsAt y ks).contains k) ++ regxsAt y ks := by
  unfold regxsAt
  rw [nodeAt_merge _ _ _ hx hy]
  cases nodeAt x ks with
  | none => cases nodeAt y ks <;> simp
  | some u => cases nodeAt y ks with
    | none => simp [List.filter_eq_self.2]
    | some v =>
      have := merge_regxs_keys u v
      simpa [dkeys] using this

end Model
