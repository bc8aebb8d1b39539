import Verif.Spec.Visitor
import Verif.Props.PandelRules
set_option linter.unusedSimpArgs false
/-
The walk of a validation in closed form.
-/
namespace Spec
open Py Model

theorem Throughout.here {P : VSchema → Prop} {s : VSchema} (h : Throughout P s) : P s := by
  cases h; assumption

theorem Throughout.inside {P : VSchema → Prop} {s t : VSchema} (h : Throughout P s) (w : PartOf s t) :
    Throughout P t := by
  cases h with | mk _ _ h => exact h t w

end Spec

namespace Props
open Py Model Spec

/-! ### Induction on schemas -/

private def KwAll (P : VSchema → Prop) : VKw → Prop
  | .properties ps => ∀ p ∈ ps, P p.2
  | .additionalS s => P s
  | .propertyNames s => P s
  | .items s => P s
  | _ => True

theorem VSchema.ind {P : VSchema → Prop} (h : ∀ s, (∀ t, PartOf s t → P t) → P s) : ∀ s, P s := by
  intro s
  refine VSchema.rec (motive_1 := P) (motive_2 := KwAll P) (motive_3 := fun l => ∀ kw ∈ l, KwAll P kw)
    (motive_4 := fun l => ∀ p ∈ l, P p.2) (motive_5 := fun p => P p.2) ?_ ?_ ?_ ?_ ?_ ?_ ?_ ?_ ?_ ?_ ?_ ?_ ?_ ?_ s
  · intro kws d a b c hk
    refine h _ ?_
    intro t ht
    cases ht with
    | property ps k _ h1 h2 => exact hk _ h1 _ h2
    | additional _ h1 => exact hk _ h1
    | names _ h1 => exact hk _ h1
    | items _ h1 => exact hk _ h1
  · intros; trivial
  · intro ps hps; exact hps
  · intros; trivial
  · intros; trivial
  · intro s hs; exact hs
  · intro s hs; exact hs
  · intros; trivial
  · intro s hs; exact hs
  · simp
  · intro kw t h1 h2 q hq
    rcases List.mem_cons.1 hq with rfl | hq
    · exact h1
    · exact h2 _ hq
  · simp
  · intro kw t h1 h2 q hq
    rcases List.mem_cons.1 hq with rfl | hq
    · exact h1
    · exact h2 _ hq
  · intro a b hb; exact hb

/-! ### The loops -/

/-- What a property is before its own schema is looked at. -/
def fillV (f : VFlags) (s : VSchema) (g : Option Doc) : Option Doc :=
  if f.autoDefault.getD false || f.autoDefaultNulls.getD false || f.autoRemoveNulls.getD false then
    fillVal f.toAutoFlags s.head g
  else g

theorem dget_heads (ps : List (Str × VSchema)) (k : Str) :
    dget (ps.map (fun p => (p.1, p.2.head))) k = (dget ps k).map VSchema.head := by
  induction ps with
  | nil => rfl
  | cons a t ih => rw [List.map_cons, dget_cons, dget_cons]; split <;> simp_all

theorem fillProps_get (f : VFlags) (ps : List (Str × VSchema)) (hnd : (dkeys ps).Nodup) (kvs : List (Str × Doc)) (k : Str) :
    dget (fillProps f ps kvs) k = match dget ps k with
      | some t => fillV f t (dget kvs k)
      | none => dget kvs k := by
  unfold fillProps fillV
  split
  · rw [loop_get _ _ _ (by simpa [dkeys, Function.comp_def] using hnd), dget_heads]
    cases dget ps k <;> rfl
  · cases dget ps k <;> rfl

theorem visitOwn_get (f : VFlags) (ps : List (Str × VSchema)) : ∀ kvs, (dkeys ps).Nodup → ∀ k,
    dget (visitOwn f ps kvs).1 k = match dget ps k with
      | some t => (dget kvs k).map (fun v => (visit f t v).1)
      | none => dget kvs k := by
  induction ps with
  | nil => intro kvs _ k; simp [visitOwn]
  | cons a t ih =>
    obtain ⟨p, s⟩ := a
    intro kvs hnd k
    simp only [dkeys, List.map_cons, List.nodup_cons] at hnd
    rw [visitOwn, dget_cons]
    by_cases hk : k = p
    · subst hk
      have : dget t k = none := (dget_eq_none_iff _ _).2 hnd.1
      rw [if_pos rfl]
      cases hv : dget kvs k with
      | none => simp only; rw [ih _ hnd.2, this]; simp [hv]
      | some v => simp only; rw [ih _ hnd.2, this]; simp
    · have hk' : p ≠ k := fun e => hk e.symm
      rw [if_neg hk']
      cases hv : dget kvs p with
      | none => simp only; rw [ih _ hnd.2]
      | some v => simp only; rw [ih _ hnd.2]; simp [dget_dset_ne _ _ hk]

theorem visitOwn_errs (f : VFlags) (ps : List (Str × VSchema)) : ∀ kvs, (dkeys ps).Nodup →
    ((visitOwn f ps kvs).2 = [] ↔ ∀ k t v, (k, t) ∈ ps → dget kvs k = some v → (visit f t v).2 = []) := by
  induction ps with
  | nil => intro kvs _; simp [visitOwn]
  | cons a t ih =>
    obtain ⟨p, s⟩ := a
    intro kvs hnd
    simp only [dkeys, List.map_cons, List.nodup_cons] at hnd
    rw [visitOwn]
    have key : ∀ w, (∀ k t_1 v, (k, t_1) ∈ t → dget (dset kvs p w) k = some v → (visit f t_1 v).2 = []) ↔
        (∀ k t_1 v, (k, t_1) ∈ t → dget kvs k = some v → (visit f t_1 v).2 = []) := by
      intro w
      constructor <;> intro h k u v hm hv
      · refine h k u v hm ?_
        have : k ≠ p := by rintro rfl; exact hnd.1 (List.mem_map.2 ⟨_, hm, rfl⟩)
        rw [dget_dset_ne _ _ this]; exact hv
      · refine h k u v hm ?_
        have : k ≠ p := by rintro rfl; exact hnd.1 (List.mem_map.2 ⟨_, hm, rfl⟩)
        rw [dget_dset_ne _ _ this] at hv; exact hv
    cases hv : dget kvs p with
    | none =>
      simp only
      rw [ih _ hnd.2]
      constructor
      · intro h k u v hm hv'
        rcases List.mem_cons.1 hm with e | hm
        · cases e; rw [hv] at hv'; cases hv'
        · exact h k u v hm hv'
      · intro h k u v hm; exact h k u v (List.mem_cons_of_mem _ hm)
    | some w =>
      simp only [List.append_eq_nil_iff, List.map_eq_nil_iff]
      rw [ih _ hnd.2, key]
      constructor
      · intro h k u v hm hv'
        rcases List.mem_cons.1 hm with e | hm
        · cases e; rw [hv] at hv'; cases hv'; exact h.1
        · exact h.2 k u v hm hv'
      · intro h
        exact ⟨h p s w (by simp) hv, fun k u v hm => h k u v (List.mem_cons_of_mem _ hm)⟩

theorem visitKeys_get (w : Doc → Doc × List VErr) (ks : List Str) : ∀ kvs, ks.Nodup → ∀ k,
    dget (visitKeys w ks kvs).1 k = if k ∈ ks then (dget kvs k).map (fun v => (w v).1) else dget kvs k := by
  induction ks with
  | nil => intro kvs _ k; simp [visitKeys]
  | cons p t ih =>
    intro kvs hnd k
    simp only [List.nodup_cons] at hnd
    rw [visitKeys]
    by_cases hk : k = p
    · subst hk
      cases hv : dget kvs k with
      | none => simp only; rw [ih _ hnd.2]; simp [hnd.1, hv]
      | some v => simp only; rw [ih _ hnd.2]; simp [hnd.1]
    · cases hv : dget kvs p with
      | none => simp only; rw [ih _ hnd.2]; simp [hk]
      | some v => simp only; rw [ih _ hnd.2]; simp [dget_dset_ne _ _ hk, hk]

theorem visitKeys_errs (w : Doc → Doc × List VErr) (ks : List Str) : ∀ kvs, ks.Nodup →
    ((visitKeys w ks kvs).2 = [] ↔ ∀ k v, k ∈ ks → dget kvs k = some v → (w v).2 = []) := by
  induction ks with
  | nil => intro kvs _; simp [visitKeys]
  | cons p t ih =>
    intro kvs hnd
    simp only [List.nodup_cons] at hnd
    rw [visitKeys]
    have key : ∀ x, (∀ k v, k ∈ t → dget (dset kvs p x) k = some v → (w v).2 = []) ↔
        (∀ k v, k ∈ t → dget kvs k = some v → (w v).2 = []) := by
      intro x
      constructor <;> intro h k v hm hv
      · refine h k v hm ?_
        have : k ≠ p := by rintro rfl; exact hnd.1 hm
        rw [dget_dset_ne _ _ this]; exact hv
      · refine h k v hm ?_
        have : k ≠ p := by rintro rfl; exact hnd.1 hm
        rw [dget_dset_ne _ _ this] at hv; exact hv
    cases hv : dget kvs p with
    | none =>
      simp only
      rw [ih _ hnd.2]
      constructor
      · intro h k v hm hv'
        rcases List.mem_cons.1 hm with e | hm
        · cases e; rw [hv] at hv'; cases hv'
        · exact h k v hm hv'
      · intro h k v hm; exact h k v (List.mem_cons_of_mem _ hm)
    | some x =>
      simp only [List.append_eq_nil_iff, List.map_eq_nil_iff]
      rw [ih _ hnd.2, key]
      constructor
      · intro h k v hm hv'
        rcases List.mem_cons.1 hm with e | hm
        · cases e; rw [hv] at hv'; cases hv'; exact h.1
        · exact h.2 k v hm hv'
      · intro h
        exact ⟨h p x (by simp) hv, fun k v hm => h k v (List.mem_cons_of_mem _ hm)⟩

theorem visitItems_fst (w : Doc → Doc × List VErr) (xs : List Doc) : ∀ i, (visitItems w i xs).1 = xs.map (fun v => (w v).1) := by
  induction xs with
  | nil => intro i; rfl
  | cons x xs ih => intro i; simp [visitItems, ih]

theorem visitItems_errs (w : Doc → Doc × List VErr) (xs : List Doc) : ∀ i, (visitItems w i xs).2 = [] ↔ ∀ x ∈ xs, (w x).2 = [] := by
  induction xs with
  | nil => intro i; simp [visitItems]
  | cons x xs ih => intro i; simp [visitItems, ih]

theorem nodup_eraseDups {α : Type} [BEq α] [LawfulBEq α] (n : Nat) : ∀ l : List α, l.length ≤ n → l.eraseDups.Nodup := by
  induction n with
  | zero => intro l hl; rw [List.length_eq_zero_iff.1 (Nat.le_zero.1 hl)]; simp
  | succ n ih =>
    intro l hl
    cases l with
    | nil => simp
    | cons a t =>
      rw [List.eraseDups_cons, List.nodup_cons]
      constructor
      · rw [List.mem_eraseDups]; simp
      · refine ih _ (Nat.le_trans (List.length_filter_le _ _) ?_)
        simpa using hl

theorem extraKeys_nodup (props : List Str) (kvs : List (Str × Doc)) : (extraKeys props kvs).Nodup := by
  unfold extraKeys
  exact nodup_eraseDups (α := Str) _ _ (Nat.le_refl _)

theorem mem_extraKeys (props : List Str) (kvs : List (Str × Doc)) (k : Str) :
    k ∈ extraKeys props kvs ↔ (dget kvs k).isSome ∧ k ∉ props := by
  unfold extraKeys
  rw [List.mem_eraseDups, List.mem_filter, mem_dkeys_iff]
  cases dget kvs k <;> simp

/-! ### The keywords that change the document -/

def propsOf : List VKw → List (Str × VSchema)
  | [] => []
  | .properties ps :: _ => ps
  | _ :: t => propsOf t

def addOf : List VKw → Option VSchema
  | [] => none
  | .additionalS s :: _ => some s
  | _ :: t => addOf t

def itemsOf : List VKw → Option VSchema
  | [] => none
  | .items s :: _ => some s
  | _ :: t => itemsOf t

/-- No keyword that changes the document is there twice. -/
def Once (kws : List VKw) : Prop :=
  kws.Pairwise (fun a b => ¬ ((∃ ps qs, a = VKw.properties ps ∧ b = .properties qs) ∨
    (∃ t u, a = .additionalS t ∧ b = .additionalS u) ∨ (∃ t u, a = .items t ∧ b = .items u)))

theorem propsOf_nil {kws : List VKw} (h : ∀ ps, .properties ps ∉ kws) : propsOf kws = [] := by
  induction kws with
  | nil => rfl
  | cons kw t ih =>
    have ht := ih (fun ps hp => h ps (List.mem_cons_of_mem _ hp))
    cases kw with
    | properties ps => exact absurd (List.mem_cons_self ..) (h ps)
    | _ => exact ht

theorem addOf_none {kws : List VKw} (h : ∀ s, .additionalS s ∉ kws) : addOf kws = none := by
  induction kws with
  | nil => rfl
  | cons kw t ih =>
    have ht := ih (fun ps hp => h ps (List.mem_cons_of_mem _ hp))
    cases kw with
    | additionalS ps => exact absurd (List.mem_cons_self ..) (h ps)
    | _ => exact ht

theorem itemsOf_none {kws : List VKw} (h : ∀ s, .items s ∉ kws) : itemsOf kws = none := by
  induction kws with
  | nil => rfl
  | cons kw t ih =>
    have ht := ih (fun ps hp => h ps (List.mem_cons_of_mem _ hp))
    cases kw with
    | items ps => exact absurd (List.mem_cons_self ..) (h ps)
    | _ => exact ht

theorem Once.props {ps t} (h : Once (.properties ps :: t)) : ∀ qs, .properties qs ∉ t := by
  intro qs hq
  exact (List.pairwise_cons.1 h).1 _ hq (.inl ⟨_, _, rfl, rfl⟩)

theorem Once.add {s t} (h : Once (.additionalS s :: t)) : ∀ u, .additionalS u ∉ t := by
  intro qs hq
  exact (List.pairwise_cons.1 h).1 _ hq (.inr (.inl ⟨_, _, rfl, rfl⟩))

theorem Once.items {s t} (h : Once (.items s :: t)) : ∀ u, .items u ∉ t := by
  intro qs hq
  exact (List.pairwise_cons.1 h).1 _ hq (.inr (.inr ⟨_, _, rfl, rfl⟩))

theorem Once.tail {kw t} (h : Once (kw :: t)) : Once t := (List.pairwise_cons.1 h).2

theorem propsOf_mem {kws : List VKw} (ho : Once kws) {ps} (h : .properties ps ∈ kws) : propsOf kws = ps := by
  induction kws with
  | nil => cases h
  | cons kw t ih =>
    rcases List.mem_cons.1 h with rfl | h'
    · rfl
    · have := ih ho.tail h'
      cases kw with
      | properties qs => exact absurd h' (ho.props ps)
      | _ => exact this

theorem addOf_mem {kws : List VKw} (ho : Once kws) {s} (h : .additionalS s ∈ kws) : addOf kws = some s := by
  induction kws with
  | nil => cases h
  | cons kw t ih =>
    rcases List.mem_cons.1 h with rfl | h'
    · rfl
    · have := ih ho.tail h'
      cases kw with
      | additionalS qs => exact absurd h' (ho.add s)
      | _ => exact this

theorem itemsOf_mem {kws : List VKw} (ho : Once kws) {s} (h : .items s ∈ kws) : itemsOf kws = some s := by
  induction kws with
  | nil => cases h
  | cons kw t ih =>
    rcases List.mem_cons.1 h with rfl | h'
    · rfl
    · have := ih ho.tail h'
      cases kw with
      | items qs => exact absurd h' (ho.items s)
      | _ => exact this

theorem propNames_eq (kws : List VKw) : propNames kws = dkeys (propsOf kws) := by
  induction kws with
  | nil => rfl
  | cons kw t ih => cases kw <;> first | rfl | exact ih

theorem declared_iff {kws : List VKw} (ho : Once kws) (k : Str) : Declared kws k ↔ k ∈ propNames kws := by
  rw [propNames_eq]
  constructor
  · rintro ⟨ps, h, hk⟩; rw [propsOf_mem ho h]; exact hk
  · intro hk
    induction kws with
    | nil => simp [propsOf, dkeys] at hk
    | cons kw t ih =>
      cases kw with
      | properties ps => exact ⟨ps, by simp, hk⟩
      | _ => obtain ⟨ps, h1, h2⟩ := ih ho.tail hk; exact ⟨ps, List.mem_cons_of_mem _ h1, h2⟩

/-- What the keywords do to the entry at a key. -/
def entryAfter (f : VFlags) (props : List Str) (kws : List VKw) (k : Str) (g : Option Doc) : Option Doc :=
  if k ∈ props then match dget (propsOf kws) k with
    | some t => (fillV f t g).map (fun v => (visit f t v).1)
    | none => g
  else match addOf kws with
    | some t => g.map (fun v => (visit f t v).1)
    | none => g

theorem kw_same (f : VFlags) (props : List Str) (kw : VKw) (d : Doc) (h : ¬ Changes kw) : (visitKw f props kw d).1 = d := by
  cases kw with
  | properties ps => exact absurd (.properties ps) h
  | additionalS s => exact absurd (.additionalS s) h
  | items s => exact absurd (.items s) h
  | type ts => simp [visitKw]
  | required ns => cases d <;> simp [visitKw]
  | additional b => cases d <;> simp [visitKw]
  | propertyNames s => cases d <;> simp [visitKw]
  | enum vs => simp [visitKw]

theorem kws_dict (f : VFlags) (props : List Str) (kws : List VKw) : Once kws →
    (∀ ps, .properties ps ∈ kws → dkeys ps = props ∧ (dkeys ps).Nodup) → ∀ kvs,
    ∃ kvs', (visitKws f props kws (.dict kvs)).1 = .dict kvs' ∧ ∀ k, dget kvs' k = entryAfter f props kws k (dget kvs k) := by
  induction kws with
  | nil =>
    intro _ _ kvs
    refine ⟨kvs, by simp [visitKws], ?_⟩
    intro k; simp [entryAfter, propsOf, addOf]
  | cons kw t ih =>
    intro ho hp kvs
    have ih' := ih ho.tail (fun ps h => hp ps (List.mem_cons_of_mem _ h))
    simp only [visitKws]
    cases kw with
    | properties ps =>
      obtain ⟨e1, e2⟩ := hp ps (by simp)
      obtain ⟨kvs', h1, h2⟩ := ih' (visitOwn f ps (fillProps f ps kvs)).1
      refine ⟨kvs', by simpa [visitKw] using h1, ?_⟩
      intro k
      rw [h2, visitOwn_get f ps _ e2, fillProps_get f ps e2]
      simp only [entryAfter, propsOf, addOf, propsOf_nil ho.props, dget_nil]
      by_cases hk : k ∈ props
      · rw [if_pos hk, if_pos hk]
        cases dget ps k <;> rfl
      · rw [if_neg hk, if_neg hk]
        have : dget ps k = none := (dget_eq_none_iff _ _).2 (by rw [← e1] at hk; exact hk)
        rw [this]
    | additionalS s =>
      obtain ⟨kvs', h1, h2⟩ := ih' (visitKeys (fun v => visit f s v) (extraKeys props kvs) kvs).1
      refine ⟨kvs', by simpa [visitKw] using h1, ?_⟩
      intro k
      rw [h2, visitKeys_get _ _ _ (extraKeys_nodup ..)]
      simp only [mem_extraKeys]
      simp only [entryAfter, propsOf, addOf, addOf_none ho.add]
      by_cases hk : k ∈ props
      · simp [hk]
      · simp only [hk, if_false, not_false_eq_true, and_true]
        cases hv : dget kvs k <;> simp
    | items s =>
      obtain ⟨kvs', h1, h2⟩ := ih' kvs
      refine ⟨kvs', by simpa [visitKw] using h1, ?_⟩
      intro k; rw [h2]; rfl
    | type ts =>
      obtain ⟨kvs', h1, h2⟩ := ih' kvs
      refine ⟨kvs', by simpa [visitKw] using h1, ?_⟩
      intro k; rw [h2]; rfl
    | required ts =>
      obtain ⟨kvs', h1, h2⟩ := ih' kvs
      refine ⟨kvs', by simpa [visitKw] using h1, ?_⟩
      intro k; rw [h2]; rfl
    | additional ts =>
      obtain ⟨kvs', h1, h2⟩ := ih' kvs
      refine ⟨kvs', by simpa [visitKw] using h1, ?_⟩
      intro k; rw [h2]; rfl
    | propertyNames ts =>
      obtain ⟨kvs', h1, h2⟩ := ih' kvs
      refine ⟨kvs', by simpa [visitKw] using h1, ?_⟩
      intro k; rw [h2]; rfl
    | enum ts =>
      obtain ⟨kvs', h1, h2⟩ := ih' kvs
      refine ⟨kvs', by simpa [visitKw] using h1, ?_⟩
      intro k; rw [h2]; rfl

theorem kws_list (f : VFlags) (props : List Str) (kws : List VKw) : Once kws → ∀ xs,
    (visitKws f props kws (.list xs)).1 = .list (match itemsOf kws with
      | some t => xs.map (fun v => (visit f t v).1)
      | none => xs) := by
  induction kws with
  | nil => intro _ xs; simp [visitKws, itemsOf]
  | cons kw t ih =>
    intro ho xs
    have ih' := ih ho.tail
    simp only [visitKws]
    cases kw with
    | items s =>
      simp only [visitKw]
      rw [ih', itemsOf_none ho.items, visitItems_fst]
      rfl
    | _ => simp only [visitKw]; rw [ih']; rfl

theorem kws_scalar (f : VFlags) (props : List Str) (kws : List VKw) (d : Doc) (h1 : ∀ kvs, d ≠ .dict kvs)
    (h2 : ∀ xs, d ≠ .list xs) : (visitKws f props kws d).1 = d := by
  induction kws with
  | nil => simp [visitKws]
  | cons kw t ih =>
    simp only [visitKws]
    have : (visitKw f props kw d).1 = d := by
      by_cases hc : Changes kw
      · cases d with
        | dict kvs => exact absurd rfl (h1 kvs)
        | list xs => exact absurd rfl (h2 xs)
        | _ => cases hc <;> simp [visitKw]
      · exact kw_same f props kw d hc
    rw [this]; exact ih

end Props
