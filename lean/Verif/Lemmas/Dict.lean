import Verif.Model.Basic
set_option linter.unusedSimpArgs false
namespace Model
variable {α β : Type} [DecidableEq α]

@[simp] theorem dget_nil (k : α) : dget ([] : List (α × β)) k = none := rfl

theorem dget_cons (k' : α) (v : β) (t : List (α × β)) (k : α) :
    dget ((k', v) :: t) k = if k' = k then some v else dget t k := rfl

theorem dget_eq_some_iff (kvs : List (α × β)) (k : α) (v : β) :
    dget kvs k = some v ↔ ∃ before after, kvs = before ++ (k, v) :: after ∧ k ∉ before.map Prod.fst := by
  induction kvs with
  | nil => simp
  | cons kv t ih =>
    obtain ⟨k', v'⟩ := kv
    rw [dget_cons]
    split
    · next h =>
      subst h
      constructor
      · intro h; injection h with h; subst h; exact ⟨[], t, rfl, by simp⟩
      · rintro ⟨before, after, h1, h2⟩
        cases before with
        | nil => simp at h1; simp [h1]
        | cons b bs => simp at h1; simp [← h1.1] at h2
    · next h =>
      rw [ih]
      constructor
      · rintro ⟨before, after, h1, h2⟩
        exact ⟨(k', v') :: before, after, by simp [h1], by
          simp only [List.map_cons, List.mem_cons, not_or]; exact ⟨Ne.symm h, h2⟩⟩
      · rintro ⟨before, after, h1, h2⟩
        cases before with
        | nil => simp at h1; exact absurd h1.1.1 h
        | cons b bs =>
          simp at h1
          refine ⟨bs, after, h1.2, ?_⟩
          simp only [List.map_cons, List.mem_cons, not_or] at h2; exact h2.2

theorem dget_append_mid {before after : List (α × β)} {k : α} {v : β} (h : k ∉ before.map Prod.fst) :
    dget (before ++ (k, v) :: after) k = some v :=
  (dget_eq_some_iff _ _ _).2 ⟨before, after, rfl, h⟩

theorem dget_eq_none_iff (kvs : List (α × β)) (k : α) :
    dget kvs k = none ↔ k ∉ kvs.map Prod.fst := by
  induction kvs with
  | nil => simp
  | cons kv t ih =>
    obtain ⟨k', v'⟩ := kv
    rw [dget_cons]
    split
    · next h => subst h; simp
    · next h =>
      rw [ih]; simp only [List.map_cons, List.mem_cons, not_or]
      exact ⟨fun h' => ⟨Ne.symm h, h'⟩, fun h' => h'.2⟩

@[simp] theorem dget_dset_self (kvs : List (α × β)) (k : α) (v : β) : dget (dset kvs k v) k = some v := by
  induction kvs with
  | nil => simp [dset, dget]
  | cons kv t ih =>
    obtain ⟨k', v'⟩ := kv
    simp only [dset]
    split <;> simp_all [dget_cons]

theorem dget_dset_ne (kvs : List (α × β)) {k k2 : α} (v : β) (h : k2 ≠ k) :
    dget (dset kvs k v) k2 = dget kvs k2 := by
  induction kvs with
  | nil => simp [dset, dget]; exact fun e => absurd e.symm h
  | cons kv t ih =>
    obtain ⟨k', v'⟩ := kv
    simp only [dset]
    split
    · next h' => subst h'; simp [dget_cons, Ne.symm h]
    · simp only [dget_cons, ih]

theorem dget_dset (kvs : List (α × β)) (k k2 : α) (v : β) :
    dget (dset kvs k v) k2 = if k2 = k then some v else dget kvs k2 := by
  split
  · next h => subst h; simp
  · next h => exact dget_dset_ne kvs v h

theorem dkeys_dset (kvs : List (α × β)) (k : α) (v : β) :
    dkeys (dset kvs k v) = if k ∈ dkeys kvs then dkeys kvs else dkeys kvs ++ [k] := by
  induction kvs with
  | nil => simp [dset, dkeys]
  | cons kv t ih =>
    obtain ⟨k', v'⟩ := kv
    simp only [dset, dkeys] at *
    by_cases h : k' = k
    · simp [h]
    · simp only [h, if_false, List.map_cons, ih, List.mem_cons, Ne.symm h, false_or]
      by_cases hk : k ∈ t.map (fun x => x.1) <;> simp only [hk, if_true, if_false] <;> simp

theorem nodup_dkeys_dset {kvs : List (α × β)} (k : α) (v : β) (h : (dkeys kvs).Nodup) :
    (dkeys (dset kvs k v)).Nodup := by
  rw [dkeys_dset]
  split
  · exact h
  · next hk => exact List.nodup_append.2 ⟨h, by simp, by
      intro a ha b hb e; simp at hb; subst hb; exact hk (e ▸ ha)⟩

theorem mem_dkeys_iff (kvs : List (α × β)) (k : α) : k ∈ dkeys kvs ↔ ∃ v, dget kvs k = some v := by
  cases h : dget kvs k with
  | none => simp; exact (dget_eq_none_iff _ _).1 h
  | some v =>
    simp
    by_cases hk : k ∈ dkeys kvs
    · exact hk
    · rw [(dget_eq_none_iff _ _).2 hk] at h; cases h

theorem dget_of_mem {kvs : List (α × β)} (hnd : (dkeys kvs).Nodup) {k : α} {v : β}
    (h : (k, v) ∈ kvs) : dget kvs k = some v := by
  induction kvs with
  | nil => simp at h
  | cons kv t ih =>
    obtain ⟨k', v'⟩ := kv
    simp only [dkeys, List.map_cons, List.nodup_cons] at hnd
    rw [dget_cons]
    rcases List.mem_cons.1 h with h | h
    · injection h with h1 h2; simp [h1, h2]
    · split
      · next e => subst e; exact absurd (List.mem_map.2 ⟨(k', v), h, rfl⟩) hnd.1
      · exact ih hnd.2 h

theorem mem_of_dget {kvs : List (α × β)} {k : α} {v : β} (h : dget kvs k = some v) : (k, v) ∈ kvs := by
  obtain ⟨b, a, rfl, _⟩ := (dget_eq_some_iff _ _ _).1 h; simp

theorem dget_append (a b : List (α × β)) (k : α) :
    dget (a ++ b) k = (dget a k).or (dget b k) := by
  induction a with
  | nil => simp
  | cons kv t ih =>
    obtain ⟨k', v'⟩ := kv
    simp only [List.cons_append, dget_cons]
    split <;> simp [ih]

theorem dget_filter_key (kvs : List (α × β)) (p : α → Bool) (k : α) :
    dget (kvs.filter (fun kv => p kv.1)) k = if p k then dget kvs k else none := by
  induction kvs with
  | nil => simp
  | cons kv t ih =>
    obtain ⟨k', v'⟩ := kv
    simp only [List.filter_cons]
    split
    · next h =>
      simp only [dget_cons, ih]
      split
      · next e => subst e; simp [h]
      · rfl
    · next h =>
      rw [ih]
      simp only [dget_cons]
      split
      · next h2 => split
                   · next e => subst e; exact absurd h2 h
                   · rfl
      · rfl

theorem dget_ddel (kvs : List (α × β)) (k k2 : α) :
    dget (ddel kvs k) k2 = if k2 = k then none else dget kvs k2 := by
  unfold ddel
  rw [dget_filter_key (p := fun x => decide (x ≠ k))]
  by_cases h : k2 = k <;> simp [h]

theorem dget_map_val {γ : Type} (kvs : List (α × β)) (f : α → β → γ) (k : α) :
    dget (kvs.map (fun kv => (kv.1, f kv.1 kv.2))) k = (dget kvs k).map (f k) := by
  induction kvs with
  | nil => simp
  | cons kv t ih =>
    obtain ⟨k', v'⟩ := kv
    simp only [List.map_cons, dget_cons]
    split
    · next h => subst h; simp
    · exact ih

end Model
