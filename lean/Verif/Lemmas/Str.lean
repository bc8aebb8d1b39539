import Verif.Py.Str
namespace Py

theorem replace2_cons_ne {a b : Char} {new : Str} {c : Char} (s : Str) (h : c ≠ a) :
    replace2 a b new (c :: s) = c :: replace2 a b new s := by
  cases s with
  | nil => simp [replace2]
  | cons d t => simp [replace2, h]

theorem replace2_cons_hit {a b : Char} {new : Str} (s : Str) :
    replace2 a b new (a :: b :: s) = new ++ replace2 a b new s := by
  simp [replace2]

theorem replace2_cons_miss {a b : Char} {new : Str} {d : Char} (s : Str) (h : d ≠ b) :
    replace2 a b new (a :: d :: s) = a :: replace2 a b new (d :: s) := by
  simp [replace2, h]

theorem replace2_of_not_mem {a b : Char} {new : Str} {s : Str} (h : a ∉ s) :
    replace2 a b new s = s := by
  induction s with
  | nil => simp [replace2]
  | cons c t ih =>
    simp only [List.mem_cons, not_or] at h
    rw [replace2_cons_ne _ (Ne.symm h.1), ih h.2]

theorem splitOn_ne_nil (sep : Char) (s : Str) : splitOn sep s ≠ [] := by
  cases s with
  | nil => simp [splitOn]
  | cons c t =>
    simp only [splitOn]
    split
    · simp
    · split <;> simp

theorem splitOn_of_not_mem {sep : Char} {s : Str} (h : sep ∉ s) : splitOn sep s = [s] := by
  induction s with
  | nil => rfl
  | cons c t ih =>
    simp only [List.mem_cons, not_or] at h
    simp [splitOn, ih h.2, Ne.symm h.1]

theorem splitOn_sep (sep : Char) (t : Str) : splitOn sep (sep :: t) = [] :: splitOn sep t := by
  simp [splitOn]

theorem splitOn_append {sep : Char} (p : Str) (t : Str) (h : sep ∉ p) :
    splitOn sep (p ++ sep :: t) = p :: splitOn sep t := by
  induction p with
  | nil => simp [splitOn]
  | cons c q ih =>
    simp only [List.mem_cons, not_or] at h
    simp [splitOn, ih h.2, Ne.symm h.1]

/-- Splitting what was joined, when no piece contains the separator. -/
theorem splitOn_join {sep : Char} (ps : List Str) (hne : ps ≠ []) (h : ∀ p ∈ ps, sep ∉ p) :
    splitOn sep (join [sep] ps) = ps := by
  induction ps with
  | nil => exact absurd rfl hne
  | cons p qs ih =>
    cases qs with
    | nil => simpa [join] using splitOn_of_not_mem (h p (by simp))
    | cons q rs =>
      simp only [join]
      rw [List.append_assoc, List.singleton_append, splitOn_append _ _ (h p (by simp)),
        ih (by simp) (fun x hx => h x (by simp [hx]))]

theorem join_splitOn (sep : Char) (s : Str) : join [sep] (splitOn sep s) = s := by
  induction s with
  | nil => rfl
  | cons c t ih =>
    simp only [splitOn]
    split
    · next h =>
      subst h
      cases hs : splitOn c t with
      | nil => exact absurd hs (splitOn_ne_nil _ _)
      | cons p ps => rw [hs] at ih; simp [join, ih]
    · cases hs : splitOn sep t with
      | nil => exact absurd hs (splitOn_ne_nil _ _)
      | cons p ps =>
        rw [hs] at ih
        cases ps with
        | nil => simp [join] at ih ⊢; exact ih
        | cons q qs => simp [join] at ih ⊢; exact ih

theorem not_mem_of_mem_splitOn {sep : Char} {s p : Str} (h : p ∈ splitOn sep s) : sep ∉ p := by
  induction s generalizing p with
  | nil => simp [splitOn] at h; simp [h]
  | cons c t ih =>
    simp only [splitOn] at h
    split at h
    · rcases List.mem_cons.1 h with h | h
      · simp [h]
      · exact ih h
    · next hc =>
      cases hs : splitOn sep t with
      | nil => exact absurd hs (splitOn_ne_nil _ _)
      | cons q qs =>
        rw [hs] at h ih
        simp only [List.mem_cons] at h ih
        rcases h with h | h
        · subst h
          have := ih (p := q) (Or.inl rfl)
          simp [this]; exact fun e => hc e.symm
        · exact ih (Or.inr h)

end Py
