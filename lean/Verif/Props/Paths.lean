import Verif.Lemmas.Paths
/-
C09, C10: joining path steps.
-/
set_option linter.unusedSimpArgs false
namespace Props
open Py Model Spec

/-- C10. Joining is walking: the joined text is the text of the location reached by taking the
steps one after the other. -/
theorem C10_join_is_walk (steps : List Str) :
    joinPaths steps = (steps.foldl Loc.move (.rel 0 [])).text := joinPaths_eq_text steps

example : joinPaths ["".toList, "a".toList, "..".toList, "..".toList, "b".toList, ".".toList, "c".toList]
    = "/b/c".toList := by decide

private theorem locNoSlash (steps : List Str) (h : ∀ s ∈ steps, '/' ∉ s) : ∀ (l : Loc),
    (∀ n ∈ locNames l, '/' ∉ n) → ∀ n ∈ locNames (steps.foldl Loc.move l), '/' ∉ n := by
  induction steps with
  | nil => intro l hl; exact hl
  | cons s ss ih =>
    intro l hl
    rw [List.foldl_cons]
    refine ih (fun x hx => h x (by simp [hx])) _ ?_
    intro n hn
    have hs := h s (by simp)
    unfold Loc.move at hn
    split at hn
    · simp [locNames] at hn
    · split at hn
      · exact hl n hn
      · split at hn
        · split at hn
          · exact hl n (List.dropLast_subset _ hn)
          · simp [locNames] at hn
          · exact hl n (List.dropLast_subset _ hn)
        · split at hn
          · simp only [locNames, List.mem_append, List.mem_singleton] at hn
            rcases hn with hn | hn
            · exact hl n hn
            · subst hn; exact hs
          · simp only [locNames, List.mem_append, List.mem_singleton] at hn
            rcases hn with hn | hn
            · exact hl n hn
            · subst hn; exact hs

private theorem split_text (l : Loc) (hn : ∀ n ∈ locNames l, '/' ∉ n) (hne : l.steps ≠ []) :
    splitOn '/' l.text = l.steps := by
  have : l.text = join ['/'] l.steps := by
    unfold Loc.text
    cases h : l.steps with
    | nil => exact absurd h hne
    | cons a t => rfl
  rw [this, splitOn_join _ hne]
  intro p hp
  cases l with
  | abs names =>
    simp [Loc.steps] at hp
    rcases hp with hp | hp
    · subst hp; simp
    · exact hn p hp
  | rel u names =>
    simp only [Loc.steps, List.mem_append, List.mem_replicate] at hp
    rcases hp with ⟨_, hp⟩ | hp
    · subst hp; decide
    · exact hn p hp

/-- C09. Joining slash-free steps yields a path in normal form: `.`, or steps that are the root
followed by ordinary names, or dot-dots followed by ordinary names. -/
theorem C09_join_normal (steps : List Str) (h : ∀ s ∈ steps, '/' ∉ s) :
    joinPaths steps = ".".toList ∨ NormalSteps (splitOn '/' (joinPaths steps)) := by
  rw [joinPaths_eq_text]
  have hok := (foldl_appendStep steps _ start_ok).2
  have hns := locNoSlash steps h (.rel 0 []) (by simp [locNames])
  cases hl : steps.foldl Loc.move (.rel 0 []) with
  | abs names =>
    rw [hl] at hns hok
    rw [split_text _ hns (by simp [Loc.steps])]
    right; left; exact ⟨names, rfl, hok⟩
  | rel u names =>
    rw [hl] at hns hok
    by_cases he : (Loc.rel u names).steps = []
    · left; simp [Loc.text, he]
    · rw [split_text _ hns he]
      right; right; exact ⟨u, names, rfl, hok⟩

example : ∀ s ∈ ["a".toList, "..".toList, "..".toList, "b".toList, "".toList.append "c".toList], '/' ∉ s := by decide
example : joinPaths ["a".toList, "..".toList, "..".toList, "b".toList] = "../b".toList := by decide

/-- C09. `.` is produced exactly when the steps lead nowhere: back to the relative start. -/
theorem C09_dot_iff (steps : List Str) (h : ∀ s ∈ steps, '/' ∉ s) :
    joinPaths steps = ".".toList ↔ steps.foldl Loc.move (.rel 0 []) = .rel 0 [] := by
  rw [joinPaths_eq_text]
  constructor
  · intro ht
    have hok := (foldl_appendStep steps _ start_ok).2
    have hns := locNoSlash steps h (.rel 0 []) (by simp [locNames])
    by_cases he : (steps.foldl Loc.move (.rel 0 [])).steps = []
    · cases hl : steps.foldl Loc.move (.rel 0 []) with
      | abs names => rw [hl] at he; simp [Loc.steps] at he
      | rel u names =>
        rw [hl] at he; simp [Loc.steps] at he
        simp [he]
    · have hs := split_text _ hns he
      rw [ht] at hs
      have hs' : (steps.foldl Loc.move (.rel 0 [])).steps = [dot] := hs.symm.trans (by decide)
      cases hl : steps.foldl Loc.move (.rel 0 []) with
      | abs names => rw [hl] at hs'; simp [Loc.steps, dot] at hs'
      | rel u names =>
        rw [hl] at hs' hok
        simp only [Loc.steps] at hs'
        have hmem : dot ∈ List.replicate u "..".toList ++ names := by rw [hs']; simp
        rcases List.mem_append.1 hmem with hm | hm
        · rw [List.mem_replicate] at hm; exact absurd hm.2 (by decide)
        · exact absurd rfl (hok dot hm).2.1
  · intro hl; rw [hl]; rfl

/-- C09. An absolute result (one starting with a slash) has no dot-dot step: it never climbs above
the root. -/
theorem C09_absolute_no_dotdot (steps : List Str) (h : ∀ s ∈ steps, '/' ∉ s)
    (habs : ∃ t, joinPaths steps = '/' :: t) : "..".toList ∉ splitOn '/' (joinPaths steps) := by
  obtain ⟨t, ht⟩ := habs
  rcases C09_join_normal steps h with hd | hn | hn
  · rw [hd] at ht; exact absurd ht (by simp)
  · obtain ⟨names, he, ho⟩ := hn
    rw [he]
    intro hm
    rcases List.mem_cons.1 hm with hm | hm
    · exact absurd hm (by decide)
    · exact (ho _ hm).2.2 rfl
  · obtain ⟨u, names, he, ho⟩ := hn
    rw [ht, splitOn_sep] at he
    cases u with
    | zero =>
      simp at he
      have := ho [] (by rw [← he]; simp)
      exact absurd rfl this.1
    | succ u => simp [List.replicate_succ] at he

example : joinPaths ["".toList, "..".toList, "a".toList] = "/a".toList := by decide

/-- C10. Joining in two batches is joining at once: the path joined from the first batch can be
split and joined again with the rest. -/
theorem C10_join_batches (xs ys : List Str) (h : ∀ s ∈ xs, '/' ∉ s) :
    joinPaths (splitOn '/' (joinPaths xs) ++ ys) = joinPaths (xs ++ ys) := by
  rw [joinPaths_eq_text, joinPaths_eq_text (xs ++ ys), List.foldl_append, List.foldl_append]
  congr 2
  rw [joinPaths_eq_text]
  have hok := (foldl_appendStep xs _ start_ok).2
  have hns := locNoSlash xs h (.rel 0 []) (by simp [locNames])
  by_cases he : (xs.foldl Loc.move (.rel 0 [])).steps = []
  · cases hl : xs.foldl Loc.move (.rel 0 []) with
    | abs names => rw [hl] at he; simp [Loc.steps] at he
    | rel u names =>
      rw [hl] at he; simp [Loc.steps] at he
      obtain ⟨h1, h2⟩ := he
      subst h1; subst h2; rfl
  · rw [split_text _ hns he, foldl_move_steps _ hok]

/-- C10. Re-joining a joined path changes nothing. -/
theorem C10_join_idempotent (xs : List Str) (h : ∀ s ∈ xs, '/' ∉ s) :
    joinPaths (splitOn '/' (joinPaths xs)) = joinPaths xs := by
  have := C10_join_batches xs [] h
  simpa using this

/-- C10. A root step forgets everything before it. -/
theorem C10_root_resets (xs ys : List Str) : joinPaths (xs ++ "".toList :: ys) = joinPaths ("".toList :: ys) := by
  rw [joinPaths_eq_text, joinPaths_eq_text, List.foldl_append, List.foldl_cons, List.foldl_cons]
  simp [Loc.move]

/-- C10. Entering a name and going up cancels, anywhere. -/
theorem C10_dotdot_cancels (xs ys : List Str) (n : Str) (hn : Ordinary n) :
    joinPaths (xs ++ n :: "..".toList :: ys) = joinPaths (xs ++ ys) := by
  rw [joinPaths_eq_text, joinPaths_eq_text, List.foldl_append, List.foldl_append, List.foldl_cons,
    List.foldl_cons]
  congr 2
  obtain ⟨h0, h1, h2⟩ := hn
  have hx : ∀ l : Loc, (l.move n).move "..".toList = l := by
    intro l
    cases l with
    | abs m =>
      simp only [Loc.move, if_neg h0, if_neg h1, if_neg h2]
      simp [show "..".toList ≠ "".toList by decide, show "..".toList ≠ ".".toList by decide]
    | rel u m =>
      simp only [Loc.move, if_neg h0, if_neg h1, if_neg h2]
      simp [show "..".toList ≠ "".toList by decide, show "..".toList ≠ ".".toList by decide]
  exact hx _

example : Ordinary "a b".toList := by unfold Ordinary; decide

/-- C10. Dots disappear, anywhere. -/
theorem C10_dot_disappears (xs ys : List Str) :
    joinPaths (xs ++ ".".toList :: ys) = joinPaths (xs ++ ys) := by
  rw [joinPaths_eq_text, joinPaths_eq_text, List.foldl_append, List.foldl_append, List.foldl_cons]
  simp [Loc.move]

end Props
