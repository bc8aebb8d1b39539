import Verif.Model.Paths
import Verif.Spec.Paths
import Verif.Lemmas.Str
set_option linter.unusedSimpArgs false
namespace Model
open Py Spec

/-- Names of a location. -/
def locNames : Loc → List Str
  | .abs n => n
  | .rel _ n => n

def LocOK (l : Loc) : Prop := ∀ n ∈ locNames l, Ordinary n

theorem lit_empty : "".toList = ([] : Str) := rfl
theorem lit_dot : ".".toList = dot := rfl
theorem lit_dotdot : "..".toList = dotdot := rfl
theorem lit_slash : "/".toList = ['/'] := rfl

theorem drop_last_one (xs : List Str) (a : Str) : (xs ++ [a]).drop ((xs ++ [a]).length - 1) = [a] := by
  simp

theorem dget_lastPair_ordinary {p step : Str} (hs : Ordinary step) (xs : List Str) (h : xs = [] ∨ xs = [p]) :
    dget lastPairChoices (xs ++ [step]) = none := by
  obtain ⟨h0, h1, h2⟩ := hs
  rw [lit_dot] at h1; rw [lit_dotdot] at h2
  rcases h with h | h <;> subst h <;>
    simp [lastPairChoices, dget, Ne.symm h1, Ne.symm h2]

theorem dget_lastPair_name {p step : Str} (hp : Ordinary p) :
    dget lastPairChoices [p, step] = none := by
  obtain ⟨h0, h1, h2⟩ := hp
  rw [lit_empty] at h0; rw [lit_dot] at h1; rw [lit_dotdot] at h2
  simp [lastPairChoices, dget, Ne.symm h0, Ne.symm h1, Ne.symm h2]

theorem steps_cases (l : Loc) :
    l.steps = [] ∨ ∃ xs a, l.steps = xs ++ [a] := by
  rcases List.eq_nil_or_concat l.steps with h | ⟨xs, a, h⟩
  · exact Or.inl h
  · exact Or.inr ⟨xs, a, by simpa using h⟩

theorem appendStep_ordinary (ss : List Str) {step : Str} (hs : Ordinary step) :
    appendStep ss step = ss ++ [step] := by
  have h0 : step ≠ [] := hs.1
  have h1 : step ≠ dot := hs.2.1
  have h2 : step ≠ dotdot := hs.2.2
  have : dget lastPairChoices (ss.drop (ss.length - 1) ++ [step]) = none := by
    rcases List.eq_nil_or_concat ss with h | ⟨xs, a, h⟩
    · subst h; exact dget_lastPair_ordinary (p := []) hs [] (Or.inl rfl)
    · simp only [List.concat_eq_append] at h
      subst h; rw [drop_last_one]; exact dget_lastPair_ordinary hs _ (Or.inr rfl)
  simp [appendStep, h0, h1, h2, this]

theorem appendStep_move (l : Loc) (hl : LocOK l) (step : Str) :
    appendStep l.steps step = (l.move step).steps ∧ LocOK (l.move step) := by
  by_cases h0 : step = []
  · subst h0
    simp [appendStep, Loc.move, Loc.steps, LocOK, locNames]
  by_cases ho : Ordinary step
  · have h1 : step ≠ dot := ho.2.1
    have h2 : step ≠ dotdot := ho.2.2
    rw [appendStep_ordinary _ ho]
    cases l with
    | abs names =>
      simp only [Loc.move, lit_empty, lit_dot, lit_dotdot, h0, h1, h2, if_false, Loc.steps]
      refine ⟨by simp, ?_⟩
      intro n hn
      simp [locNames] at hn
      rcases hn with hn | hn
      · exact hl n hn
      · subst hn; exact ho
    | rel ups names =>
      simp only [Loc.move, lit_empty, lit_dot, lit_dotdot, h0, h1, h2, if_false, Loc.steps]
      refine ⟨by simp, ?_⟩
      intro n hn
      simp [locNames] at hn
      rcases hn with hn | hn
      · exact hl n hn
      · subst hn; exact ho
  have hsd : step = dot ∨ step = dotdot := by
    by_cases h1 : step = dot
    · exact Or.inl h1
    · by_cases h2 : step = dotdot
      · exact Or.inr h2
      · exact absurd ⟨h0, h1, h2⟩ ho
  cases l with
  | abs names =>
    rcases List.eq_nil_or_concat names with h | ⟨xs, a, h⟩
    · subst h
      rcases hsd with h | h <;> subst h <;>
        simp [appendStep, Loc.steps, Loc.move, lastPairChoices, dget, dot, dotdot, LocOK, locNames]
    · simp only [List.concat_eq_append] at h
      subst h
      have ha : Ordinary a := hl a (by simp [locNames])
      have hd : ∀ st, dget lastPairChoices
          ((([] :: (xs ++ [a])).drop (([] :: (xs ++ [a])).length - 1)) ++ [st]) = none := by
        intro st
        rw [← List.cons_append, drop_last_one]; exact dget_lastPair_name ha
      rcases hsd with h | h <;> subst h
      · simp only [appendStep, Loc.steps, Loc.move, lit_empty, lit_dot, lit_dotdot, hd]
        exact ⟨by simp [dot], by simp [dot]; exact hl⟩
      · simp only [appendStep, Loc.steps, Loc.move, lit_empty, lit_dot, lit_dotdot, hd]
        refine ⟨?_, ?_⟩
        · simp [dot, dotdot]
          rw [← List.cons_append, List.dropLast_concat]
        intro n hn
        refine hl n ?_
        simp [dot, dotdot, locNames] at hn ⊢
        exact Or.inl hn
  | rel ups names =>
    rcases List.eq_nil_or_concat names with h | ⟨xs, a, h⟩
    · subst h
      cases ups with
      | zero =>
        rcases hsd with h | h <;> subst h <;>
          simp [appendStep, Loc.steps, Loc.move, lastPairChoices, dget, dot, dotdot, LocOK, locNames]
      | succ k =>
        have e : Loc.steps (.rel (k + 1) []) = List.replicate k dotdot ++ [dotdot] := by
          simp [Loc.steps, List.replicate_succ', lit_dotdot]
        rw [e]
        rcases hsd with h | h <;> subst h
        · simp only [appendStep, drop_last_one]
          simp [Loc.move, lastPairChoices, dget, dot, dotdot, LocOK, locNames, Loc.steps, List.replicate_succ']
        · simp only [appendStep, drop_last_one]
          simp [Loc.move, lastPairChoices, dget, dot, dotdot, LocOK, locNames, Loc.steps, List.replicate_succ']
    · simp only [List.concat_eq_append] at h
      subst h
      have ha : Ordinary a := hl a (by simp [locNames])
      have e : Loc.steps (.rel ups (xs ++ [a])) = (List.replicate ups dotdot ++ xs) ++ [a] := by
        simp [Loc.steps, lit_dotdot]
      rw [e]
      rcases hsd with h | h <;> subst h
      · simp only [appendStep, drop_last_one, List.singleton_append, dget_lastPair_name ha]
        simp [Loc.move, dot, dotdot, Loc.steps]
        exact hl
      · simp only [appendStep, drop_last_one, List.singleton_append, dget_lastPair_name ha]
        have hm : Loc.move (.rel ups (xs ++ [a])) dotdot = .rel ups xs := by
          have : xs ++ [a] ≠ [] := by simp
          simp only [Loc.move, lit_empty, lit_dot, lit_dotdot]
          simp [dot, dotdot]
        rw [hm]
        refine ⟨by simp [dot, dotdot, Loc.steps], ?_⟩
        intro n hn
        exact hl n (by simp [locNames] at hn ⊢; exact Or.inl hn)

theorem foldl_appendStep (steps : List Str) : ∀ (l : Loc), LocOK l →
    steps.foldl appendStep l.steps = (steps.foldl Loc.move l).steps ∧ LocOK (steps.foldl Loc.move l) := by
  induction steps with
  | nil => intro l hl; exact ⟨rfl, hl⟩
  | cons s ss ih =>
    intro l hl
    obtain ⟨h1, h2⟩ := appendStep_move l hl s
    simp only [List.foldl_cons, h1]
    exact ih _ h2

theorem start_ok : LocOK (.rel 0 []) := by intro n hn; simp [locNames] at hn

theorem joinPaths_eq_text (steps : List Str) :
    joinPaths steps = (steps.foldl Loc.move (.rel 0 [])).text := by
  have h := (foldl_appendStep steps _ start_ok).1
  have h' : steps.foldl appendStep [] = (steps.foldl Loc.move (.rel 0 [])).steps := h
  unfold joinPaths Loc.text
  rw [h']
  rfl

/-- Moving by the steps of a location from anywhere relative-start gives the location back. -/
theorem foldl_move_steps (l : Loc) (hl : LocOK l) : l.steps.foldl Loc.move (.rel 0 []) = l := by
  have names : ∀ (ns : List Str) (l : Loc), (∀ n ∈ ns, Ordinary n) →
      ns.foldl Loc.move l = match l with
        | .abs m => .abs (m ++ ns)
        | .rel u m => .rel u (m ++ ns) := by
    intro ns
    induction ns with
    | nil => intro l _; cases l <;> simp
    | cons n ns ih =>
      intro l h
      have ho := h n (by simp)
      have h0 : n ≠ [] := ho.1
      have h1 : n ≠ dot := ho.2.1
      have h2 : n ≠ dotdot := ho.2.2
      rw [List.foldl_cons, ih _ (fun x hx => h x (by simp [hx]))]
      cases l <;> simp [Loc.move, lit_empty, lit_dot, lit_dotdot, h0, h1, h2]
  have ups : ∀ (k : Nat) (u : Nat), (List.replicate k dotdot).foldl Loc.move (.rel u []) = .rel (u + k) [] := by
    intro k
    induction k with
    | zero => intro u; simp
    | succ k ih =>
      intro u
      simp only [List.replicate_succ, List.foldl_cons]
      have : Loc.move (.rel u []) dotdot = .rel (u + 1) [] := by
        simp [Loc.move, lit_empty, lit_dot, lit_dotdot, dot, dotdot]
      rw [this, ih]; congr 1; omega
  cases l with
  | abs ns =>
    simp only [Loc.steps, List.foldl_cons]
    have : Loc.move (.rel 0 []) "".toList = .abs [] := by simp [Loc.move]
    rw [this, names ns _ hl]; simp
  | rel u ns =>
    simp only [Loc.steps, lit_dotdot, List.foldl_append, ups]
    rw [names ns _ hl]; simp

end Model
