import Verif.Lemmas.PmodPlace
/-
Building and merging mappings alters no others.
-/
namespace Props
open Py Model Spec Lemmas

/-- C129: whatever its outcome, building mappings from tuples leaves every object and dictionary as it was, among them the two default
arguments that all mappings share. -/
theorem C129_unchanged (E : RegexLib) (ts : List (Option Str × Option Str)) (h : PmHeap) (w : Sound h) :
    Untouched h (fromTuplesH E ts h).1 ∧ Sound (fromTuplesH E ts h).1 :=
  ⟨(fromTuplesH_den E ts w).1, (fromTuplesH_den E ts w).2.1⟩

/-- C129: appending in place, one step after the other, makes the mappings that the tuples stand for, whatever mappings there are already:
a new object. -/
theorem C129_built (E : RegexLib) (ts : List (Option Str × Option Str)) (h : PmHeap) (w : Sound h) (t : Pmod)
    (ht : pmodsFromTuples E ts = .ok t) :
    (fromTuplesH E ts h).2 = .ok h.objs.length ∧ Means (fromTuplesH E ts h).1 h.objs.length t := by
  have := (fromTuplesH_den E ts w).2.2
  rw [ht] at this
  exact this

/-- C129: and it fails if a pattern does not compile. -/
theorem C129_fails (E : RegexLib) (ts : List (Option Str × Option Str)) (h : PmHeap) (w : Sound h) (e : PyErr)
    (ht : pmodsFromTuples E ts = .error e) : (fromTuplesH E ts h).2 = .error e := by
  have := (fromTuplesH_den E ts w).2.2
  rw [ht] at this
  exact this

/-- C129: merging makes the merged mappings, and leaves every object and dictionary as it was. -/
theorem C129_merge (F : Nat) (h : PmHeap) (w : Sound h) (a b : Nat) (ta tb : Pmod) (ha : Means h a ta) (hb : Means h b tb)
    (hF : depth tb ≤ F) :
    ∃ h' m, pmergeRef F h a b = some (h', m) ∧ Means h' m (ta.merge tb) ∧ Untouched h h' ∧ Sound h' := by
  obtain ⟨l1, l2⟩ := pmergeRef_like F h a b w
  obtain ⟨hv, m, e, _, d⟩ := pmergeH_den F h.view a b ta tb ha hb ((within_depth tb).mono F hF)
  rw [e] at l1
  cases hx : pmergeRef F h a b with
  | none => rw [hx] at l1; cases l1
  | some p =>
    rw [hx] at l1
    simp only [Option.map_some, Option.some.injEq, Prod.mk.injEq] at l1
    obtain ⟨l1a, l1b⟩ := l1
    obtain ⟨u, w'⟩ := l2 p.1 p.2 hx
    refine ⟨p.1, p.2, rfl, ?_, u, w'⟩
    unfold Means
    rw [l1a, l1b]
    exact d

/-- C129: mappings keep their meaning, whatever is built and merged after them. -/
theorem C129_history (F : Nat) (E : RegexLib) (ops : List PmOp) (h : PmHeap) (w : Sound h) :
    Sound (pmRun F E h ops) ∧ Untouched h (pmRun F E h ops) ∧ ∀ r t, Means h r t → Means (pmRun F E h ops) r t := by
  have key : Sound (pmRun F E h ops) ∧ Untouched h (pmRun F E h ops) := by
    induction ops generalizing h with
    | nil => exact ⟨w, untouched_refl h⟩
    | cons op ops ih =>
      have one : Untouched h (pmStep F E h op) ∧ Sound (pmStep F E h op) := by
        cases op with
        | fromTuples ts => exact C129_unchanged E ts h w
        | merge a b =>
          simp only [pmStep]
          cases hx : pmergeRef F h a b with
          | none => exact ⟨untouched_refl h, w⟩
          | some p => exact (pmergeRef_like F h a b w).2 p.1 p.2 hx
      obtain ⟨w', u⟩ := ih (pmStep F E h op) one.2
      exact ⟨w', untouched_trans one.1 u⟩
  exact ⟨key.1, key.2, fun r t d => untouched_means key.2 w d⟩

/-- C129: the history may begin when the module is loaded. -/
theorem C129_loaded : Sound PmHeap.loaded := sound_loaded

/-- Patterns are matched literally, and all compile but the empty one. -/
def exLib : RegexLib where
  Match := Str
  compiles := fun p => !p.isEmpty
  fullmatch := fun p s => if p = s then some s else none
  expand := fun _ a => .ok a

/-- C129: merged mappings share dictionaries with those they come from. Appending into them, as building does, would alter the others: here
into the merger of `/a → b` with no mappings. -/
theorem C129_sharing : ∃ (ops : List PmOp) (m : Nat) (t t' : Pmod), m ≠ 0 ∧
    Means (pmRun 9 exLib .loaded ops) 0 t ∧ Means (appendIntoSteps (pmRun 9 exLib .loaded ops) m "x".toList).1 0 t' ∧
    t.steps.length = 1 ∧ t'.steps.length = 2 := by
  refine ⟨[.fromTuples [(some "a".toList, some "b".toList)], .fromTuples [], .merge 0 2], 3,
    .mk none [("a".toList, .mk (some "b".toList) [] [])] [],
    .mk none [("a".toList, .mk (some "b".toList) [] []), ("x".toList, .mk none [] [])] [], by decide, ?_, ?_, rfl, rfl⟩
  · have hv : (pmRun 9 exLib .loaded [.fromTuples [(some "a".toList, some "b".toList)], .fromTuples [], .merge 0 2]).view =
        [⟨none, [("a".toList, 1)], []⟩, ⟨some "b".toList, [], []⟩, ⟨none, [], []⟩, ⟨none, [("a".toList, 1)], []⟩] := by
      decide +kernel
    unfold Means
    rw [hv]
    exact .mk 0 ⟨none, [("a".toList, 1)], []⟩ _ [] rfl
      (.cons _ 1 _ _ _ (.mk 1 ⟨some "b".toList, [], []⟩ [] [] rfl .nil .nil) .nil) .nil
  · have hv : (appendIntoSteps (pmRun 9 exLib .loaded
        [.fromTuples [(some "a".toList, some "b".toList)], .fromTuples [], .merge 0 2]) 3 "x".toList).1.view =
        [⟨none, [("a".toList, 1), ("x".toList, 4)], []⟩, ⟨some "b".toList, [], []⟩, ⟨none, [], []⟩,
          ⟨none, [("a".toList, 1), ("x".toList, 4)], []⟩, ⟨none, [], []⟩] := by
      decide +kernel
    unfold Means
    rw [hv]
    exact .mk 0 ⟨none, [("a".toList, 1), ("x".toList, 4)], []⟩ _ [] rfl
      (.cons _ 1 _ _ _ (.mk 1 ⟨some "b".toList, [], []⟩ [] [] rfl .nil .nil)
        (.cons _ 4 _ _ _ (.mk 4 ⟨none, [], []⟩ [] [] rfl .nil .nil) .nil)) .nil

/-! Concrete cases: two mappings are built and merged; patterns that are named again go to the end. -/

example : Sound (pmRun 9 exLib .loaded
    [.fromTuples [(some "a/b".toList, some "c".toList), (some "a/~d".toList, some "e".toList)], .fromTuples [(some "a".toList, some "f".toList)]]) :=
  (C129_history 9 exLib _ _ C129_loaded).1

example : (fromTuplesH exLib [(some "~p/b".toList, some "c".toList), (some "~q".toList, some "d".toList), (some "~p".toList, some "e".toList)]
    .loaded).1.view =
    [⟨none, [], [("q".toList, 3), ("p".toList, 1)]⟩, ⟨some "e".toList, [("b".toList, 2)], []⟩, ⟨some "c".toList, [], []⟩,
      ⟨some "d".toList, [], []⟩] := by decide +kernel

example : (pmodsFromTuples exLib [(some "a".toList, some "b".toList), (some "~".toList, some "c".toList)] matches .error .valueError) = true := by
  decide +kernel

example : ((fromTuplesH exLib [(some "a".toList, some "b".toList), (some "~".toList, some "c".toList)] .loaded).2
    matches .error .valueError) = true := by decide +kernel

example : Means (fromTuplesH exLib [(some "a".toList, some "b".toList)] .loaded).1 0 (.mk none [("a".toList, .mk (some "b".toList) [] [])] []) :=
  (C129_built exLib [(some "a".toList, some "b".toList)] .loaded C129_loaded _ (by rfl)).2

end Props
