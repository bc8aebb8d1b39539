import Verif.Props.MapPath
/-
C168. Mapping several paths.
-/
namespace Props
open Py Model Spec

/-- C168. Mapping several paths gives as many, in the same order, each the one that mapping the path alone gives. -/
theorem C168_each (E : RegexLib) (pm : Pmod) (ps qs : List Str) :
    pm.mapPaths E ps = .ok qs ↔ qs.length = ps.length ∧ ∀ (i : Nat) (p : Str), ps[i]? = some p → ∃ q, qs[i]? = some q ∧ pm.mapPath E p = .ok q := by
  induction ps generalizing qs with
  | nil =>
    constructor
    · rintro h
      cases h
      exact ⟨rfl, fun i p h => (nomatch h)⟩
    · rintro ⟨h, -⟩
      rw [List.length_eq_zero_iff.1 h]
      rfl
  | cons p ps ih =>
    unfold Pmod.mapPaths
    constructor
    · intro h
      cases hp : pm.mapPath E p with
      | error e => rw [hp] at h; cases h
      | ok x =>
        rw [hp] at h
        dsimp only at h
        cases hr : pm.mapPaths E ps with
        | error e => rw [hr] at h; cases h
        | ok xs =>
          rw [hr] at h
          cases h
          obtain ⟨h1, h2⟩ := (ih xs).1 hr
          refine ⟨by simp [h1], fun i p' hi => ?_⟩
          cases i with
          | zero => cases hi; exact ⟨x, rfl, hp⟩
          | succ i => exact h2 i p' hi
    · rintro ⟨h1, h2⟩
      cases qs with
      | nil => cases h1
      | cons q qs =>
        obtain ⟨q', e, hq⟩ := h2 0 p rfl
        cases e
        rw [hq]
        dsimp only
        rw [(ih qs).2 ⟨by simpa using h1, fun i p' hi => h2 (i + 1) p' hi⟩]

/-- C168. It fails exactly if mapping one of the paths fails, and as the first of them. -/
theorem C168_fails (E : RegexLib) (pm : Pmod) (ps : List Str) (e : PyErr) :
    pm.mapPaths E ps = .error e ↔ ∃ before p after, ps = before ++ p :: after ∧ (∀ x ∈ before, ∃ y, pm.mapPath E x = .ok y) ∧
      pm.mapPath E p = .error e := by
  induction ps with
  | nil =>
    constructor
    · intro h; cases h
    · rintro ⟨before, p, after, h, -⟩
      simp at h
  | cons a ps ih =>
    unfold Pmod.mapPaths
    cases ha : pm.mapPath E a with
    | error e' =>
      dsimp only
      constructor
      · intro h
        cases h
        exact ⟨[], a, ps, rfl, fun _ h => (nomatch h), ha⟩
      · rintro ⟨before, p, after, h1, h2, h3⟩
        cases before with
        | nil =>
          cases h1
          rw [ha] at h3
          cases h3
          rfl
        | cons b before =>
          cases h1
          obtain ⟨y, hy⟩ := h2 a (by simp)
          rw [ha] at hy
          cases hy
    | ok x =>
      dsimp only
      have hiff : (match pm.mapPaths E ps with
          | .error e => Except.error e
          | .ok xs => Except.ok (x :: xs)) = .error e ↔ pm.mapPaths E ps = .error e := by
        cases pm.mapPaths E ps with
        | error e' => simp
        | ok xs => simp
      refine Iff.trans hiff (ih.trans ?_)
      constructor
      · rintro ⟨before, p, after, rfl, h2, h3⟩
        refine ⟨a :: before, p, after, rfl, ?_, h3⟩
        intro z hz
        rcases List.mem_cons.1 hz with rfl | hz
        · exact ⟨x, ha⟩
        · exact h2 z hz
      · rintro ⟨before, p, after, h1, h2, h3⟩
        cases before with
        | nil =>
          cases h1
          rw [ha] at h3
          cases h3
        | cons b before =>
          cases h1
          exact ⟨before, p, after, rfl, fun z hz => h2 z (by simp [hz]), h3⟩

/-- Three paths, through a mapping that renames a step of two of them. -/
example (E : RegexLib) : (Pmod.mk none [("".toList, .mk none [("a".toList, .mk (some "b".toList) [] [])] [])] []).mapPaths E
    ["/a/x".toList, "/c".toList, "/a".toList] = .ok ["/b/x".toList, "/c".toList, "/b".toList] := rfl

/-- A library where every expression matches, and no alias can be expanded. -/
private def noExpand : RegexLib := ⟨Unit, fun _ => true, fun _ _ => some (), fun _ _ => .error .lookupError⟩

/-- The second of these paths cannot be mapped. -/
example : (Pmod.mk none [("".toList, .mk none [] [("x".toList, .mk (some "\\9".toList) [] [])])] []).mapPaths noExpand
    ["".toList, "/a".toList, "".toList] = .error .lookupError := rfl

end Props
