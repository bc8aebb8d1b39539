import Verif.Lemmas.Capture
/-
C33, C34: targeting.
-/
set_option linter.unusedSimpArgs false
namespace Props
open Py Model Spec

/-- C33. Targeting from a landing cell (anywhere in the non-negative quadrant, also outside the
sheet), with one direction or two perpendicular ones, returns `t` exactly when `t` is the first full
cell in walking order. -/
theorem C33_first_full (m : Mat) (dn land : Coords) (moves : List Dir) (d1 : Dir) (d2 : Option Dir)
    (hm : Moves moves d1 d2) (hdn : MarginOf m dn) (h1 : 0 ≤ land.row) (h2 : 0 ≤ land.col) (t : Coords) :
    targetOpposite m dn land moves = .ok t ↔ FirstFull m land d1 d2 t := by
  have h := targetOpposite_ok m dn land moves d1 d2 hm hdn h1 h2
  constructor
  · intro e; rw [e] at h; exact h
  · intro hf
    cases hr : targetOpposite m dn land moves with
    | ok x => rw [hr] at h; rw [firstFull_unique h hf]
    | error e => rw [hr] at h; exact absurd h.2 (firstFull_not_none hf)

/-- C33. It fails, always with "empty capture", exactly when no visited cell is full. -/
theorem C33_fails_iff_none (m : Mat) (dn land : Coords) (moves : List Dir) (d1 : Dir) (d2 : Option Dir)
    (hm : Moves moves d1 d2) (hdn : MarginOf m dn) (h1 : 0 ≤ land.row) (h2 : 0 ≤ land.col) :
    ((∃ e, targetOpposite m dn land moves = .error e) ↔ NoneFull m land d1 d2) ∧
    (∀ e, targetOpposite m dn land moves = .error e → e = .emptyCapture) := by
  have h := targetOpposite_ok m dn land moves d1 d2 hm hdn h1 h2
  cases hr : targetOpposite m dn land moves with
  | ok x =>
    rw [hr] at h
    refine ⟨⟨?_, ?_⟩, ?_⟩
    · rintro ⟨e, he⟩; simp at he
    · intro hn; exact absurd hn (firstFull_not_none h)
    · intro e he; simp at he
  | error e =>
    rw [hr] at h
    refine ⟨⟨fun _ => h.2, fun _ => ⟨e, rfl⟩⟩, ?_⟩
    intro e' he'; simp at he'; rw [← he']; exact h.1

/-- The sheet of the documentation of `_target_opposite`. -/
private def docSheet : Mat := ⟨5, 6, fun i j =>
  ([[false, false, false, false, false, false], [false, false, false, false, false, false],
    [false, false, false, true, true, true], [false, false, true, false, false, true],
    [false, false, true, true, true, true]].getD i []).getD j false⟩

example : MarginOf docSheet ⟨4, 5⟩ := by
  refine ⟨by decide, by decide, by decide, by decide, ?_⟩
  rintro p ⟨i, j, rfl, hi, hj, _⟩
  simp [docSheet] at *; omega
example : targetOpposite docSheet ⟨4, 5⟩ ⟨0, 0⟩ [.D, .R] = .ok ⟨3, 2⟩ := rfl
example : targetOpposite docSheet ⟨4, 5⟩ ⟨0, 0⟩ [.R, .D] = .ok ⟨2, 3⟩ := rfl
example : targetOpposite docSheet ⟨4, 5⟩ ⟨3, 10⟩ [.L] = .ok ⟨3, 5⟩ := rfl
example : targetOpposite docSheet ⟨4, 5⟩ ⟨0, 0⟩ [.U, .R] = .error .emptyCapture := rfl

/-- C33, what the proviso "non-negative landing" excludes: from a negative landing cell nothing is
ever found. -/
theorem C33_negative_landing (m : Mat) (dn land : Coords) (d : Dir) (rest : List Dir)
    (h : (land.row < 0 ∧ land.row ≤ dn.row) ∨ (land.col < 0 ∧ land.col ≤ dn.col)) :
    targetOpposite m dn land (d :: rest) = .error .emptyCapture := by
  have hc : ¬ (0 ≤ (clipLand dn land (d :: rest)).row ∧ 0 ≤ (clipLand dn land (d :: rest)).col) := by
    simp only [clipLand]
    rcases h with h | h
    · rw [if_neg (by omega)]; omega
    · intro hh
      have := hh.2
      rw [if_neg (by omega)] at this; omega
  simp only [targetOpposite]
  unfold oppositeLoop
  rw [if_neg hc]

example : targetOpposite docSheet ⟨4, 5⟩ ⟨-1, 4⟩ [.D] = .error .emptyCapture := rfl

/-- C34. From a full cell one move goes to the last cell of the contiguous run of full cells. -/
theorem C34_one_move (m : Mat) (dn land : Coords) (d : Dir) (hdn : MarginOf m dn) (hf : FullAt m land) :
    ∃ k, RunEnds m land d k ∧ targetSame m dn land [d] = .ok (stepsFrom land d k) := by
  obtain ⟨v, k, hv, hk, hr⟩ := sameLen_run (d := d) hf
  refine ⟨k, hr, ?_⟩
  rw [targetSame_start hdn hf]
  cases d <;> simp [targetSameLoop, targetSameMove, hv, hk, stepsFrom, unit] <;> omega

/-- C34. Two moves in perpendicular directions go, independently, to the ends of both runs through
the landing cell. -/
theorem C34_two_moves (m : Mat) (dn land : Coords) (d e : Dir) (hp : Perp d e) (hdn : MarginOf m dn)
    (hf : FullAt m land) :
    ∃ k l, RunEnds m land d k ∧ RunEnds m land e l ∧
      targetSame m dn land [d, e] = .ok (stepsFrom (stepsFrom land d k) e l) := by
  obtain ⟨v, k, hv, hk, hr⟩ := sameLen_run (d := d) hf
  obtain ⟨w, l, hw, hl, hr'⟩ := sameLen_run (d := e) hf
  refine ⟨k, l, hr, hr', ?_⟩
  rw [targetSame_start hdn hf]
  cases d <;> cases e <;> simp [Perp, unit] at hp <;>
    simp [targetSameLoop, targetSameMove, hv, hk, hw, hl, stepsFrom, unit] <;> omega

/-- C34. The end of a run is unique, so the two theorems above determine the results. -/
theorem C34_run_end_unique (m : Mat) (p : Coords) (d : Dir) (k l : Nat) (hk : RunEnds m p d k)
    (hl : RunEnds m p d l) : k = l := runEnds_unique hk hl

/-- C34. The order of two perpendicular moves is irrelevant. -/
theorem C34_order_irrelevant (m : Mat) (dn land : Coords) (d e : Dir) (hp : Perp d e)
    (hdn : MarginOf m dn) (hf : FullAt m land) :
    targetSame m dn land [d, e] = targetSame m dn land [e, d] := by
  have hp' : Perp e d := by revert hp; cases d <;> cases e <;> decide
  obtain ⟨k, l, h1, h2, h3⟩ := C34_two_moves m dn land d e hp hdn hf
  obtain ⟨l', k', g2, g1, g3⟩ := C34_two_moves m dn land e d hp' hdn hf
  rw [h3, g3, runEnds_unique g1 h1, runEnds_unique g2 h2]
  cases d <;> cases e <;> simp [Perp, unit] at hp <;> simp [stepsFrom, unit]

/-- C34. From a cell that is not full it fails with "empty capture". -/
theorem C34_not_full_fails (m : Mat) (dn land : Coords) (moves : List Dir) (hdn : MarginOf m dn)
    (h1 : 0 ≤ land.row) (h2 : 0 ≤ land.col) (hf : ¬ FullAt m land) :
    targetSame m dn land moves = .error .emptyCapture := by
  unfold targetSame
  by_cases h : land.row ≤ dn.row ∧ land.col ≤ dn.col
  · rw [if_pos h]
    obtain ⟨a, b, c, d, _⟩ := hdn
    rcases at_not_full h1 h2 hf with e | e
    · simp only [Mat.at?, seqIndex_nonneg h1, seqIndex_nonneg h2] at e
      rw [if_pos (by omega), if_pos (by omega)] at e
      simp at e
    · rw [e]
  · rw [if_neg h]

example : FullAt docSheet ⟨2, 5⟩ := ⟨2, 5, rfl, by decide, by decide, rfl⟩
example : targetSame docSheet ⟨4, 5⟩ ⟨2, 5⟩ [.D, .L] = .ok ⟨4, 3⟩ := rfl
example : targetSame docSheet ⟨4, 5⟩ ⟨2, 2⟩ [.D, .R] = .error .emptyCapture := rfl
example : targetSame docSheet ⟨4, 5⟩ ⟨10, 3⟩ [.U] = .error .emptyCapture := rfl

end Props
