import Verif.Props.Expand
/-
C141: for a second edge given as `..`, the order of its two moves makes no difference.
-/
namespace Props
open Py Model Spec

private theorem nd_order (m : Mat) (up dn p : Coords) (mod : Option Char) (d e : Dir) (hp : Perp d e)
    (hdn : MarginOf m dn) (hf : FullAt m p) :
    resolveNd m up dn ⟨⟨".".toList, ".".toList⟩, some [d, e], mod⟩ p =
      resolveNd m up dn ⟨⟨".".toList, ".".toList⟩, some [e, d], mod⟩ p := by
  have hc : resolveCell ⟨".".toList, ".".toList⟩ up dn (some p) = .ok p := rfl
  have h := C34_order_irrelevant m dn p d e hp hdn hf
  have hnn : 0 ≤ p.row ∧ 0 ≤ p.col := by
    obtain ⟨i, j, rfl, _⟩ := hf
    exact ⟨Int.natCast_nonneg _, Int.natCast_nonneg _⟩
  have hs := (stateAt_iff hnn.1 hnn.2).2 hf
  simp only [resolveNd, hc, hs, h, if_true]

/-- C141. If the first edge ends on a full cell, the second edge `..` with two moves gives the same
rectangle whichever of them is written first, whatever its modifier and the expansions.
Missing for the full property: first edges ending on an empty cell, see `C141_order_refuted`. -/
theorem C141_order_partial (m : Mat) (up dn : Coords) (st : Edge) (base : Option Coords) (p : Coords)
    (mod : Option Char) (d e : Dir) (exp : List ExpGroup) (hp : Perp d e) (hdn : MarginOf m dn)
    (hst : resolveSt m up dn st base = .ok p) (hf : FullAt m p) :
    resolveCaptureRect m up dn st (some ⟨⟨".".toList, ".".toList⟩, some [d, e], mod⟩) exp base =
      resolveCaptureRect m up dn st (some ⟨⟨".".toList, ".".toList⟩, some [e, d], mod⟩) exp base := by
  simp only [resolveCaptureRect, hst, nd_order m up dn p mod d e hp hdn hf]

/-- C141. A first edge with moves, unless marked `+`, always ends on a full cell. -/
theorem C141_first_full (m : Mat) (up dn : Coords) (land : Cell) (base : Option Coords) (q p : Coords)
    (mod : Option Char) (moves : List Dir) (d1 : Dir) (d2 : Option Dir) (hm : Moves moves d1 d2)
    (hdn : MarginOf m dn) (hq : resolveCell land up dn base = .ok q) (h1 : 0 ≤ q.row) (h2 : 0 ≤ q.col)
    (hmod : mod ≠ some '+') (hst : resolveSt m up dn ⟨land, some moves, mod⟩ base = .ok p) : FullAt m p := by
  obtain ⟨_, hfull, _, hempty⟩ := C37_first_edge m up dn base land q hq h1 h2 hdn moves d1 d2 hm mod
  by_cases hf : FullAt m q
  · rw [hfull hf hmod] at hst
    injection hst with hst
    rw [← hst]; exact hf
  · obtain ⟨_, _, _, h, _⟩ := (hempty hf p).1 hst
    exact h

/-- C141. With a single move `+` too: the first edge ends on a full cell. -/
theorem C141_first_full_one (m : Mat) (up dn : Coords) (land : Cell) (base : Option Coords) (q p : Coords)
    (mod : Option Char) (d : Dir)
    (hdn : MarginOf m dn) (hq : resolveCell land up dn base = .ok q) (h1 : 0 ≤ q.row) (h2 : 0 ≤ q.col)
    (hst : resolveSt m up dn ⟨land, some [d], mod⟩ base = .ok p) : FullAt m p := by
  by_cases hmod : mod = some '+'
  · subst hmod
    obtain ⟨_, _, hplus, hempty⟩ := C37_first_edge m up dn base land q hq h1 h2 hdn [d] d none (.one d) (some '+')
    by_cases hf : FullAt m q
    · rw [hplus hf] at hst
      obtain ⟨k, ⟨hk, _⟩, he⟩ := C34_one_move m dn q d hdn hf
      rw [he] at hst
      injection hst with hst
      rw [← hst]; exact hk k (Nat.le_refl k)
    · obtain ⟨_, _, _, h, _⟩ := (hempty hf p).1 hst
      exact h
  · exact C141_first_full m up dn land base q p mod [d] d none (.one d) hdn hq h1 h2 hmod hst

/-- Full cells on the first row and on the first column, but not at their corner. -/
private def hollow : Mat := ⟨4, 4, fun i j => decide ((i, j) ∈ [(0, 2), (0, 3), (2, 0), (2, 3), (3, 2)])⟩

/-- The corner of two runs of full cells is empty. -/
private def bent : Mat := ⟨4, 4, fun i j =>
  decide ((i, j) ∈ [(0, 0), (0, 1), (1, 0), (1, 3), (3, 1)])⟩

/-- C141, violated: from an empty first cell the order of the moves of `..` matters, both for a first
edge without moves, `A1:..(RD)` and `A1:..(DR)`, and for one that goes on to the corner of two runs of
full cells, `A1(RD+):..(RD)` and `A1(RD+):..(DR)`. -/
theorem C141_order_refuted :
    (∃ m up dn, MarginOf m dn ∧ up = ⟨0, 0⟩ ∧
      resolveCaptureRect m up dn ⟨⟨"1".toList, "A".toList⟩, none, none⟩
        (some ⟨⟨".".toList, ".".toList⟩, some [.R, .D], none⟩) [] none = .ok (⟨0, 0⟩, some ⟨0, 2⟩) ∧
      resolveCaptureRect m up dn ⟨⟨"1".toList, "A".toList⟩, none, none⟩
        (some ⟨⟨".".toList, ".".toList⟩, some [.D, .R], none⟩) [] none = .ok (⟨0, 0⟩, some ⟨2, 0⟩)) ∧
    (∃ m up dn, MarginOf m dn ∧ up = ⟨0, 0⟩ ∧
      resolveCaptureRect m up dn ⟨⟨"1".toList, "A".toList⟩, some [.R, .D], some '+'⟩
        (some ⟨⟨".".toList, ".".toList⟩, some [.R, .D], none⟩) [] none = .ok (⟨1, 1⟩, some ⟨1, 3⟩) ∧
      resolveCaptureRect m up dn ⟨⟨"1".toList, "A".toList⟩, some [.R, .D], some '+'⟩
        (some ⟨⟨".".toList, ".".toList⟩, some [.D, .R], none⟩) [] none = .ok (⟨1, 1⟩, some ⟨3, 1⟩)) := by
  refine ⟨⟨hollow, ⟨0, 0⟩, ⟨3, 3⟩, ?_, rfl, rfl, rfl⟩, ⟨bent, ⟨0, 0⟩, ⟨3, 3⟩, ?_, rfl, rfl, rfl⟩⟩ <;>
    · refine ⟨by decide, by decide, by decide, by decide, ?_⟩
      rintro _ ⟨i, j, rfl, hi, hj, _⟩
      have hi' : i < 4 := hi
      have hj' : j < 4 := hj
      simp only
      omega

/-- A table with a full first row and first column. -/
private def framed : Mat := ⟨4, 4, fun i j => decide ((i, j) ∈ [(1, 1), (1, 2), (1, 3), (2, 1), (3, 1), (2, 2)])⟩

/-- From `A1`, going right and down finds `B2`; from there both orders reach the whole table. -/
example : Perp .R .D ∧ MarginOf framed ⟨3, 3⟩ ∧
    resolveSt framed ⟨1, 1⟩ ⟨3, 3⟩ ⟨⟨"1".toList, "A".toList⟩, some [.R, .D], none⟩ none = .ok ⟨1, 1⟩ ∧
    FullAt framed ⟨1, 1⟩ ∧
    resolveCaptureRect framed ⟨1, 1⟩ ⟨3, 3⟩ ⟨⟨"1".toList, "A".toList⟩, some [.R, .D], none⟩
      (some ⟨⟨".".toList, ".".toList⟩, some [.D, .R], none⟩) [] none = .ok (⟨1, 1⟩, some ⟨3, 3⟩) := by
  refine ⟨by decide, ⟨by decide, by decide, by decide, by decide, ?_⟩, rfl, ⟨1, 1, rfl, by decide, by decide, rfl⟩, rfl⟩
  rintro _ ⟨i, j, rfl, hi, hj, _⟩
  have hi' : i < 4 := hi
  have hj' : j < 4 := hj
  simp only
  omega

end Props
