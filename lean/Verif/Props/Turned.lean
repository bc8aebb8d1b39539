import Verif.Spec.Turned
import Verif.Props.SheetCache
import Verif.Props.Expand
/-
C140: captures treat rows and columns alike.
-/
namespace Props
open Py Model Spec

/-- The outcome of targeting, turned. -/
private def turnRes : Except PyErr Coords → Except PyErr Coords
  | .ok p => .ok (turnCoords p)
  | .error e => .error e

private def turnRect (r : Rect) : Rect := ⟨r.c1, r.c2, r.r1, r.r2⟩

private theorem turn_at (m : Mat) (r c : Int) : (turnSheet m).at? c r = m.at? r c := by
  simp only [Mat.at?, turnSheet]
  cases seqIndex m.rows r <;> cases seqIndex m.cols c <;> rfl

private theorem turn_extract (m : Mat) (p : Coords) (d : Dir) :
    extractVec (turnSheet m) (turnCoords p) (turnDir d) = extractVec m p d := by
  cases d <;> rfl

private theorem turn_move (p : Coords) (d : Dir) (k : Nat) :
    (turnCoords p).move (turnDir d) k = turnCoords (p.move d k) := by
  cases d <;> simp [Coords.move, turnCoords, turnDir, Dir.vec]

private theorem turn_loop (m : Mat) (d1 : Dir) (d2 : Option Dir) : ∀ (fuel : Nat) (p : Coords),
    oppositeLoop (turnSheet m) (turnDir d1) (d2.map turnDir) (turnCoords p) fuel =
      turnRes (oppositeLoop m d1 d2 p fuel) := by
  intro fuel
  induction fuel with
  | zero => intro p; rfl
  | succ n ih =>
    intro p
    unfold oppositeLoop
    rw [turn_extract]
    by_cases h : 0 ≤ p.row ∧ 0 ≤ p.col
    · rw [if_pos h, if_pos (show 0 ≤ (turnCoords p).row ∧ 0 ≤ (turnCoords p).col from ⟨h.2, h.1⟩)]
      cases extractVec m p d1 with
      | none => rfl
      | some v =>
        simp only
        cases v.findIdx? (fun b => b) with
        | some i => simp only [turnRes, turn_move]
        | none =>
          cases d2 with
          | none => rfl
          | some d => simp only [Option.map_some, turn_move]; exact ih _
    · rw [if_neg h, if_neg (show ¬ (0 ≤ (turnCoords p).row ∧ 0 ≤ (turnCoords p).col) from fun c => h ⟨c.2, c.1⟩)]
      rfl

private theorem turn_mem (moves : List Dir) (d : Dir) : turnDir d ∈ moves.map turnDir ↔ d ∈ moves := by
  simp only [List.mem_map]
  constructor
  · rintro ⟨e, he, h⟩
    cases d <;> cases e <;> simp [turnDir] at h <;> exact he
  · intro h; exact ⟨d, h, rfl⟩

private theorem turn_clip (dn p : Coords) (moves : List Dir) :
    clipLand (turnCoords dn) (turnCoords p) (moves.map turnDir) = turnCoords (clipLand dn p moves) := by
  have hu : Dir.U ∈ moves.map turnDir ↔ Dir.L ∈ moves := turn_mem moves .L
  have hl : Dir.L ∈ moves.map turnDir ↔ Dir.U ∈ moves := turn_mem moves .U
  simp only [clipLand, turnCoords, hu, hl]

private theorem turn_opposite (m : Mat) (dn p : Coords) (moves : List Dir) :
    targetOpposite (turnSheet m) (turnCoords dn) (turnCoords p) (moves.map turnDir) =
      turnRes (targetOpposite m dn p moves) := by
  cases moves with
  | nil => rfl
  | cons d ds =>
    have h1 : (ds.map turnDir).head? = ds.head?.map turnDir := by cases ds <;> rfl
    have h2 : (turnSheet m).rows + (turnSheet m).cols + 2 = m.rows + m.cols + 2 := by
      simp only [turnSheet]; omega
    have h3 := turn_clip dn p (d :: ds)
    simp only [List.map_cons] at h3
    simp only [targetOpposite, List.map_cons, h1, h2, h3]
    exact turn_loop m d _ _ _

private theorem turn_same1 (m : Mat) (p t : Coords) (d : Dir) :
    targetSameMove (turnSheet m) (turnCoords p) (turnCoords t) (turnDir d) = turnRes (targetSameMove m p t d) := by
  unfold targetSameMove
  rw [turn_extract]
  cases extractVec m p d with
  | none => rfl
  | some v => cases d <;> rfl

private theorem turn_sames (m : Mat) (p : Coords) : ∀ (moves : List Dir) (t : Coords),
    targetSameLoop (turnSheet m) (turnCoords p) (turnCoords t) (moves.map turnDir) =
      turnRes (targetSameLoop m p t moves) := by
  intro moves
  induction moves with
  | nil => intro t; rfl
  | cons d ds ih =>
    intro t
    simp only [List.map_cons, targetSameLoop, turn_same1]
    cases targetSameMove m p t d with
    | error e => rfl
    | ok t' => simp only [turnRes]; exact ih t'

private theorem turn_same (m : Mat) (dn p : Coords) (moves : List Dir) :
    targetSame (turnSheet m) (turnCoords dn) (turnCoords p) (moves.map turnDir) = turnRes (targetSame m dn p moves) := by
  unfold targetSame
  by_cases h : p.row ≤ dn.row ∧ p.col ≤ dn.col
  · rw [if_pos h, if_pos (show (turnCoords p).row ≤ (turnCoords dn).row ∧ (turnCoords p).col ≤ (turnCoords dn).col from ⟨h.2, h.1⟩)]
    rw [show (turnSheet m).at? (turnCoords p).row (turnCoords p).col = m.at? p.row p.col from turn_at m p.row p.col]
    cases m.at? p.row p.col with
    | none => rfl
    | some b => cases b <;> simp only [turn_sames] <;> rfl
  · rw [if_neg h, if_neg (show ¬ ((turnCoords p).row ≤ (turnCoords dn).row ∧ (turnCoords p).col ≤ (turnCoords dn).col) from fun c => h ⟨c.2, c.1⟩)]
    rfl

private theorem turn_any (m : Mat) (a b c d : Int) : (turnSheet m).anyIn c d a b = m.anyIn a b c d := by
  rw [Bool.eq_iff_iff]
  simp only [Mat.anyIn, turnSheet, List.any_eq_true, List.mem_range, Bool.and_eq_true, decide_eq_true_eq]
  constructor
  · rintro ⟨i, hi, h1, j, hj, h2, h3⟩; exact ⟨j, hj, of_decide_eq_true h2, i, hi, of_decide_eq_true h1, h3⟩
  · rintro ⟨i, hi, h1, j, hj, h2, h3⟩; exact ⟨j, hj, decide_eq_true h2, i, hi, decide_eq_true h1, h3⟩

private theorem turn_grow (r : Rect) (d : Dir) : (turnRect r).grow (turnDir d) = turnRect (r.grow d) := by
  cases d <;> rfl

private theorem turn_line (m : Mat) (r : Rect) (d : Dir) :
    lineAny (turnSheet m) (turnRect r) (turnDir d) = lineAny m r d := by
  cases d <;> exact turn_any m _ _ _ _

private theorem turn_expand1 (m : Mat) (r : Rect) (d : Dir) :
    expand1 (turnSheet m) (turnRect r) (turnDir d) = turnRect (expand1 m r d) := by
  simp only [expand1, turn_line, turn_grow]
  split <;> rfl

private theorem turn_round (m : Mat) : ∀ (dirs : List Dir) (r : Rect),
    expandRound (turnSheet m) (dirs.map turnDir) (turnRect r) = turnRect (expandRound m dirs r) := by
  intro dirs
  induction dirs with
  | nil => intro r; rfl
  | cons d ds ih =>
    intro r
    simp only [expandRound, List.map_cons, List.foldl_cons, turn_expand1] at ih ⊢
    exact ih _

private theorem turnRect_inj {r s : Rect} : turnRect r = turnRect s ↔ r = s := by
  cases r; cases s; simp [turnRect]; omega

private theorem turn_repeat (m : Mat) (dirs : List Dir) : ∀ (n : Nat) (r : Rect),
    expandRepeat (turnSheet m) (dirs.map turnDir) n (turnRect r) = turnRect (expandRepeat m dirs n r) := by
  intro n
  induction n with
  | zero => intro r; rfl
  | succ n ih =>
    intro r
    simp only [expandRepeat, turn_round, turnRect_inj]
    split
    · rfl
    · exact ih _

private theorem turn_groups (m : Mat) : ∀ (gs : List ExpGroup) (r : Rect),
    (gs.map turnGroup).foldl (expandGroup (turnSheet m)) (turnRect r) = turnRect (gs.foldl (expandGroup m) r) := by
  intro gs
  induction gs with
  | nil => intro r; rfl
  | cons g gs ih =>
    intro r
    have h : enoughRounds (turnSheet m) = enoughRounds m := by simp only [enoughRounds, turnSheet]; omega
    have hg : expandGroup (turnSheet m) (turnRect r) (turnGroup g) = turnRect (expandGroup m r g) := by
      simp only [expandGroup, turnGroup, h, turn_repeat]
    rw [List.map_cons, List.foldl_cons, List.foldl_cons, hg]
    exact ih _

private theorem turn_sort (a b : Coords) : sortRect (turnCoords a) (turnCoords b) = turnRect (sortRect a b) := rfl

private theorem turn_expand (m : Mat) (a b : Coords) (gs : List ExpGroup) :
    expandRect (turnSheet m) (turnCoords a) (turnCoords b) (gs.map turnGroup) =
      (turnCoords (expandRect m a b gs).1, turnCoords (expandRect m a b gs).2) := by
  simp only [expandRect, turn_sort, turn_groups]
  rfl

private theorem place_resolve {s t : Str} (h : SamePlace s t) (up dn : Int) (base : Option Int) :
    resolveCoord row2num s up dn base = resolveCoord col2num t up dn base := by
  cases h with
  | top => rfl
  | bottom => rfl
  | dot => rfl
  | number _ _ n h1 h2 =>
    rw [C32_numbers s n h1 up dn base row2num (.inl rfl), C32_numbers t n h2 up dn base col2num (.inr rfl)]
  | letters _ _ hne hl hn =>
    have := (C31_letters_value t hne hl).2
    rw [C32_numbers s _ hn up dn base row2num (.inl rfl), C32_letters t hne hl up dn base,
      if_neg (by omega), if_pos (by omega)]

private theorem coord_error {f : Str → Option Int} {s : Str} {up dn : Int} {base : Option Int} {e : PyErr}
    (h : resolveCoord f s up dn base = .error e) : e = .valueError := by
  unfold resolveCoord at h
  repeat' split at h
  all_goals first | (injection h with h; exact h.symm) | (injection h) | cases h

private theorem turn_cell {a b : Cell} (h : TurnedCell a b) (up dn : Coords) (base : Option Coords) :
    resolveCell b (turnCoords up) (turnCoords dn) (base.map turnCoords) = turnRes (resolveCell a up dn base) := by
  have h1 := place_resolve h.1 up.row dn.row (base.map (·.row))
  have h2 := place_resolve h.2 up.col dn.col (base.map (·.col))
  have e1 : (base.map turnCoords).map (·.row) = base.map (·.col) := by cases base <;> rfl
  have e2 : (base.map turnCoords).map (·.col) = base.map (·.row) := by cases base <;> rfl
  unfold resolveCell
  rw [e1, e2]
  simp only [turnCoords]
  rw [h2, ← h1]
  cases hr : resolveCoord row2num a.row up.row dn.row (base.map (·.row)) with
  | error e =>
    cases hc : resolveCoord col2num a.col up.col dn.col (base.map (·.col)) with
    | error e' => rw [coord_error hr, coord_error hc]; rfl
    | ok c => rfl
  | ok r =>
    cases hc : resolveCoord col2num a.col up.col dn.col (base.map (·.col)) with
    | error e' => rfl
    | ok c => rfl

private theorem turn_state (m : Mat) (p : Coords) : stateAt (turnSheet m) (turnCoords p) = stateAt m p := by
  simp only [stateAt]
  rw [show (turnSheet m).at? (turnCoords p).row (turnCoords p).col = m.at? p.row p.col from turn_at m p.row p.col]

private theorem dot_left {t : Str} (h : SamePlace ".".toList t) : t = ".".toList := by
  have hd : pyInt ".".toList = none := by decide +kernel
  generalize hs : ".".toList = s at h
  cases h with
  | top => revert hs; decide
  | bottom => revert hs; decide
  | dot => rfl
  | number _ _ n h1 h2 => rw [← hs, hd] at h1; cases h1
  | letters _ _ hne hl hn => rw [← hs, hd] at hn; cases hn

private theorem dot_right {s : Str} (h : SamePlace s ".".toList) : s = ".".toList := by
  have hd : pyInt ".".toList = none := by decide +kernel
  generalize hs : ".".toList = t at h
  cases h with
  | top => revert hs; decide
  | bottom => revert hs; decide
  | dot => rfl
  | number _ _ n h1 h2 => rw [← hs, hd] at h2; cases h2
  | letters _ _ hne hl hn =>
    have hf := hl '.' (by rw [← hs]; simp)
    exact absurd hf (by decide)

private theorem turn_dots {a b : Cell} (h : TurnedCell a b) : b = ⟨['.'], ['.']⟩ ↔ a = ⟨['.'], ['.']⟩ := by
  obtain ⟨ar, ac⟩ := a
  obtain ⟨br, bc⟩ := b
  obtain ⟨h1, h2⟩ := h
  simp only at h1 h2
  constructor
  · intro e; cases e
    rw [dot_right h1, dot_left h2]; rfl
  · intro e; cases e
    rw [dot_left h1, dot_right h2]; rfl

private theorem turn_st (m : Mat) (up dn : Coords) (e f : Edge) (h : TurnedEdge e f) (base : Option Coords) :
    resolveSt (turnSheet m) (turnCoords up) (turnCoords dn) f (base.map turnCoords) =
      turnRes (resolveSt m up dn e base) := by
  obtain ⟨hl, hm, hd⟩ := h
  unfold resolveSt
  rw [turn_cell hl]
  cases resolveCell e.land up dn base with
  | error x => rfl
  | ok st =>
    simp only [turnRes, hm, hd, turn_state]
    cases e.mov with
    | none => rfl
    | some mov =>
      simp only [Option.map_some, turn_same, turn_opposite]
      split
      · split <;> rfl
      · rfl

private theorem turn_nd (m : Mat) (up dn : Coords) (e f : Edge) (h : TurnedEdge e f) (st : Coords) :
    resolveNd (turnSheet m) (turnCoords up) (turnCoords dn) f (turnCoords st) =
      turnRes (resolveNd m up dn e st) := by
  obtain ⟨hl, hm, hd⟩ := h
  have hc := turn_cell hl up dn (some st)
  simp only [Option.map_some] at hc
  unfold resolveNd
  rw [hc]
  cases resolveCell e.land up dn (some st) with
  | error x => rfl
  | ok nd =>
    simp only [turnRes, hm, hd, turn_state, turn_dots hl]
    cases e.mov with
    | none => rfl
    | some mov =>
      simp only [Option.map_some, turn_same, turn_opposite]
      split
      · split <;> rfl
      · rfl

/-- C140. Turning over a sheet and a reference to it turns over what is captured: whatever the sheet,
the margins and the base, the reference with rows written as columns, left as up and right as down
captures in the turned sheet the turned rectangle, or fails with the same error. -/
theorem C140_turned (m : Mat) (up dn : Coords) (st st' : Edge) (nd nd' : Option Edge) (exp : List ExpGroup)
    (base : Option Coords) (h1 : TurnedEdge st st') (h2 : TurnedSecond nd nd') :
    resolveCaptureRect (turnSheet m) (turnCoords up) (turnCoords dn) st' nd' (exp.map turnGroup) (base.map turnCoords) =
      turnOutcome (resolveCaptureRect m up dn st nd exp base) := by
  unfold resolveCaptureRect
  rw [turn_st m up dn st st' h1 base]
  cases resolveSt m up dn st base with
  | error e => rfl
  | ok p =>
    have hexp : exp.map turnGroup ≠ [] ↔ exp ≠ [] := by simp
    cases h2 with
    | none =>
      simp only [turnRes, hexp, turn_expand, Option.getD_none]
      split <;> rfl
    | some e f hef =>
      simp only [turnRes]
      rw [turn_nd m up dn e f hef p]
      cases resolveNd m up dn e p with
      | error x => rfl
      | ok q =>
        simp only [turnRes, hexp, Option.getD_some, turn_expand, turn_sort]
        split <;> rfl

private theorem turn_full (m : Mat) (p : Coords) : FullAt (turnSheet m) (turnCoords p) ↔ FullAt m p := by
  constructor
  · rintro ⟨i, j, e, hi, hj, hc⟩
    simp only [turnCoords, Coords.mk.injEq] at e
    exact ⟨j, i, by cases p; simp only [Coords.mk.injEq]; exact ⟨e.2, e.1⟩, hj, hi, hc⟩
  · rintro ⟨i, j, rfl, hi, hj, hc⟩
    exact ⟨j, i, rfl, hj, hi, hc⟩

/-- C140. The margins of the turned sheet are the turned margins. -/
theorem C140_margins (m : Mat) : marginCoords (turnSheet m) =
    (turnCoords (marginCoords m).1, turnCoords (marginCoords m).2) := by
  have hA := boxOf_margins m
  have hB := boxOf_margins (turnSheet m)
  generalize marginCoords m = x at hA ⊢
  generalize marginCoords (turnSheet m) = y at hB ⊢
  obtain ⟨a, b⟩ := x
  obtain ⟨c, d⟩ := y
  simp only at hA hB ⊢
  have tt : ∀ p, FullAt (turnSheet m) p → FullAt m (turnCoords p) := fun p hp => (turn_full m (turnCoords p)).1 hp
  by_cases hf : ∃ p, FullAt m p
  · have hf' : ∃ p, FullAt (turnSheet m) p := by
      obtain ⟨p, hp⟩ := hf; exact ⟨_, (turn_full m p).2 hp⟩
    obtain ⟨⟨p1, f1, e1⟩, ⟨p2, f2, e2⟩, ⟨p3, f3, e3⟩, ⟨p4, f4, e4⟩⟩ := hA.attained hf
    obtain ⟨⟨q1, g1, u1⟩, ⟨q2, g2, u2⟩, ⟨q3, g3, u3⟩, ⟨q4, g4, u4⟩⟩ := hB.attained hf'
    have x1 := hB.bound _ ((turn_full m p1).2 f1)
    have x2 := hB.bound _ ((turn_full m p2).2 f2)
    have x3 := hB.bound _ ((turn_full m p3).2 f3)
    have x4 := hB.bound _ ((turn_full m p4).2 f4)
    have y1 := hA.bound _ (tt q1 g1)
    have y2 := hA.bound _ (tt q2 g2)
    have y3 := hA.bound _ (tt q3 g3)
    have y4 := hA.bound _ (tt q4 g4)
    simp only [turnCoords] at *
    obtain ⟨cr, cc⟩ := c
    obtain ⟨dr, dc⟩ := d
    simp only [Prod.mk.injEq, Coords.mk.injEq] at *
    omega
  · have h0 : ∀ p, ¬ FullAt m p := fun p hp => hf ⟨p, hp⟩
    have h0' : ∀ p, ¬ FullAt (turnSheet m) p := fun p hp => h0 _ (tt p hp)
    obtain ⟨rfl, rfl⟩ := hA.empty h0
    obtain ⟨rfl, rfl⟩ := hB.empty h0'
    rfl

/-- C140. So, with the margins that each sheet has, references that are turned of each other capture
rectangles that are turned of each other. -/
theorem C140_sheets (m : Mat) (st st' : Edge) (nd nd' : Option Edge) (exp : List ExpGroup)
    (h1 : TurnedEdge st st') (h2 : TurnedSecond nd nd') :
    resolveCaptureRect (turnSheet m) (marginCoords (turnSheet m)).1 (marginCoords (turnSheet m)).2 st' nd'
        (exp.map turnGroup) none =
      turnOutcome (resolveCaptureRect m (marginCoords m).1 (marginCoords m).2 st nd exp none) := by
  rw [C140_margins]
  exact C140_turned m _ _ st st' nd nd' exp none h1 h2

/-- A sheet with a table that misses two cells. -/
private def missing : Mat := ⟨5, 6, fun i j =>
  decide ((i, j) ∈ [(2, 3), (2, 4), (2, 5), (3, 2), (3, 5), (4, 2), (4, 3), (4, 4), (4, 5)])⟩

/-- The edge `A2(RD)` for one sheet and `B1(DR)` for its turned. -/
example : TurnedEdge ⟨⟨"2".toList, "A".toList⟩, some [.R, .D], none⟩ ⟨⟨"1".toList, "B".toList⟩, some [.D, .R], none⟩ :=
  ⟨⟨.letters _ _ (by decide) (by decide) (by decide +kernel), .letters _ _ (by decide) (by decide) (by decide +kernel)⟩,
    rfl, rfl⟩

/-- The second edge `..(DR)` turned. -/
example : TurnedSecond (some ⟨⟨".".toList, ".".toList⟩, some [.D, .R], none⟩)
    (some ⟨⟨".".toList, ".".toList⟩, some [.R, .D], none⟩) := .some _ _ ⟨⟨.dot, .dot⟩, rfl, rfl⟩

/-- What both capture, with an expansion. -/
example : resolveCaptureRect missing ⟨2, 2⟩ ⟨4, 5⟩ ⟨⟨"1".toList, "A".toList⟩, some [.R, .D], none⟩
      (some ⟨⟨".".toList, ".".toList⟩, some [.D, .R], none⟩) [⟨[.D], some 1⟩] none = .ok (⟨2, 3⟩, some ⟨3, 5⟩) ∧
    resolveCaptureRect (turnSheet missing) ⟨2, 2⟩ ⟨5, 4⟩ ⟨⟨"1".toList, "A".toList⟩, some [.D, .R], none⟩
      (some ⟨⟨".".toList, ".".toList⟩, some [.R, .D], none⟩) [⟨[.R], some 1⟩] none = .ok (⟨3, 2⟩, some ⟨5, 3⟩) := by
  constructor <;> rfl

end Props
