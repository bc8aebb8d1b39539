import Verif.Lemmas.Expand
import Verif.Props.Coords
import Verif.Props.Target
/-
C35, C36, C37: expanding and capturing rectangles.
-/
set_option linter.unusedSimpArgs false
namespace Props
open Py Model Spec

private theorem sortRect_between (a b : Coords) : sortRect a b = between a b := by
  simp only [sortRect, between, Int.min_def, Int.max_def]

private theorem between_well {a b : Coords} (h1 : 0 ≤ a.row) (h2 : 0 ≤ a.col) (h3 : 0 ≤ b.row)
    (h4 : 0 ≤ b.col) : WellRect (between a b) := by
  unfold WellRect between
  by_cases x : a.row ≤ b.row <;> by_cases y : a.col ≤ b.col <;> simp [x, y] <;> omega

/-- C35. Unlimited expansion of the rectangle between two cells, in a set of directions, yields a
rectangle that contains it, has no full cell on its adjacent lines in those directions, and lies
within any other such rectangle. -/
theorem C35_unlimited_least (m : Mat) (a b : Coords) (h1 : 0 ≤ a.row) (h2 : 0 ≤ a.col) (h3 : 0 ≤ b.row)
    (h4 : 0 ≤ b.col) (dirs : List Dir) :
    ∃ S, expandRect m a b [⟨dirs, none⟩] = corners S ∧ Within (between a b) S ∧ Closed m dirs S ∧
      ∀ T, Within (between a b) T → Closed m dirs T → Within S T := by
  have hw := between_well h1 h2 h3 h4
  refine ⟨expandRepeat m dirs (enoughRounds m) (between a b), ?_, repeat_sub dirs _ hw, ?_, ?_⟩
  · simp [expandRect, expandGroup, corners, sortRect_between]
  · refine repeat_closed dirs _ hw ?_
    have := room_le m hw
    unfold enoughRounds; omega
  · intro T hT hc
    exact repeat_least hc _ hw hT

/-- C35. The loop of an unlimited expansion ends: after some number of rounds a round changes
nothing, and allowing more rounds makes no difference. -/
theorem C35_unlimited_terminates (m : Mat) (dirs : List Dir) (r : Rect) (hw : WellRect r) :
    ∃ N, N ≤ 2 * (m.rows + m.cols) + 1 ∧ (∀ n, N ≤ n → expandRepeat m dirs n r = expandRepeat m dirs N r) ∧
      expandRound m dirs (expandRepeat m dirs N r) = expandRepeat m dirs N r ∧
      expandGroup m r ⟨dirs, none⟩ = expandRepeat m dirs N r := by
  have hroom := room_le m hw
  refine ⟨2 * (m.rows + m.cols) + 1, Nat.le_refl _, ?_, ?_, ?_⟩
  · intro n hn
    have e : n = 2 * (m.rows + m.cols) + 1 + (n - (2 * (m.rows + m.cols) + 1)) := by omega
    rw [e]
    exact repeat_stable dirs _ _ hw (by omega)
  · exact round_closed dirs (repeat_well dirs _ hw) (repeat_closed dirs _ hw (by omega))
  · rfl

/-- C35. The order and repetition of the directions do not matter. -/
theorem C35_order_irrelevant (m : Mat) (a b : Coords) (h1 : 0 ≤ a.row) (h2 : 0 ≤ a.col) (h3 : 0 ≤ b.row)
    (h4 : 0 ≤ b.col) (dirs dirs' : List Dir) (h : ∀ d, d ∈ dirs ↔ d ∈ dirs') :
    expandRect m a b [⟨dirs, none⟩] = expandRect m a b [⟨dirs', none⟩] := by
  obtain ⟨S, e, s1, s2, s3⟩ := C35_unlimited_least m a b h1 h2 h3 h4 dirs
  obtain ⟨T, e', t1, t2, t3⟩ := C35_unlimited_least m a b h1 h2 h3 h4 dirs'
  rw [e, e']
  have : S = T := sub_antisymm (s3 T t1 (fun d hd => t2 d ((h d).1 hd))) (t3 S s1 (fun d hd => s2 d ((h d).2 hd)))
  rw [this]

/-- C35. A side without a direction stays. -/
theorem C35_other_sides_stay (m : Mat) (a b : Coords) (h1 : 0 ≤ a.row) (h2 : 0 ≤ a.col) (h3 : 0 ≤ b.row)
    (h4 : 0 ≤ b.col) (dirs : List Dir) :
    ∃ n : Dir → Nat, (∀ d, d ∉ dirs → n d = 0) ∧
      expandRect m a b [⟨dirs, none⟩] = corners (widen (between a b) n) := by
  have hw := between_well h1 h2 h3 h4
  obtain ⟨ds, hg, hc⟩ := repeat_grown dirs (enoughRounds m) hw (m := m)
  refine ⟨fun d => ds.count d, ?_, ?_⟩
  · intro d hd
    have := hc d
    rw [List.count_eq_zero.2 hd] at this
    simpa using this
  · rw [← grown_widen hg]
    simp [expandRect, expandGroup, corners, sortRect_between]

/-- The sheet of the documentation of `_expand_rect`. -/
private def docSheet : Mat := ⟨5, 6, fun i j =>
  ([[false, false, false, false, false, false], [false, false, true, true, true, false],
    [false, true, false, false, true, false], [false, true, true, true, true, false],
    [false, false, false, false, false, true]].getD i []).getD j false⟩

example : expandRect docSheet ⟨2, 3⟩ ⟨2, 3⟩ [⟨[.L, .U, .R, .D], none⟩] = (⟨1, 1⟩, ⟨3, 4⟩) := by decide +kernel
example : expandRect docSheet ⟨2, 1⟩ ⟨6, 1⟩ [⟨[.R], none⟩] = (⟨2, 1⟩, ⟨6, 5⟩) := by decide +kernel
example : WellRect ⟨2, 6, 1, 1⟩ := by simp [WellRect]

private theorem round_round {m : Mat} (dirs : List Dir) : ∀ {r : Rect}, WellRect r → Round m dirs r (expandRound m dirs r) := by
  induction dirs with
  | nil => intro r _; exact Round.done r
  | cons d ds ih =>
    intro r hw
    have := ih (expand1_well hw (m := m) (d := d))
    rcases expand1_cases hw (m := m) (d := d) with ⟨h, e⟩ | ⟨h, e⟩
    · refine Round.skip d ds r _ h ?_
      show Round m ds r (expandRound m ds (expand1 m r d))
      rw [e] at this ⊢; exact this
    · refine Round.take d ds r _ h ?_
      rw [← grow_eq_widen, ← e]; exact this

private theorem rounds_fixed {m : Mat} {dirs : List Dir} {r : Rect} (hw : WellRect r)
    (h : expandRound m dirs r = r) : ∀ n, Rounds m dirs n r r := by
  intro n
  induction n with
  | zero => exact Rounds.zero r
  | succ n ih =>
    refine Rounds.succ n r r r ?_ ih
    have := round_round dirs hw (m := m)
    rw [h] at this; exact this

/-- C36. A group of moves limited to `n` has exactly the effect of `n` rounds, in each of which the
directions are tried in order and add their adjacent line if and only if it has a full cell. -/
theorem C36_exact_rounds (m : Mat) (dirs : List Dir) (n : Nat) : ∀ (r : Rect), WellRect r →
    Rounds m dirs n r (expandGroup m r ⟨dirs, some n⟩) := by
  induction n with
  | zero => intro r _; exact Rounds.zero r
  | succ n ih =>
    intro r hw
    simp only [expandGroup, Option.getD_some, expandRepeat]
    split
    · rename_i h
      exact rounds_fixed hw h _
    · exact Rounds.succ n r _ _ (round_round dirs hw) (ih _ (round_well dirs hw))

/-- C36. Rounds have one result only, so that `C36_exact_rounds` determines the expansion. -/
theorem C36_rounds_functional (m : Mat) (dirs : List Dir) (n : Nat) : ∀ (r s t : Rect),
    Rounds m dirs n r s → Rounds m dirs n r t → s = t := by
  have h1 : ∀ (ds : List Dir) (r s t : Rect), Round m ds r s → Round m ds r t → s = t := by
    intro ds
    induction ds with
    | nil => intro r s t hs ht; cases hs; cases ht; rfl
    | cons d ds ih =>
      intro r s t hs ht
      cases hs with
      | skip _ _ _ _ a b => cases ht with
        | skip _ _ _ _ c e => exact ih _ _ _ b e
        | take _ _ _ _ c e => exact absurd c a
      | take _ _ _ _ a b => cases ht with
        | skip _ _ _ _ c e => exact absurd a c
        | take _ _ _ _ c e => exact ih _ _ _ b e
  induction n with
  | zero => intro r s t hs ht; cases hs; cases ht; rfl
  | succ n ih =>
    intro r s t hs ht
    cases hs with
    | succ _ _ r1 _ a b => cases ht with
      | succ _ _ r2 _ c d =>
        have := h1 _ _ _ _ a c
        subst this
        exact ih _ _ _ b d

/-- C36. A group limited to `n` grows the rectangle one non-empty adjacent line at a time, in each
direction at most `n` times as often as the direction occurs in the group; it never shrinks. -/
theorem C36_limited_bounds (m : Mat) (dirs : List Dir) (n : Nat) (r : Rect) (hw : WellRect r) :
    ∃ ds, Grown m r ds (expandGroup m r ⟨dirs, some n⟩) ∧ (∀ d, ds.count d ≤ n * dirs.count d) ∧
      expandGroup m r ⟨dirs, some n⟩ = widen r (fun d => ds.count d) := by
  obtain ⟨ds, h1, h2⟩ := repeat_grown dirs n hw (m := m)
  exact ⟨ds, h1, h2, grown_widen h1⟩

/-- C36. A sequence of groups, limited or not, only ever grows the rectangle, over non-empty
adjacent lines, in directions named by the groups. -/
theorem C36_sequence_grows (m : Mat) (a b : Coords) (h1 : 0 ≤ a.row) (h2 : 0 ≤ a.col) (h3 : 0 ≤ b.row)
    (h4 : 0 ≤ b.col) (groups : List ExpGroup) :
    ∃ S ds, expandRect m a b groups = corners S ∧ Grown m (between a b) ds S ∧ Within (between a b) S ∧
      ∀ d ∈ ds, ∃ g ∈ groups, d ∈ g.dirs := by
  have key : ∀ (groups : List ExpGroup) (r : Rect), WellRect r →
      ∃ ds, Grown m r ds (groups.foldl (expandGroup m) r) ∧ WellRect (groups.foldl (expandGroup m) r) ∧
        Within r (groups.foldl (expandGroup m) r) ∧ ∀ d ∈ ds, ∃ g ∈ groups, d ∈ g.dirs := by
    intro groups
    induction groups with
    | nil => intro r hw; exact ⟨[], Grown.refl r, hw, sub_refl r, by simp⟩
    | cons g gs ih =>
      intro r hw
      obtain ⟨ds, a1, a2⟩ := repeat_grown g.dirs (g.times.getD (enoughRounds m)) hw (m := m)
      obtain ⟨es, b1, b2, b3, b4⟩ := ih (expandGroup m r g) (repeat_well _ _ hw)
      refine ⟨ds ++ es, grown_trans a1 b1, b2, sub_trans (repeat_sub _ _ hw) b3, ?_⟩
      intro d hd
      simp at hd
      rcases hd with hd | hd
      · refine ⟨g, by simp, ?_⟩
        have hpos := List.count_pos_iff.2 hd
        have := a2 d
        by_cases hm : d ∈ g.dirs
        · exact hm
        · rw [List.count_eq_zero.2 hm] at this; omega
      · obtain ⟨g', hg', hd'⟩ := b4 d hd
        exact ⟨g', by simp [hg'], hd'⟩
  obtain ⟨ds, x1, x2, x3, x4⟩ := key groups _ (between_well h1 h2 h3 h4)
  refine ⟨_, ds, ?_, x1, x3, x4⟩
  simp [expandRect, corners, sortRect_between]

example : expandRect docSheet ⟨2, 3⟩ ⟨2, 3⟩ [⟨[.U, .L], some 1⟩, ⟨[.D], some 3⟩] = (⟨1, 2⟩, ⟨3, 3⟩) := by decide +kernel

private theorem expand_ordered (m : Mat) (groups : List ExpGroup) : ∀ (r : Rect), r.r1 ≤ r.r2 → r.c1 ≤ r.c2 →
    Within r (groups.foldl (expandGroup m) r) := by
  have h1 : ∀ (ds : List Dir) (r : Rect), Within r (expandRound m ds r) := by
    intro ds
    induction ds with
    | nil => intro r; exact sub_refl r
    | cons d ds ih =>
      intro r
      refine sub_trans ?_ (ih (expand1 m r d))
      unfold expand1
      split
      · exact grow_sub r d
      · exact sub_refl r
  have h2 : ∀ (ds : List Dir) (n : Nat) (r : Rect), Within r (expandRepeat m ds n r) := by
    intro ds n
    induction n with
    | zero => intro r; exact sub_refl r
    | succ n ih =>
      intro r
      simp only [expandRepeat]
      split
      · exact sub_refl r
      · exact sub_trans (h1 ds r) (ih _)
  induction groups with
  | nil => intro r _ _; exact sub_refl r
  | cons g gs ih =>
    intro r a b
    have := h2 g.dirs (g.times.getD (enoughRounds m)) r
    exact sub_trans this (ih _ (by unfold Within at this; omega) (by unfold Within at this; omega))

private theorem sort_ordered (a b : Coords) : (sortRect a b).r1 ≤ (sortRect a b).r2 ∧ (sortRect a b).c1 ≤ (sortRect a b).c2 := by
  simp only [sortRect]; omega

/-- C37. Whatever the sheet, the edges, the expansions and the base, a captured rectangle has its
first corner above and left of its second, and contains both targets: the cell the first edge
resolves to, and the one the second resolves to. -/
theorem C37_ordered (m : Mat) (up dn : Coords) (stE : Edge) (ndE : Option Edge) (exp : List ExpGroup)
    (base : Option Coords) (st nd : Coords)
    (h : resolveCaptureRect m up dn stE ndE exp base = .ok (st, some nd)) :
    st.row ≤ nd.row ∧ st.col ≤ nd.col ∧
    ∃ a b, resolveSt m up dn stE base = .ok a ∧ (∀ e, ndE = some e → resolveNd m up dn e a = .ok b) ∧
      (ndE = none → b = a) ∧ Within (between a b) ⟨st.row, nd.row, st.col, nd.col⟩ := by
  unfold resolveCaptureRect at h
  cases hst : resolveSt m up dn stE base with
  | error e => rw [hst] at h; simp at h
  | ok s =>
    rw [hst] at h
    have main : ∀ b : Coords, (if exp ≠ [] then
        (Except.ok ((expandRect m s b exp).1, some (expandRect m s b exp).2) : Except PyErr (Coords × Option Coords))
        else .ok (⟨(sortRect s b).r1, (sortRect s b).c1⟩, some ⟨(sortRect s b).r2, (sortRect s b).c2⟩)) = .ok (st, some nd) →
        st.row ≤ nd.row ∧ st.col ≤ nd.col ∧ Within (between s b) ⟨st.row, nd.row, st.col, nd.col⟩ := by
      intro b hb
      obtain ⟨o1, o2⟩ := sort_ordered s b
      by_cases he : exp = []
      · rw [if_neg (by simp [he])] at hb
        simp at hb
        obtain ⟨rfl, rfl⟩ := hb
        refine ⟨o1, o2, ?_⟩
        rw [← sortRect_between]; exact sub_refl _
      · rw [if_pos he] at hb
        simp [expandRect] at hb
        obtain ⟨rfl, rfl⟩ := hb
        have hw := expand_ordered m exp _ o1 o2
        refine ⟨by unfold Within at hw; simp only; omega, by unfold Within at hw; simp only; omega, ?_⟩
        rw [← sortRect_between]; exact hw
    cases ndE with
    | none =>
      by_cases he : exp = []
      · simp [he] at h
      · have := main s (by simpa [he] using h)
        exact ⟨this.1, this.2.1, s, s, rfl, by simp, by simp, this.2.2⟩
    | some e =>
      cases hnd : resolveNd m up dn e s with
      | error er => simp [hnd] at h
      | ok n =>
        have := main n (by
          by_cases he : exp = []
          · simpa [he, hnd] using h
          · simpa [he, hnd] using h)
        exact ⟨this.1, this.2.1, s, n, rfl, by rintro e' ⟨rfl⟩; exact hnd, by simp, this.2.2⟩

/-- C37. A reference of two plain cells, with no moves, resolves to the rectangle between them. -/
theorem C37_two_plain_cells (m : Mat) (up dn : Coords) (base : Option Coords) (r1 c1 r2 c2 : Nat) (a b : Cell)
    (ha : coords2Cell (.num r1) (.num c1) = .ok a) (hb : coords2Cell (.num r2) (.num c2) = .ok b)
    (mod1 mod2 : Option Char) :
    resolveCaptureRect m up dn ⟨a, none, mod1⟩ (some ⟨b, none, mod2⟩) [] base =
      .ok ((corners (between ⟨r1, c1⟩ ⟨r2, c2⟩)).1, some (corners (between ⟨r1, c1⟩ ⟨r2, c2⟩)).2) := by
  obtain ⟨a', ha', ra⟩ := C31_cell_round_trip r1 c1 up dn base
  obtain ⟨b', hb', rb⟩ := C31_cell_round_trip r2 c2 up dn (some ⟨r1, c1⟩)
  rw [ha] at ha'; rw [hb] at hb'
  simp at ha' hb'
  subst ha'; subst hb'
  simp [resolveCaptureRect, resolveSt, resolveNd, ra, rb, corners, sortRect_between]

/-- C37. The order in which the two corners are given is irrelevant. -/
theorem C37_corner_order (m : Mat) (up dn : Coords) (base : Option Coords) (r1 c1 r2 c2 : Nat) (a b : Cell)
    (ha : coords2Cell (.num r1) (.num c1) = .ok a) (hb : coords2Cell (.num r2) (.num c2) = .ok b) :
    resolveCaptureRect m up dn ⟨a, none, none⟩ (some ⟨b, none, none⟩) [] base =
      resolveCaptureRect m up dn ⟨b, none, none⟩ (some ⟨a, none, none⟩) [] base := by
  rw [C37_two_plain_cells m up dn base r1 c1 r2 c2 a b ha hb, C37_two_plain_cells m up dn base r2 c2 r1 c1 b a hb ha]
  rw [← sortRect_between, ← sortRect_between]
  simp only [sortRect, corners, Int.min_comm, Int.max_comm]

/-- C37. The other two corners of the rectangle denote it as well. -/
theorem C37_other_corners (m : Mat) (up dn : Coords) (base : Option Coords) (r1 c1 r2 c2 : Nat) (a b a' b' : Cell)
    (ha : coords2Cell (.num r1) (.num c1) = .ok a) (hb : coords2Cell (.num r2) (.num c2) = .ok b)
    (ha' : coords2Cell (.num r1) (.num c2) = .ok a') (hb' : coords2Cell (.num r2) (.num c1) = .ok b') :
    resolveCaptureRect m up dn ⟨a, none, none⟩ (some ⟨b, none, none⟩) [] base =
      resolveCaptureRect m up dn ⟨a', none, none⟩ (some ⟨b', none, none⟩) [] base := by
  rw [C37_two_plain_cells m up dn base r1 c1 r2 c2 a b ha hb, C37_two_plain_cells m up dn base r1 c2 r2 c1 a' b' ha' hb']
  rw [← sortRect_between, ← sortRect_between]
  simp only [sortRect, corners, Int.min_comm, Int.max_comm]

example : resolveCaptureRect docSheet ⟨1, 1⟩ ⟨4, 5⟩ ⟨⟨"4".toList, "B".toList⟩, none, none⟩
    (some ⟨⟨"2".toList, "D".toList⟩, none, none⟩) [] none = .ok (⟨1, 1⟩, some ⟨3, 3⟩) := rfl

/-- C37. The first edge of a reference: without moves it is its landing cell; landing on a full cell it
stays there unless asked to go on; landing on an empty cell it is the first full cell met. -/
theorem C37_first_edge (m : Mat) (up dn : Coords) (base : Option Coords) (land : Cell) (p : Coords)
    (hp : resolveCell land up dn base = .ok p) (h1 : 0 ≤ p.row) (h2 : 0 ≤ p.col) (hdn : MarginOf m dn)
    (moves : List Dir) (d1 : Dir) (d2 : Option Dir) (hm : Moves moves d1 d2) (mod : Option Char) :
    resolveSt m up dn ⟨land, none, mod⟩ base = .ok p ∧
    (FullAt m p → mod ≠ some '+' → resolveSt m up dn ⟨land, some moves, mod⟩ base = .ok p) ∧
    (FullAt m p → resolveSt m up dn ⟨land, some moves, some '+'⟩ base = targetSame m dn p moves) ∧
    (¬ FullAt m p → ∀ t, resolveSt m up dn ⟨land, some moves, mod⟩ base = .ok t ↔ FirstFull m p d1 d2 t) := by
  refine ⟨by simp [resolveSt, hp], ?_, ?_, ?_⟩
  · intro hf hmod
    simp [resolveSt, hp, (stateAt_iff h1 h2).2 hf, hmod]
  · intro hf
    simp [resolveSt, hp, (stateAt_iff h1 h2).2 hf]
  · intro hf t
    have hs : stateAt m p = false := by rw [Bool.eq_false_iff]; exact fun hc => hf ((stateAt_iff h1 h2).1 hc)
    rw [← C33_first_full m dn p moves d1 d2 hm hdn h1 h2 t]
    simp [resolveSt, hp, hs]

/-- C37. The second edge, with dots standing for the first: as the first, but landing on a full cell
it also goes on when it lands exactly on the first edge (`..`), unless marked `?`. -/
theorem C37_second_edge (m : Mat) (up dn st : Coords) (land : Cell) (p : Coords)
    (hp : resolveCell land up dn (some st) = .ok p) (h1 : 0 ≤ p.row) (h2 : 0 ≤ p.col) (hdn : MarginOf m dn)
    (moves : List Dir) (d1 : Dir) (d2 : Option Dir) (hm : Moves moves d1 d2) (mod : Option Char) :
    resolveNd m up dn ⟨land, none, mod⟩ st = .ok p ∧
    (FullAt m p → (mod = some '+' ∨ (land = ⟨".".toList, ".".toList⟩ ∧ mod = none)) →
      resolveNd m up dn ⟨land, some moves, mod⟩ st = targetSame m dn p moves) ∧
    (FullAt m p → (mod = some '?' ∨ (land ≠ ⟨".".toList, ".".toList⟩ ∧ mod = none)) →
      resolveNd m up dn ⟨land, some moves, mod⟩ st = .ok p) ∧
    (¬ FullAt m p → ∀ t, resolveNd m up dn ⟨land, some moves, mod⟩ st = .ok t ↔ FirstFull m p d1 d2 t) := by
  refine ⟨by simp [resolveNd, hp], ?_, ?_, ?_⟩
  · intro hf hmod
    have hs := (stateAt_iff h1 h2).2 hf
    rcases hmod with hmod | ⟨hl, hmod⟩
    · simp [resolveNd, hp, hs, hmod]
    · have hl' : land = ⟨['.'], ['.']⟩ := hl
      simp only [resolveNd, hp, hs, if_true]
      rw [if_pos (Or.inr ⟨hl', by rw [hmod]; simp⟩)]
  · intro hf hmod
    have hs := (stateAt_iff h1 h2).2 hf
    rcases hmod with hmod | ⟨hl, hmod⟩
    · simp [resolveNd, hp, hs, hmod]
    · have hl' : land ≠ ⟨['.'], ['.']⟩ := hl
      simp [resolveNd, hp, hs, hmod, hl']
  · intro hf t
    have hs : stateAt m p = false := by rw [Bool.eq_false_iff]; exact fun hc => hf ((stateAt_iff h1 h2).1 hc)
    rw [← C33_first_full m dn p moves d1 d2 hm hdn h1 h2 t]
    simp [resolveNd, hp, hs]

example : resolveCaptureRect docSheet ⟨1, 1⟩ ⟨4, 5⟩ ⟨⟨"1".toList, "A".toList⟩, some [.D, .R], none⟩
    (some ⟨⟨".".toList, ".".toList⟩, some [.D, .R], none⟩) [] none = .ok (⟨2, 1⟩, some ⟨3, 1⟩) := rfl

end Props
