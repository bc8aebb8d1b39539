import Verif.Spec.Shifted
import Verif.Props.SheetCache
import Verif.Props.Expand
import Verif.Props.Target
import Verif.Props.Coords
import Verif.Props.Reference
/-
C144: what is captured depends only on where the full cells are, relatively to each other.
-/
namespace Props
open Py Model Spec

private def shiftRes (a b : Nat) : Except PyErr Coords → Except PyErr Coords
  | .ok p => .ok (shift a b p)
  | .error e => .error e

private def shiftRect (a b : Nat) (r : Rect) : Rect := ⟨r.r1 + a, r.r2 + a, r.c1 + b, r.c2 + b⟩

private theorem shift_steps (a b : Nat) (p : Coords) (d : Dir) (k : Nat) :
    stepsFrom (shift a b p) d k = shift a b (stepsFrom p d k) := by
  simp only [stepsFrom, shift, Coords.mk.injEq]
  constructor <;> omega

private theorem shift_visited (a b : Nat) (p : Coords) (d1 : Dir) (d2 : Option Dir) (k2 k1 : Nat) :
    visited (shift a b p) d1 d2 k2 k1 = shift a b (visited p d1 d2 k2 k1) := by
  cases d2 <;> simp only [visited, shift_steps]

private theorem shift_opposite {a b : Nat} {m m' : Mat} (h : Shifted a b m m') {dn dn' p : Coords} {moves : List Dir}
    {d1 : Dir} {d2 : Option Dir} (hm : Moves moves d1 d2) (hd : MarginOf m dn) (hd' : MarginOf m' dn')
    (h1 : 0 ≤ p.row) (h2 : 0 ≤ p.col) :
    targetOpposite m' dn' (shift a b p) moves = shiftRes a b (targetOpposite m dn p moves) := by
  have g1 : 0 ≤ (shift a b p).row := by simp only [shift]; omega
  have g2 : 0 ≤ (shift a b p).col := by simp only [shift]; omega
  cases hr : targetOpposite m dn p moves with
  | ok t =>
    have hf := (C33_first_full m dn p moves d1 d2 hm hd h1 h2 t).1 hr
    refine (C33_first_full m' dn' _ moves d1 d2 hm hd' g1 g2 _).2 ?_
    obtain ⟨k2, k1, e, f, n⟩ := hf
    refine ⟨k2, k1, by rw [e, shift_visited], (h t).2 f, ?_⟩
    intro j2 j1 hj hc
    rw [shift_visited] at hc
    exact n j2 j1 hj ((h _).1 hc)
  | error e =>
    have c := C33_fails_iff_none m dn p moves d1 d2 hm hd h1 h2
    have c' := C33_fails_iff_none m' dn' (shift a b p) moves d1 d2 hm hd' g1 g2
    have hn := c.1.1 ⟨e, hr⟩
    obtain ⟨e', he'⟩ := c'.1.2 (fun k2 k1 hc => by rw [shift_visited] at hc; exact hn k2 k1 ((h _).1 hc))
    rw [he', c'.2 e' he', c.2 e hr]; rfl

private theorem shift_run {a b : Nat} {m m' : Mat} (h : Shifted a b m m') {p : Coords} {d : Dir} {k : Nat}
    (hr : RunEnds m p d k) : RunEnds m' (shift a b p) d k := by
  refine ⟨fun i hi => ?_, fun hc => ?_⟩
  · rw [shift_steps]; exact (h _).2 (hr.1 i hi)
  · rw [shift_steps] at hc; exact hr.2 ((h _).1 hc)

private theorem shift_same {a b : Nat} {m m' : Mat} (h : Shifted a b m m') {dn dn' p : Coords} {moves : List Dir}
    {d1 : Dir} {d2 : Option Dir} (hm : Moves moves d1 d2) (hd : MarginOf m dn) (hd' : MarginOf m' dn')
    (hf : FullAt m p) :
    targetSame m' dn' (shift a b p) moves = shiftRes a b (targetSame m dn p moves) := by
  have hf' := (h p).2 hf
  cases hm with
  | one d =>
    obtain ⟨k, r, e⟩ := C34_one_move m dn p d1 hd hf
    obtain ⟨k', r', e'⟩ := C34_one_move m' dn' _ d1 hd' hf'
    rw [e, e', C34_run_end_unique m' _ d1 k' k r' (shift_run h r), shift_steps]; rfl
  | two d e hp =>
    obtain ⟨k, l, r, s, g⟩ := C34_two_moves m dn p d1 e hp hd hf
    obtain ⟨k', l', r', s', g'⟩ := C34_two_moves m' dn' _ d1 e hp hd' hf'
    rw [g, g', C34_run_end_unique m' _ d1 k' k r' (shift_run h r), C34_run_end_unique m' _ e l' l s' (shift_run h s),
      shift_steps, shift_steps]; rfl

private theorem shift_line {a b : Nat} {m m' : Mat} (h : Shifted a b m m') (r : Rect) (d : Dir) :
    LineFull m' (shiftRect a b r) d ↔ LineFull m r d := by
  constructor
  · rintro ⟨p, hp, hf⟩
    have hs : shift a b ⟨p.row - a, p.col - b⟩ = p := by
      cases p; simp only [shift, Coords.mk.injEq]; omega
    refine ⟨⟨p.row - a, p.col - b⟩, ?_, (h _).1 (by rw [hs]; exact hf)⟩
    cases d <;> simp only [AdjLine, shiftRect] at hp ⊢ <;> omega
  · rintro ⟨p, hp, hf⟩
    refine ⟨shift a b p, ?_, (h p).2 hf⟩
    cases d <;> simp only [AdjLine, shiftRect, shift] at hp ⊢ <;> omega

private theorem shift_well {a b : Nat} {r : Rect} (hw : WellRect r) : WellRect (shiftRect a b r) := by
  simp only [WellRect, shiftRect] at *; omega

private theorem shift_grow (a b : Nat) (r : Rect) (d : Dir) : (shiftRect a b r).grow d = shiftRect a b (r.grow d) := by
  cases d <;> simp [shiftRect, Rect.grow] <;> omega

private theorem shift_expand1 {a b : Nat} {m m' : Mat} (h : Shifted a b m m') {r : Rect} (hw : WellRect r) (d : Dir) :
    expand1 m' (shiftRect a b r) d = shiftRect a b (expand1 m r d) := by
  by_cases hl : LineFull m r d
  · rw [expand1_of_full hw hl, expand1_of_full (shift_well hw) ((shift_line h r d).2 hl), shift_grow]
  · rw [expand1_of_empty hw hl, expand1_of_empty (shift_well hw) (fun c => hl ((shift_line h r d).1 c))]

private theorem shift_round {a b : Nat} {m m' : Mat} (h : Shifted a b m m') : ∀ (dirs : List Dir) {r : Rect}, WellRect r →
    expandRound m' dirs (shiftRect a b r) = shiftRect a b (expandRound m dirs r) := by
  intro dirs
  induction dirs with
  | nil => intro r _; rfl
  | cons d ds ih =>
    intro r hw
    have := ih (expand1_well hw (m := m) (d := d))
    simp only [expandRound, List.foldl_cons, shift_expand1 h hw] at this ⊢
    exact this

private theorem shiftRect_inj {a b : Nat} {r s : Rect} : shiftRect a b r = shiftRect a b s ↔ r = s := by
  cases r; cases s; simp only [shiftRect, Rect.mk.injEq]; omega

private theorem shift_repeat {a b : Nat} {m m' : Mat} (h : Shifted a b m m') (dirs : List Dir) : ∀ (n : Nat) {r : Rect},
    WellRect r → expandRepeat m' dirs n (shiftRect a b r) = shiftRect a b (expandRepeat m dirs n r) := by
  intro n
  induction n with
  | zero => intro r _; rfl
  | succ n ih =>
    intro r hw
    simp only [expandRepeat, shift_round h dirs hw, shiftRect_inj]
    split
    · rfl
    · exact ih (round_well dirs hw)

private theorem shift_group {a b : Nat} {m m' : Mat} (h : Shifted a b m m') (g : ExpGroup) {r : Rect} (hw : WellRect r) :
    expandGroup m' (shiftRect a b r) g = shiftRect a b (expandGroup m r g) := by
  cases hg : g.times with
  | some n => simp only [expandGroup, hg, Option.getD_some, shift_repeat h g.dirs n hw]
  | none =>
    obtain ⟨N, _, h1, _, h2⟩ := C35_unlimited_terminates m g.dirs r hw
    obtain ⟨N', _, h1', _, h2'⟩ := C35_unlimited_terminates m' g.dirs _ (shift_well hw (a := a) (b := b))
    have eg : g = ⟨g.dirs, none⟩ := by cases g; simp only at hg; rw [hg]
    rw [eg, h2, h2', ← h1 (max N N') (by omega), ← h1' (max N N') (by omega), shift_repeat h g.dirs _ hw]

private theorem shift_groups {a b : Nat} {m m' : Mat} (h : Shifted a b m m') : ∀ (gs : List ExpGroup) {r : Rect},
    WellRect r → gs.foldl (expandGroup m') (shiftRect a b r) = shiftRect a b (gs.foldl (expandGroup m) r) := by
  intro gs
  induction gs with
  | nil => intro r _; rfl
  | cons g gs ih =>
    intro r hw
    rw [List.foldl_cons, List.foldl_cons, shift_group h g hw]
    exact ih (repeat_well _ _ hw)

private theorem shift_sort (a b : Nat) (p q : Coords) : sortRect (shift a b p) (shift a b q) = shiftRect a b (sortRect p q) := by
  simp only [sortRect, shift, shiftRect, Rect.mk.injEq]; omega

private theorem shift_expand {a b : Nat} {m m' : Mat} (h : Shifted a b m m') {p q : Coords} (gs : List ExpGroup)
    (h1 : 0 ≤ p.row ∧ 0 ≤ p.col) (h2 : 0 ≤ q.row ∧ 0 ≤ q.col) :
    expandRect m' (shift a b p) (shift a b q) gs = (shift a b (expandRect m p q gs).1, shift a b (expandRect m p q gs).2) := by
  have hw : WellRect (sortRect p q) := by simp only [WellRect, sortRect]; omega
  simp only [expandRect, shift_sort, shift_groups h gs hw]
  rfl

private theorem place_shift {Number : Str → Int → Prop} {f : Str → Option Int}
    (hN : (Number = RowNumber ∧ f = row2num) ∨ (Number = ColNumber ∧ f = col2num)) {a : Nat} {s t : Str}
    (h : ShiftedPlace Number a s t) (up dn : Int) (base : Option Int) :
    resolveCoord f t (up + a) (dn + a) (base.map (· + (a : Int))) =
      (match resolveCoord f s up dn base with
        | .ok v => .ok (v + a)
        | .error e => .error e) := by
  have hf : f = row2num ∨ f = col2num := hN.imp (·.2) (·.2)
  have num : ∀ (s : Str) (n : Int), 0 < n → Number s n → ∀ up dn base, resolveCoord f s up dn base = .ok (n - 1) := by
    intro s n h0 hn up dn base
    have hi : ∀ (hp : pyInt s = some n), resolveCoord f s up dn base = .ok (n - 1) := by
      intro hp
      rw [C32_numbers s n hp up dn base f hf, if_neg (by omega), if_pos h0]
    rcases hN with ⟨rfl, rfl⟩ | ⟨rfl, rfl⟩
    · exact hi hn
    · rcases hn with hp | ⟨h1, h2, rfl⟩
      · exact hi hp
      · exact C32_letters s h1 h2 up dn base
  cases h with
  | top => rfl
  | bottom => rfl
  | dot => cases base <;> rfl
  | back _ _ n h0 h1 h2 =>
    rw [C32_numbers s n h1 up dn base f hf, C32_numbers t n h2 _ _ _ f hf, if_neg (by omega), if_neg (by omega)]
    simp only [show ¬ (0 < n) by omega, show ¬ (n = 0) by omega, if_false, Except.ok.injEq]; omega
  | number _ _ n h0 h1 h2 =>
    rw [num s n h0 h1, num t (n + a) (by omega) h2]
    simp only [Except.ok.injEq]; omega

private theorem shift_cell {a b : Nat} {dn : Coords} {e f : Edge} (h : ShiftedEdge a b dn e f) (up : Coords)
    (base : Option Coords) :
    resolveCell f.land (shift a b up) (shift a b dn) (base.map (shift a b)) = shiftRes a b (resolveCell e.land up dn base) := by
  have e1 : (base.map (shift a b)).map (·.row) = (base.map (·.row)).map (· + (a : Int)) := by cases base <;> rfl
  have e2 : (base.map (shift a b)).map (·.col) = (base.map (·.col)).map (· + (b : Int)) := by cases base <;> rfl
  have h1 := place_shift (.inl ⟨rfl, rfl⟩) h.row up.row dn.row (base.map (·.row))
  have h2 := place_shift (.inr ⟨rfl, rfl⟩) h.col up.col dn.col (base.map (·.col))
  unfold resolveCell
  rw [e1, e2]
  simp only [shift] at h1 h2 ⊢
  rw [h1, h2]
  cases resolveCoord row2num e.land.row up.row dn.row (base.map (·.row)) with
  | error x => rfl
  | ok r =>
    cases resolveCoord col2num e.land.col up.col dn.col (base.map (·.col)) with
    | error x => rfl
    | ok c => rfl

private theorem cell_nonneg {m : Mat} {up dn : Coords} {a b : Nat} {e f : Edge} (h : ShiftedEdge a b dn e f)
    (hd : MarginOf m dn) (hu : 0 ≤ up.row ∧ 0 ≤ up.col) {base : Option Coords}
    (hb : ∀ c, base = some c → 0 ≤ c.row ∧ 0 ≤ c.col) {p : Coords} (hr : resolveCell e.land up dn base = .ok p) :
    0 ≤ p.row ∧ 0 ≤ p.col := by
  obtain ⟨r, c⟩ := p
  obtain ⟨g1, g2⟩ := (C32_cell e.land up dn base r c).1 hr
  refine ⟨C32_never_negative_partial row2num (.inl rfl) _ up.row dn.row r _ hu.1 hd.1 ?_ g1 h.rowIn,
    C32_never_negative_partial col2num (.inr rfl) _ up.col dn.col c _ hu.2 hd.2.2.1 ?_ g2 h.colIn⟩
  · intro x hx; cases base with
    | none => cases hx
    | some c => cases hx; exact (hb c rfl).1
  · intro x hx; cases base with
    | none => cases hx
    | some c => cases hx; exact (hb c rfl).2

private theorem full_nonneg {m : Mat} {p : Coords} (h : FullAt m p) : 0 ≤ p.row ∧ 0 ≤ p.col := by
  obtain ⟨i, j, rfl, _⟩ := h
  exact ⟨by simp, by simp⟩

private theorem opposite_nonneg {m : Mat} {dn p t : Coords} {moves : List Dir} {d1 : Dir} {d2 : Option Dir}
    (hm : Moves moves d1 d2) (hd : MarginOf m dn) (h1 : 0 ≤ p.row ∧ 0 ≤ p.col)
    (hr : targetOpposite m dn p moves = .ok t) : 0 ≤ t.row ∧ 0 ≤ t.col := by
  obtain ⟨_, _, _, f, _⟩ := (C33_first_full m dn p moves d1 d2 hm hd h1.1 h1.2 t).1 hr
  exact full_nonneg f

private theorem same_nonneg {m : Mat} {dn p t : Coords} {moves : List Dir} {d1 : Dir} {d2 : Option Dir}
    (hm : Moves moves d1 d2) (hd : MarginOf m dn) (hf : FullAt m p)
    (hr : targetSame m dn p moves = .ok t) : 0 ≤ t.row ∧ 0 ≤ t.col := by
  cases hm with
  | one d =>
    obtain ⟨k, r, e⟩ := C34_one_move m dn p d1 hd hf
    rw [e] at hr; cases hr
    exact full_nonneg (r.1 k (Nat.le_refl _))
  | two d e hp =>
    obtain ⟨k, l, r, s, g⟩ := C34_two_moves m dn p d1 e hp hd hf
    rw [g] at hr; cases hr
    have x := full_nonneg (r.1 k (Nat.le_refl _))
    have y := full_nonneg (s.1 l (Nat.le_refl _))
    revert x y hp
    cases d1 <;> cases e <;> simp [stepsFrom, unit, Perp] <;> omega

/-- The common part of both edges: from the landing cell on. -/
private theorem shift_land {a b : Nat} {m m' : Mat} (h : Shifted a b m m') {dn p : Coords} {moves : List Dir}
    {d1 : Dir} {d2 : Option Dir} (hm : Moves moves d1 d2) (hd : MarginOf m dn) (hd' : MarginOf m' (shift a b dn))
    (h1 : 0 ≤ p.row ∧ 0 ≤ p.col) (P : Prop) [Decidable P] :
    (if stateAt m' (shift a b p) then (if P then targetSame m' (shift a b dn) (shift a b p) moves else .ok (shift a b p))
      else targetOpposite m' (shift a b dn) (shift a b p) moves) =
      shiftRes a b (if stateAt m p then (if P then targetSame m dn p moves else .ok p) else targetOpposite m dn p moves) ∧
    ∀ t, (if stateAt m p then (if P then targetSame m dn p moves else .ok p) else targetOpposite m dn p moves) = .ok t →
      0 ≤ t.row ∧ 0 ≤ t.col := by
  have g : 0 ≤ (shift a b p).row ∧ 0 ≤ (shift a b p).col := by simp only [shift]; omega
  by_cases hs : stateAt m p = true
  · have hf := (stateAt_iff h1.1 h1.2).1 hs
    have hs' : stateAt m' (shift a b p) = true := (stateAt_iff g.1 g.2).2 ((h p).2 hf)
    rw [if_pos hs, if_pos hs']
    by_cases hP : P
    · rw [if_pos hP, if_pos hP]
      exact ⟨shift_same h hm hd hd' hf, fun t => same_nonneg hm hd hf⟩
    · rw [if_neg hP, if_neg hP]
      exact ⟨rfl, fun t ht => by cases ht; exact h1⟩
  · have hs' : ¬ stateAt m' (shift a b p) = true := fun c =>
      hs ((stateAt_iff h1.1 h1.2).2 ((h p).1 ((stateAt_iff g.1 g.2).1 c)))
    rw [if_neg hs, if_neg hs']
    exact ⟨shift_opposite h hm hd hd' h1.1 h1.2, fun t => opposite_nonneg hm hd h1⟩

private theorem shift_st {a b : Nat} {m m' : Mat} (h : Shifted a b m m') {up dn : Coords} {e f : Edge}
    (he : ShiftedEdge a b dn e f) (hd : MarginOf m dn) (hd' : MarginOf m' (shift a b dn)) (hu : 0 ≤ up.row ∧ 0 ≤ up.col)
    (base : Option Coords) (hb : ∀ c, base = some c → 0 ≤ c.row ∧ 0 ≤ c.col) :
    resolveSt m' (shift a b up) (shift a b dn) f (base.map (shift a b)) = shiftRes a b (resolveSt m up dn e base) ∧
      ∀ t, resolveSt m up dn e base = .ok t → 0 ≤ t.row ∧ 0 ≤ t.col := by
  unfold resolveSt
  rw [shift_cell he]
  cases hr : resolveCell e.land up dn base with
  | error x => exact ⟨rfl, fun t ht => by cases ht⟩
  | ok p =>
    have hp := cell_nonneg he hd hu hb hr
    simp only [shiftRes, he.mov, he.mod]
    cases hm : e.mov with
    | none => exact ⟨rfl, fun t ht => by cases ht; exact hp⟩
    | some ms =>
      obtain ⟨d1, d2, hms⟩ := he.moves ms hm
      exact shift_land h hms hd hd' hp _

private theorem dot_place {Number : Str → Int → Prop} (hN : Number = RowNumber ∨ Number = ColNumber) {a : Nat} {s t : Str}
    (h : ShiftedPlace Number a s t) : t = ['.'] ↔ s = ['.'] := by
  have hd : pyInt ['.'] = none := by decide +kernel
  have nd : ∀ n, ¬ Number ['.'] n := by
    intro n hn
    rcases hN with rfl | rfl
    · unfold RowNumber at hn; rw [hd] at hn; cases hn
    · rcases hn with hn | ⟨_, hl, _⟩
      · rw [hd] at hn; cases hn
      · have hf := hl '.' (by simp)
        exact absurd hf (by decide)
  cases h with
  | top => exact ⟨fun e => absurd e (by decide), fun e => absurd e (by decide)⟩
  | bottom => exact ⟨fun e => absurd e (by decide), fun e => absurd e (by decide)⟩
  | dot => exact ⟨fun _ => rfl, fun _ => rfl⟩
  | back _ _ n h0 h1 h2 =>
    constructor
    · rintro rfl; rw [hd] at h2; cases h2
    · rintro rfl; rw [hd] at h1; cases h1
  | number _ _ n h0 h1 h2 =>
    constructor
    · rintro rfl; exact absurd h2 (nd _)
    · rintro rfl; exact absurd h1 (nd _)

private theorem shift_nd {a b : Nat} {m m' : Mat} (h : Shifted a b m m') {up dn : Coords} {e f : Edge}
    (he : ShiftedEdge a b dn e f) (hd : MarginOf m dn) (hd' : MarginOf m' (shift a b dn)) (hu : 0 ≤ up.row ∧ 0 ≤ up.col)
    (st : Coords) (hb : 0 ≤ st.row ∧ 0 ≤ st.col) :
    resolveNd m' (shift a b up) (shift a b dn) f (shift a b st) = shiftRes a b (resolveNd m up dn e st) ∧
      ∀ t, resolveNd m up dn e st = .ok t → 0 ≤ t.row ∧ 0 ≤ t.col := by
  have hc := shift_cell he up (some st)
  simp only [Option.map_some] at hc
  have hdots : f.land = ⟨['.'], ['.']⟩ ↔ e.land = ⟨['.'], ['.']⟩ := by
    have r := dot_place (.inl rfl) he.row
    have c := dot_place (.inr rfl) he.col
    generalize e.land = x at r c ⊢
    generalize f.land = y at r c ⊢
    cases x; cases y
    simp only [Cell.mk.injEq] at r c ⊢
    rw [r, c]
  unfold resolveNd
  rw [hc]
  cases hr : resolveCell e.land up dn (some st) with
  | error x => exact ⟨rfl, fun t ht => by cases ht⟩
  | ok p =>
    have hp := cell_nonneg he hd hu (fun c hc => by cases hc; exact hb) hr
    simp only [shiftRes, he.mov, he.mod, hdots]
    cases hm : e.mov with
    | none => exact ⟨rfl, fun t ht => by cases ht; exact hp⟩
    | some ms =>
      obtain ⟨d1, d2, hms⟩ := he.moves ms hm
      exact shift_land h hms hd hd' hp _

/-- C144. Moving what a sheet has moves what is captured: when the full cells of a second sheet are those of a first
one, `a` rows further down and `b` columns further to the right, a reference with its numbers increased likewise
captures the rectangle moved likewise, or fails with the same error.  The empty rows and columns after the full
cells do not matter.
Missing for the full property: references that count back over more lines than there are, see
`C144_counting_back_refuted`. -/
theorem C144_shifted_partial (a b : Nat) (m m' : Mat) (h : Shifted a b m m') (up dn : Coords) (hd : MarginOf m dn)
    (hd' : MarginOf m' (shift a b dn)) (hu : 0 ≤ up.row ∧ 0 ≤ up.col) (st st' : Edge) (nd nd' : Option Edge)
    (h1 : ShiftedEdge a b dn st st') (h2 : ShiftedSecond a b dn nd nd') (exp : List ExpGroup)
    (base : Option Coords) (hb : ∀ c, base = some c → 0 ≤ c.row ∧ 0 ≤ c.col) :
    resolveCaptureRect m' (shift a b up) (shift a b dn) st' nd' exp (base.map (shift a b)) =
      shiftOutcome a b (resolveCaptureRect m up dn st nd exp base) := by
  obtain ⟨s1, s2⟩ := shift_st h h1 hd hd' hu base hb
  unfold resolveCaptureRect
  rw [s1]
  cases hs : resolveSt m up dn st base with
  | error e => rfl
  | ok p =>
    have hp := s2 p hs
    cases h2 with
    | none =>
      simp only [shiftRes, Option.getD_none, shift_expand h exp hp hp]
      split <;> rfl
    | some e f hef =>
      obtain ⟨n1, n2⟩ := shift_nd h hef hd hd' hu p hp
      simp only [shiftRes]
      rw [n1]
      cases hn : resolveNd m up dn e p with
      | error x => rfl
      | ok q =>
        have hq := n2 q hn
        simp only [shiftRes, Option.getD_some, shift_expand h exp hp hq, shift_sort]
        split <;> rfl

theorem rect_nonneg {a b : Nat} {m m' : Mat} (h : Shifted a b m m') {up dn : Coords} (hd : MarginOf m dn)
    (hd' : MarginOf m' (shift a b dn)) (hu : 0 ≤ up.row ∧ 0 ≤ up.col) {st st' : Edge} {nd nd' : Option Edge}
    (h1 : ShiftedEdge a b dn st st') (h2 : ShiftedSecond a b dn nd nd') {exp : List ExpGroup}
    {base : Option Coords} (hb : ∀ c, base = some c → 0 ≤ c.row ∧ 0 ≤ c.col) {p : Coords} {q : Option Coords}
    (hr : resolveCaptureRect m up dn st nd exp base = .ok (p, q)) :
    (0 ≤ p.row ∧ 0 ≤ p.col) ∧ ∀ c, q = some c → 0 ≤ c.row ∧ 0 ≤ c.col := by
  have key : ∀ x y : Coords, (0 ≤ x.row ∧ 0 ≤ x.col) → (0 ≤ y.row ∧ 0 ≤ y.col) → ∀ gs : List ExpGroup,
      WellRect (gs.foldl (expandGroup m) (sortRect x y)) := by
    intro x y hx hy gs
    have hw : WellRect (sortRect x y) := by simp only [WellRect, sortRect]; omega
    generalize sortRect x y = r at hw
    induction gs generalizing r with
    | nil => exact hw
    | cons g gs ih => exact ih _ (repeat_well _ _ hw)
  have fin : ∀ x y : Coords, (0 ≤ x.row ∧ 0 ≤ x.col) → (0 ≤ y.row ∧ 0 ≤ y.col) → ∀ gs : List ExpGroup,
      (0 ≤ (expandRect m x y gs).1.row ∧ 0 ≤ (expandRect m x y gs).1.col) ∧
      (0 ≤ (expandRect m x y gs).2.row ∧ 0 ≤ (expandRect m x y gs).2.col) := by
    intro x y hx hy gs
    obtain ⟨w1, w2, w3, w4⟩ := key x y hx hy gs
    simp only [expandRect]
    omega
  obtain ⟨_, s2⟩ := shift_st h h1 hd hd' hu base hb
  unfold resolveCaptureRect at hr
  cases hs : resolveSt m up dn st base with
  | error e => rw [hs] at hr; cases hr
  | ok x =>
    have hx := s2 x hs
    rw [hs] at hr
    simp only at hr
    cases h2 with
    | none =>
      simp only [Option.getD_none] at hr
      split at hr
      · cases hr
        have := fin x x hx hx exp
        exact ⟨this.1, fun c hc => by cases hc; exact this.2⟩
      · cases hr; exact ⟨hx, fun c hc => by cases hc⟩
    | some e f hef =>
      obtain ⟨_, n2⟩ := shift_nd h hef hd hd' hu x hx
      cases hn : resolveNd m up dn e x with
      | error z => simp only [hn] at hr; cases hr
      | ok y =>
        have hy := n2 y hn
        simp only [hn, Option.getD_some] at hr
        split at hr
        · cases hr
          have := fin x y hx hy exp
          exact ⟨this.1, fun c hc => by cases hc; exact this.2⟩
        · cases hr
          simp only [sortRect]
          refine ⟨by omega, fun c hc => by cases hc; simp only; omega⟩

/-- C144. The margins of a sheet that has anything move with it. -/
theorem C144_margins (a b : Nat) (m m' : Mat) (h : Shifted a b m m') (hf : ∃ p, FullAt m p) :
    marginCoords m' = (shift a b (marginCoords m).1, shift a b (marginCoords m).2) := by
  have hA := boxOf_margins m
  have hB := boxOf_margins m'
  generalize marginCoords m = x at hA ⊢
  generalize marginCoords m' = y at hB ⊢
  obtain ⟨lo, hi⟩ := x
  obtain ⟨lo', hi'⟩ := y
  simp only at hA hB ⊢
  have tt : ∀ p, FullAt m' p → FullAt m ⟨p.row - a, p.col - b⟩ := by
    intro p hp
    refine (h _).1 ?_
    have hs : shift a b ⟨p.row - a, p.col - b⟩ = p := by
      cases p; simp only [shift, Coords.mk.injEq]; omega
    rw [hs]; exact hp
  have hf' : ∃ p, FullAt m' p := by
    obtain ⟨p, hp⟩ := hf; exact ⟨_, (h p).2 hp⟩
  obtain ⟨⟨p1, f1, e1⟩, ⟨p2, f2, e2⟩, ⟨p3, f3, e3⟩, ⟨p4, f4, e4⟩⟩ := hA.attained hf
  obtain ⟨⟨q1, g1, u1⟩, ⟨q2, g2, u2⟩, ⟨q3, g3, u3⟩, ⟨q4, g4, u4⟩⟩ := hB.attained hf'
  have x1 := hB.bound _ ((h p1).2 f1)
  have x2 := hB.bound _ ((h p2).2 f2)
  have x3 := hB.bound _ ((h p3).2 f3)
  have x4 := hB.bound _ ((h p4).2 f4)
  have y1 := hA.bound _ (tt q1 g1)
  have y2 := hA.bound _ (tt q2 g2)
  have y3 := hA.bound _ (tt q3 g3)
  have y4 := hA.bound _ (tt q4 g4)
  simp only [shift] at *
  obtain ⟨cr, cc⟩ := lo'
  obtain ⟨dr, dc⟩ := hi'
  simp only [Prod.mk.injEq, Coords.mk.injEq] at *
  omega

theorem margin_of_full {m : Mat} (hf : ∃ p, FullAt m p) : MarginOf m (marginCoords m).2 := by
  obtain ⟨p, i, j, _, hi, hj, _⟩ := hf
  exact C38_lower_margin_ok m (by omega) (by omega)

theorem up_nonneg {m : Mat} (hf : ∃ p, FullAt m p) : 0 ≤ (marginCoords m).1.row ∧ 0 ≤ (marginCoords m).1.col := by
  obtain ⟨⟨p, h1, h2⟩, ⟨q, h3, h4⟩, _⟩ := C38_margins_attained m hf
  have := full_nonneg h1
  have := full_nonneg h3
  omega

/-- C144. So, with the margins that each sheet has, references for sheets that are moved of each other capture
rectangles that are moved of each other, up to the same references as for `C144_shifted_partial`. -/
theorem C144_sheets_partial (a b : Nat) (m m' : Mat) (h : Shifted a b m m') (hf : ∃ p, FullAt m p) (st st' : Edge)
    (nd nd' : Option Edge) (h1 : ShiftedEdge a b (marginCoords m).2 st st')
    (h2 : ShiftedSecond a b (marginCoords m).2 nd nd') (exp : List ExpGroup) :
    resolveCaptureRect m' (marginCoords m').1 (marginCoords m').2 st' nd' exp none =
      shiftOutcome a b (resolveCaptureRect m (marginCoords m).1 (marginCoords m).2 st nd exp none) := by
  have hm := margin_of_full hf
  have hf' : ∃ p, FullAt m' p := by
    obtain ⟨p, hp⟩ := hf; exact ⟨_, (h p).2 hp⟩
  have hm' := margin_of_full hf'
  rw [C144_margins a b m m' h hf] at hm' ⊢
  exact C144_shifted_partial a b m m' h _ _ hm hm' (up_nonneg hf) st st' nd nd' h1 h2 exp none (fun c hc => by cases hc)

private theorem val_full {g : Grid} {m : Mat} (hs : g.states = .ok m) :
    m.rows = g.rows ∧ m.cols = g.cols ∧ ∀ i j, m.cell i j = (match g.val i j with | .null => false | _ => true) := by
  unfold Grid.states at hs
  split at hs
  · cases hs
  · cases hs; exact ⟨rfl, rfl, fun _ _ => rfl⟩

/-- C144. Inserting empty rows and columns before what an array has moves its full cells. -/
theorem C144_padded (a b : Nat) (g g' : Grid) (hp : PaddedGrid a b g g') (m m' : Mat) (hs : g.states = .ok m)
    (hs' : g'.states = .ok m') : Shifted a b m m' := by
  obtain ⟨r1, c1, v1⟩ := val_full hs
  obtain ⟨r2, c2, v2⟩ := val_full hs'
  intro p
  constructor
  · rintro ⟨i, j, e, hi, hj, hc⟩
    simp only [shift, Coords.mk.injEq] at e
    rw [v2] at hc
    have hia : a ≤ i := by
      by_cases h : a ≤ i
      · exact h
      · rw [hp.above i j (by omega)] at hc; cases hc
    have hjb : b ≤ j := by
      by_cases h : b ≤ j
      · exact h
      · rw [hp.before i j (by omega)] at hc; cases hc
    have hv := hp.same (i - a) (j - b)
    rw [show i - a + a = i by omega, show j - b + b = j by omega] at hv
    have := hp.rows
    have := hp.cols
    refine ⟨i - a, j - b, ?_, by omega, by omega, ?_⟩
    · cases p; simp only [Coords.mk.injEq] at e ⊢; omega
    · rw [v1, ← hv]; exact hc
  · rintro ⟨i, j, rfl, hi, hj, hc⟩
    have := hp.rows
    have := hp.cols
    refine ⟨i + a, j + b, ?_, by omega, by omega, ?_⟩
    · simp only [shift, Coords.mk.injEq]; omega
    · rw [v2, hp.same i j, ← v1]; exact hc

private theorem range_shift (n a : Nat) : List.range (n + a) = List.range a ++ (List.range n).map (· + a) := by
  rw [Nat.add_comm, List.range_add]
  congr 1
  exact List.map_congr_left (fun x _ => by omega)

private theorem slice_shift (n a : Nat) (x y : Int) (hx : 0 ≤ x) (hy : 0 ≤ y) :
    sliceIdx (n + a) (x + a) (y + a) = (sliceIdx n x y).map (· + a) := by
  unfold sliceIdx
  rw [range_shift, List.filter_append, sliceBound_nonneg hx, sliceBound_nonneg hy, sliceBound_nonneg (by omega),
    sliceBound_nonneg (by omega)]
  have h1 : (List.range a).filter (fun i => decide (min (x + a).toNat (n + a) ≤ i ∧ i < min (y + a).toNat (n + a))) = [] := by
    rw [List.filter_eq_nil_iff]
    intro i hi
    have := List.mem_range.1 hi
    simp only [decide_eq_true_eq]; omega
  rw [h1, List.nil_append, List.filter_map]
  congr 1
  apply List.filter_congr
  intro i _
  simp only [Function.comp, decide_eq_decide]
  omega

theorem index_shift (n a : Nat) (x : Int) (hx : 0 ≤ x) : seqIndex (n + a) (x + a) = (seqIndex n x).map (· + a) := by
  rw [seqIndex_nonneg hx, seqIndex_nonneg (by omega)]
  by_cases h : x < n
  · rw [if_pos h, if_pos (by omega)]; simp only [Option.map_some, Option.some.injEq]; omega
  · rw [if_neg h, if_neg (by omega)]; rfl

/-- C144. And the values of a rectangle are those of the moved rectangle. -/
theorem C144_values (a b : Nat) (g g' : Grid) (hp : PaddedGrid a b g g') (hne : g.rows ≠ 0 ∧ g.cols ≠ 0) (st : Coords)
    (nd : Option Coords) (h1 : 0 ≤ st.row ∧ 0 ≤ st.col) (h2 : ∀ c, nd = some c → 0 ≤ c.row ∧ 0 ≤ c.col) :
    g'.readRect (shift a b st) (nd.map (shift a b)) = g.readRect st nd := by
  unfold Grid.readRect
  rw [if_neg (by have := hp.rows; have := hp.cols; omega), if_neg (by omega), hp.rows, hp.cols]
  cases nd with
  | none =>
    simp only [Option.map_none, shift, index_shift _ _ _ h1.1, index_shift _ _ _ h1.2]
    cases seqIndex g.rows st.row with
    | none => rfl
    | some i =>
      cases seqIndex g.cols st.col with
      | none => rfl
      | some j => simp only [Option.map_some, hp.same]
  | some q =>
    obtain ⟨q1, q2⟩ := h2 q rfl
    have e1 : q.row + (a : Int) + 1 = q.row + 1 + a := by omega
    have e2 : q.col + (b : Int) + 1 = q.col + 1 + b := by omega
    simp only [Option.map_some, shift, e1, e2, slice_shift _ _ _ _ h1.1 (show 0 ≤ q.row + 1 by omega),
      slice_shift _ _ _ _ h1.2 (show 0 ≤ q.col + 1 by omega), List.map_map, Except.ok.injEq, Captured.table.injEq]
    apply List.map_congr_left
    intro i _
    apply List.map_congr_left
    intro j _
    exact hp.same i j

/-- A sheet with a table that misses a cell. -/
private def small : Mat := ⟨3, 3, fun i j => decide ((i, j) ∈ [(1, 1), (1, 2), (2, 1)])⟩

/-- The same after two rows and one column, and before three rows and a column. -/
private def large : Mat := ⟨8, 5, fun i j => decide ((i, j) ∈ [(3, 2), (3, 3), (4, 2)])⟩

private theorem small_large : Shifted 2 1 small large := by
  rintro ⟨r, c⟩
  constructor
  · rintro ⟨i, j, e, hi, hj, hc⟩
    simp only [large, List.mem_cons, Prod.mk.injEq, List.not_mem_nil, or_false, decide_eq_true_eq] at hc
    simp only [shift, Coords.mk.injEq] at e
    rcases hc with ⟨rfl, rfl⟩ | ⟨rfl, rfl⟩ | ⟨rfl, rfl⟩
    · exact ⟨1, 1, by simp only [Coords.mk.injEq]; omega, by decide, by decide, rfl⟩
    · exact ⟨1, 2, by simp only [Coords.mk.injEq]; omega, by decide, by decide, rfl⟩
    · exact ⟨2, 1, by simp only [Coords.mk.injEq]; omega, by decide, by decide, rfl⟩
  · rintro ⟨i, j, e, hi, hj, hc⟩
    simp only [small, List.mem_cons, Prod.mk.injEq, List.not_mem_nil, or_false, decide_eq_true_eq] at hc
    simp only [Coords.mk.injEq] at e
    rcases hc with ⟨rfl, rfl⟩ | ⟨rfl, rfl⟩ | ⟨rfl, rfl⟩
    · exact ⟨3, 2, by simp only [shift, Coords.mk.injEq]; omega, by decide, by decide, rfl⟩
    · exact ⟨3, 3, by simp only [shift, Coords.mk.injEq]; omega, by decide, by decide, rfl⟩
    · exact ⟨4, 2, by simp only [shift, Coords.mk.injEq]; omega, by decide, by decide, rfl⟩

/-- The edges `A1(RD)` and `B3(RD)`. -/
private theorem edges_fit (dn : Coords) (h : 0 ≤ dn.row ∧ 0 ≤ dn.col) : ShiftedEdge 2 1 dn ⟨⟨"1".toList, "A".toList⟩, some [.R, .D], none⟩ ⟨⟨"3".toList, "B".toList⟩, some [.R, .D], none⟩ where
  row := .number _ _ 1 (by decide) (by unfold RowNumber; decide +kernel) (by unfold RowNumber; decide +kernel)
  col := .number _ _ 1 (by decide) (.inr ⟨by decide, by decide, by decide +kernel⟩) (.inr ⟨by decide, by decide, by decide +kernel⟩)
  mov := rfl
  mod := rfl
  moves ms h := by cases h; exact ⟨_, _, .two _ _ (by decide)⟩
  rowIn n h := by
    have h' : (some (1 : Int)) = some n := h
    cases h'; omega
  colIn n h := by
    have h' : (none : Option Int) = some n := h
    cases h'

/-- What both capture, with a second edge `_.` and an expansion. -/
example : resolveCaptureRect small ⟨1, 1⟩ ⟨2, 2⟩ ⟨⟨"1".toList, "A".toList⟩, some [.R, .D], none⟩
      (some ⟨⟨"_".toList, ".".toList⟩, none, none⟩) [⟨[.R], none⟩] none = .ok (⟨1, 1⟩, some ⟨2, 2⟩) ∧
    resolveCaptureRect large ⟨3, 2⟩ ⟨4, 3⟩ ⟨⟨"3".toList, "B".toList⟩, some [.R, .D], none⟩
      (some ⟨⟨"_".toList, ".".toList⟩, none, none⟩) [⟨[.R], none⟩] none = .ok (⟨3, 2⟩, some ⟨4, 3⟩) := by
  constructor <;> rfl

/-- C144, violated: `B-4(D)` counts back over more rows than there are in the first sheet, so the landing cell is
taken for one of the last row, where there is something, and the capture is outside of the sheet; in the moved
sheet the same reference finds the first full cell below. -/
theorem C144_counting_back_refuted : ∃ (m m' : Mat) (e e' : Edge), Shifted 2 1 m m' ∧
    MarginOf m ⟨2, 2⟩ ∧ MarginOf m' (shift 2 1 ⟨2, 2⟩) ∧
    ShiftedPlace RowNumber 2 e.land.row e'.land.row ∧ ShiftedPlace ColNumber 1 e.land.col e'.land.col ∧
    e'.mov = e.mov ∧ e'.mod = e.mod ∧ e.mov = some [.D] ∧
    resolveCaptureRect m ⟨1, 1⟩ ⟨2, 2⟩ e none [] none = .ok (⟨-1, 1⟩, none) ∧
    resolveCaptureRect m' (shift 2 1 ⟨1, 1⟩) (shift 2 1 ⟨2, 2⟩) e' none [] none = .ok (⟨3, 2⟩, none) := by
  refine ⟨small, large, ⟨⟨"-4".toList, "B".toList⟩, some [.D], none⟩, ⟨⟨"-4".toList, "C".toList⟩, some [.D], none⟩,
    small_large, ?_, ?_, .back _ _ (-4) (by decide) (by decide +kernel) (by decide +kernel),
    .number _ _ 2 (by decide) (.inr ⟨by decide, by decide, by decide +kernel⟩) (.inr ⟨by decide, by decide, by decide +kernel⟩),
    rfl, rfl, rfl, rfl, rfl⟩
  · refine ⟨by decide, by decide, by decide, by decide, ?_⟩
    rintro _ ⟨i, j, rfl, hi, hj, _⟩
    simp only [small] at hi hj ⊢; omega
  · refine ⟨by decide, by decide, by decide, by decide, ?_⟩
    rintro _ ⟨i, j, rfl, hi, hj, hc⟩
    simp only [large, List.mem_cons, Prod.mk.injEq, List.not_mem_nil, or_false, decide_eq_true_eq] at hc
    simp only [shift]; omega

end Props
