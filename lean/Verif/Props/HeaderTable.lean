import Verif.Props.Table
/-
C147: tables with a header row and an index column, and tables among others.
-/
set_option linter.unusedSimpArgs false
namespace Props
open Py Model Spec Lemmas

private theorem nat_of {m : Mat} {p : Coords} (h : FullAt m p) : ∃ i j : Nat, p = ⟨i, j⟩ := by
  obtain ⟨i, j, e, -⟩ := h; exact ⟨i, j, e⟩

theorem box_inside {m : Mat} {r1 c1 r2 c2 : Nat} (h : BoundingBox m r1 c1 r2 c2) {p : Coords} (hp : FullAt m p) :
    (r1 : Int) ≤ p.row ∧ p.row ≤ r2 ∧ (c1 : Int) ≤ p.col ∧ p.col ≤ c2 := by
  obtain ⟨i, j, rfl⟩ := nat_of hp
  have := h.1 i j hp
  simp only; omega

theorem box_ordered {m : Mat} {r1 c1 r2 c2 : Nat} (h : BoundingBox m r1 c1 r2 c2) : r1 ≤ r2 ∧ c1 ≤ c2 := by
  obtain ⟨hin, ⟨j, f⟩, -, ⟨i, f'⟩, -⟩ := h
  have := hin _ _ f; have := hin _ _ f'
  omega

theorem box_margins {m : Mat} {r1 c1 r2 c2 : Nat} (h : BoundingBox m r1 c1 r2 c2) :
    marginCoords m = (⟨r1, c1⟩, ⟨r2, c2⟩) := by
  obtain ⟨hin, ⟨j1, f1⟩, ⟨j2, f2⟩, ⟨i1, f3⟩, ⟨i2, f4⟩⟩ := h
  have b1 := C38_margins_bound m _ f1
  have b2 := C38_margins_bound m _ f2
  have b3 := C38_margins_bound m _ f3
  have b4 := C38_margins_bound m _ f4
  obtain ⟨⟨p1, q1, a1⟩, ⟨p2, q2, a2⟩, ⟨p3, q3, a3⟩, ⟨p4, q4, a4⟩⟩ := C38_margins_attained m ⟨_, f1⟩
  obtain ⟨x1, y1, rfl⟩ := nat_of q1
  obtain ⟨x2, y2, rfl⟩ := nat_of q2
  obtain ⟨x3, y3, rfl⟩ := nat_of q3
  obtain ⟨x4, y4, rfl⟩ := nat_of q4
  have d1 := hin _ _ q1
  have d2 := hin _ _ q2
  have d3 := hin _ _ q3
  have d4 := hin _ _ q4
  simp only at b1 b2 b3 b4 a1 a2 a3 a4
  refine Prod.ext ?_ ?_
  · cases h : (marginCoords m).1; rw [h] at b1 b2 b3 b4 a1 a2; simp only [Coords.mk.injEq] at *; omega
  · cases h : (marginCoords m).2; rw [h] at b1 b2 b3 b4 a3 a4; simp only [Coords.mk.injEq] at *; omega

private theorem first_down {m : Mat} {r1 c1 r2 c2 i j : Nat} (h : BoundingBox m r1 c1 r2 c2) (hi : i ≤ r1) (hj : j ≤ c1)
    (hf : FullAt m ⟨r1, c1⟩ ∨ FullAt m ⟨(r1 + 1 : Nat), c1⟩) :
    ∃ r : Nat, (r = r1 ∨ r = r1 + 1) ∧ FirstFull m ⟨i, j⟩ .D (some .R) ⟨r, c1⟩ := by
  by_cases h0 : FullAt m ⟨r1, c1⟩
  · refine ⟨r1, .inl rfl, c1 - j, r1 - i, ?_, h0, ?_⟩
    · simp only [visited, stepsFrom, unit, Coords.mk.injEq]; omega
    · intro j2 j1 hlt hc
      have := box_inside h hc
      simp only [visited, stepsFrom, unit] at this; omega
  · have h1 := hf.resolve_left h0
    refine ⟨r1 + 1, .inr rfl, c1 - j, r1 + 1 - i, ?_, h1, ?_⟩
    · simp only [visited, stepsFrom, unit, Coords.mk.injEq]; omega
    · intro j2 j1 hlt hc
      have := box_inside h hc
      have e : visited ⟨i, j⟩ .D (some .R) j2 j1 = ⟨r1, c1⟩ := by
        simp only [visited, stepsFrom, unit, Coords.mk.injEq] at this ⊢; omega
      rw [e] at hc
      exact h0 hc

private theorem first_across {m : Mat} {r1 c1 r2 c2 i j : Nat} (h : BoundingBox m r1 c1 r2 c2) (hi : i ≤ r1) (hj : j ≤ c1)
    (hf : FullAt m ⟨r1, c1⟩ ∨ FullAt m ⟨r1, (c1 + 1 : Nat)⟩) :
    ∃ c : Nat, (c = c1 ∨ c = c1 + 1) ∧ FirstFull m ⟨i, j⟩ .R (some .D) ⟨r1, c⟩ := by
  by_cases h0 : FullAt m ⟨r1, c1⟩
  · refine ⟨c1, .inl rfl, r1 - i, c1 - j, ?_, h0, ?_⟩
    · simp only [visited, stepsFrom, unit, Coords.mk.injEq]; omega
    · intro j2 j1 hlt hc
      have := box_inside h hc
      simp only [visited, stepsFrom, unit] at this; omega
  · have h1 := hf.resolve_left h0
    refine ⟨c1 + 1, .inr rfl, r1 - i, c1 + 1 - j, ?_, h1, ?_⟩
    · simp only [visited, stepsFrom, unit, Coords.mk.injEq]; omega
    · intro j2 j1 hlt hc
      have := box_inside h hc
      have e : visited ⟨i, j⟩ .R (some .D) j2 j1 = ⟨r1, c1⟩ := by
        simp only [visited, stepsFrom, unit, Coords.mk.injEq] at this ⊢; omega
      rw [e] at hc
      exact h0 hc

/-- One expansion in one direction. -/
private theorem expand_once {m : Mat} {a b : Coords} (h1 : 0 ≤ a.row) (h2 : 0 ≤ a.col) (h3 : a.row ≤ b.row) (h4 : a.col ≤ b.col) (d : Dir) :
    (LineFull m ⟨a.row, b.row, a.col, b.col⟩ d → expandRect m a b [⟨[d], some 1⟩] =
      corners (widen ⟨a.row, b.row, a.col, b.col⟩ (fun e => if e = d then 1 else 0))) ∧
    (¬ LineFull m ⟨a.row, b.row, a.col, b.col⟩ d → expandRect m a b [⟨[d], some 1⟩] = (a, b)) := by
  have hs : sortRect a b = ⟨a.row, b.row, a.col, b.col⟩ := by
    simp only [sortRect, Rect.mk.injEq]; omega
  have hr := C36_exact_rounds m [d] 1 ⟨a.row, b.row, a.col, b.col⟩ (by unfold WellRect; simp only; omega)
  simp only [expandRect, List.foldl_cons, List.foldl_nil, hs]
  generalize expandGroup m ⟨a.row, b.row, a.col, b.col⟩ ⟨[d], some 1⟩ = r at hr
  cases hr with
  | succ _ _ r' _ h0 hz =>
    cases hz
    cases h0 with
    | skip _ _ _ _ hn hd => cases hd; exact ⟨fun hc => absurd hc hn, fun _ => rfl⟩
    | take _ _ _ _ hn hd => cases hd; exact ⟨fun _ => rfl, fun hc => absurd hn hc⟩

private theorem start_at {m : Mat} {up dn : Coords} {i j : Nat} {land : Cell} (hdn : MarginOf m dn)
    (hl : resolveCell land up dn none = .ok ⟨i, j⟩) {d1 d2 : Dir} (hmv : Moves [d1, d2] d1 (some d2)) {t : Coords}
    (hff : FirstFull m ⟨i, j⟩ d1 (some d2) t) : resolveSt m up dn ⟨land, some [d1, d2], none⟩ none = .ok t := by
  obtain ⟨-, hfull, -, hempty⟩ := C37_first_edge m up dn none land ⟨i, j⟩ hl (by simp) (by simp) hdn _ d1 (some d2) hmv none
  by_cases hf : FullAt m ⟨i, j⟩
  · rw [hfull hf (by simp)]
    obtain ⟨k2, k1, e, _, hn⟩ := hff
    by_cases hz : k2 = 0 ∧ k1 = 0
    · obtain ⟨rfl, rfl⟩ := hz
      rw [e]
      cases d1 <;> cases d2 <;> simp [visited, stepsFrom, unit]
    · exact absurd (by cases d1 <;> cases d2 <;> simpa [visited, stepsFrom, unit] using hf) (hn 0 0 (by omega))
  · exact (hempty hf _).2 hff

theorem corners_resolve (up dn : Coords) (base : Option Coords) :
    resolveCell ⟨['^'], ['^']⟩ up dn base = .ok up ∧ resolveCell ⟨['_'], ['_']⟩ up dn base = .ok dn := by
  constructor <;> simp [resolveCell, resolveCoord]

private theorem rect_header {m : Mat} {up : Coords} {r1 c1 r2 c2 b d i j : Nat} (h : BoundingBox m r1 c1 r2 c2) (hb : r2 ≤ b) (hd : c2 ≤ d)
    (hdn : MarginOf m ⟨b, d⟩) (hi : i ≤ r1) (hj : j ≤ c1) {land : Cell} (hl : resolveCell land up ⟨b, d⟩ none = .ok ⟨i, j⟩) :
    (FullAt m ⟨r1, c1⟩ ∨ FullAt m ⟨(r1 + 1 : Nat), c1⟩ →
      resolveCaptureRect m up ⟨b, d⟩ ⟨land, some [.D, .R], none⟩ (some ⟨⟨['_'], ['_']⟩, none, none⟩) [⟨[.U], some 1⟩] none =
        .ok (⟨r1, c1⟩, some ⟨b, d⟩)) ∧
    (FullAt m ⟨r1, c1⟩ ∨ FullAt m ⟨r1, (c1 + 1 : Nat)⟩ →
      resolveCaptureRect m up ⟨b, d⟩ ⟨land, some [.R, .D], none⟩ (some ⟨⟨['_'], ['_']⟩, none, none⟩) [⟨[.L], some 1⟩] none =
        .ok (⟨r1, c1⟩, some ⟨b, d⟩)) := by
  obtain ⟨o1, o2⟩ := box_ordered h
  have hnd : ∀ p, resolveNd m up ⟨b, d⟩ ⟨⟨['_'], ['_']⟩, none, none⟩ p = .ok ⟨b, d⟩ := by
    intro p; simp [resolveNd, (corners_resolve _ _ _).2]
  constructor
  · intro hf
    obtain ⟨r, hr, hff⟩ := first_down h hi hj hf
    have hst := start_at (d2 := .R) hdn hl (.two _ _ (by decide)) hff
    have hin := box_inside h (let ⟨_, _, _, f, _⟩ := hff; f)
    obtain ⟨htake, hskip⟩ := expand_once (m := m) (a := ⟨r, c1⟩) (b := ⟨b, d⟩) (by simp) (by simp) (by simp only at hin ⊢; omega) (by simp only; omega) .U
    have he : expandRect m ⟨r, c1⟩ ⟨b, d⟩ [⟨[.U], some 1⟩] = (⟨r1, c1⟩, ⟨b, d⟩) := by
      rcases hr with rfl | rfl
      · apply hskip
        rintro ⟨p, hp, hfp⟩
        have := box_inside h hfp
        simp only [AdjLine] at hp; omega
      · rw [htake]
        · simp [corners, widen]
        · obtain ⟨y, hy⟩ := h.2.1
          have := box_inside h hy
          exact ⟨_, by simp only [AdjLine]; simp only at this; omega, hy⟩
    simp only [resolveCaptureRect, hst, hnd, ne_eq, List.cons_ne_self, reduceCtorEq, not_false_eq_true, if_true, Option.getD_some, he]
  · intro hf
    obtain ⟨c, hr, hff⟩ := first_across h hi hj hf
    have hst := start_at (d2 := .D) hdn hl (.two _ _ (by decide)) hff
    have hin := box_inside h (let ⟨_, _, _, f, _⟩ := hff; f)
    obtain ⟨htake, hskip⟩ := expand_once (m := m) (a := ⟨r1, c⟩) (b := ⟨b, d⟩) (by simp) (by simp) (by simp only; omega) (by simp only at hin ⊢; omega) .L
    have he : expandRect m ⟨r1, c⟩ ⟨b, d⟩ [⟨[.L], some 1⟩] = (⟨r1, c1⟩, ⟨b, d⟩) := by
      rcases hr with rfl | rfl
      · apply hskip
        rintro ⟨p, hp, hfp⟩
        have := box_inside h hfp
        simp only [AdjLine] at hp; omega
      · rw [htake]
        · simp [corners, widen]
        · obtain ⟨y, hy⟩ := h.2.2.2.1
          have := box_inside h hy
          exact ⟨_, by simp only [AdjLine]; simp only at this; omega, hy⟩
    simp only [resolveCaptureRect, hst, hnd, ne_eq, List.cons_ne_self, reduceCtorEq, not_false_eq_true, if_true, Option.getD_some, he]

theorem chars_ok {a : A1} {i j : Nat} (ha : a.Is i j) (rest : Str) (hr : '“' ∉ rest ∧ '”' ∉ rest) : NoCurly ([] ++ (a.text ++ rest)) := by
  have : ∀ c ∈ a.text, c ≠ '“' ∧ c ≠ '”' := by
    intro c hc
    have := text_chars ha c hc
    constructor <;> (rintro rfl; revert this; decide)
  constructor <;> (intro hc; simp only [List.nil_append, List.mem_append] at hc)
  · rcases hc with hc | hc
    · exact (this _ hc).1 rfl
    · exact hr.1 hc
  · rcases hc with hc | hc
    · exact (this _ hc).2 rfl
    · exact hr.2 hc

theorem sheet_dims {g : Grid} {m : Mat} (hm : g.states = .ok m) : ¬ (g.rows = 0 ∨ g.cols = 0) ∧ m.rows = g.rows ∧ m.cols = g.cols := by
  have hne : ¬ (g.rows = 0 ∨ g.cols = 0) := by
    intro e; simp [Grid.states, e] at hm
  refine ⟨hne, ?_⟩
  rw [Grid.states, if_neg hne] at hm; cases hm; exact ⟨rfl, rfl⟩

/-- What the proofs need of a sheet: its full cells, its margins, and that the blocks in it can be read. -/
structure Readable {S : Type} (A : SheetApi S) (R : Ranger S) (s : S) (m : Mat) (up dn : Coords) (val : Nat → Nat → Doc) : Prop where
  fetch : R.fetch none none (some s) = .ok s
  states : A.states s = .ok m
  margins : A.margins s = .ok (up, dn)
  lower : MarginOf m dn
  read : ∀ r1 c1 r2 c2 : Nat, r1 ≤ r2 → c1 ≤ c2 → r2 < m.rows → c2 < m.cols →
    ∃ v, A.readRect s ⟨r1, c1⟩ (some ⟨r2, c2⟩) = .ok v ∧ IsBlock val r1 c1 r2 c2 v.toDoc

theorem array_readable {R : Ranger Grid} {g : Grid} {m : Mat} (hfetch : R.fetch none none (some g) = .ok g) (hm : g.states = .ok m) :
    Readable arrayApi R g m (marginCoords m).1 (marginCoords m).2 g.val := by
  obtain ⟨hne, d1, d2⟩ := sheet_dims hm
  refine ⟨hfetch, hm, by simp [arrayApi, hm, getMargins], C38_lower_margin_ok m (by omega) (by omega), ?_⟩
  intro r1 c1 r2 c2 o1 o2 w1 w2
  obtain ⟨t, ht, hl, hrow, hent⟩ := C39_array_rect g r1 c1 r2 c2 o1 (by omega) o2 (by omega)
  exact ⟨_, ht, t, rfl, hl, hrow, hent⟩

theorem excel_readable (dateOf : Nat → Doc) (nan : Doc) {R : Ranger XlGrid} {g : XlGrid} (hfetch : R.fetch none none (some g) = .ok g)
    (hne : ∃ p, FullAt g.states p) :
    Readable (xlrdApi dateOf nan) R g g.states (marginCoords g.states).1 ⟨(g.rows : Int) - 1, (g.cols : Int) - 1⟩
      (fun i j => parseCell dateOf nan (g.cell i j)) := by
  obtain ⟨p, hp⟩ := hne
  have hpos := fullAt_iff.1 hp
  simp only [XlGrid.states] at hpos
  have hdn : g.dnMargin = .ok ⟨(g.rows : Int) - 1, (g.cols : Int) - 1⟩ := by
    unfold XlGrid.dnMargin; rw [if_neg (by omega)]
  have hml := C38_xlrd_margins g _ hdn
  refine ⟨hfetch, rfl, ?_, hml.1, ?_⟩
  · simp only [xlrdApi, hdn, getMargins]
    rfl
  · intro r1 c1 r2 c2 o1 o2 w1 w2
    obtain ⟨t, ht, hl, hrow, hent⟩ := C39_xlrd_rect g dateOf nan r1 c1 r2 c2 o1 o2
    refine ⟨_, ht, t, rfl, hl, hrow, ?_⟩
    intro i j hi hj
    rw [hent i j hi hj, if_pos]
    simp only [XlGrid.states] at w1 w2
    omega

theorem block_on {S : Type} {A : SheetApi S} {R : Ranger S} {s : S} {m : Mat} {up dn : Coords} {val : Nat → Nat → Doc}
    (hR : Readable A R s m up dn val) (jsonLoads : Str → Option Doc) {r1 c1 r2 c2 : Nat} (o1 : r1 ≤ r2) (o2 : c1 ≤ c2) (w1 : r2 < m.rows) (w2 : c2 < m.cols)
    (rt : RefText) (items : List ExpItem) (hok : rt.Ok) (hf : rt.filt = none) (hsh : rt.sheetName = none) (hne : rt.text ≠ [])
    (hcur : NoCurly ([] ++ rt.text)) (hx : rt.Expands items)
    (hr : resolveCaptureRect m up dn rt.first rt.second (items.map ExpItem.meaning) none = .ok (⟨r1, c1⟩, some ⟨r2, c2⟩)) :
    ∃ l, R.doLasso A jsonLoads ('#' :: rt.text) { sheet := some s } = .ok (.lasso l) ∧
      l.st = some ⟨r1, c1⟩ ∧ l.nd = some ⟨r2, c2⟩ ∧ IsBlock val r1 c1 r2 c2 l.values := by
  obtain ⟨v, hv, hb⟩ := hR.read r1 c1 r2 c2 o1 o2 w1 w2
  obtain ⟨l, e0, -, e1, e2, e3⟩ := (C86_captures R A jsonLoads [] rt items (some s) none s m _ _ (by simp) hcur hok hf hne hx
    (by rw [hsh]; exact hR.fetch) hR.states hR.margins).1 _ _ _ hr hv
  exact ⟨l, e0, e1, e2, by rw [e3]; exact hb⟩

theorem box_in {m : Mat} {r1 c1 r2 c2 : Nat} (h : BoundingBox m r1 c1 r2 c2) : r2 < m.rows ∧ c2 < m.cols := by
  obtain ⟨-, -, ⟨j2, f2⟩, -, ⟨i2, f4⟩⟩ := h
  have w2 := fullAt_iff.1 f2
  have w4 := fullAt_iff.1 f4
  simp only at w2 w4
  omega

private theorem header_on {S : Type} {A : SheetApi S} {R : Ranger S} {s : S} {m : Mat} {r1 c1 r2 c2 b d : Nat} {val : Nat → Nat → Doc}
    (hR : Readable A R s m ⟨r1, c1⟩ ⟨b, d⟩ val) (jsonLoads : Str → Option Doc) (h : BoundingBox m r1 c1 r2 c2) (hb : r2 ≤ b) (hd : c2 ≤ d)
    (hb' : b < m.rows) (hd' : d < m.cols) (a : A1) (i j : Nat) (ha : a.Is i j) (hi : i ≤ r1) (hj : j ≤ c1) :
    (∃ l, R.doLasso A jsonLoads "#^^:__".toList { sheet := some s } = .ok (.lasso l) ∧
      l.st = some ⟨r1, c1⟩ ∧ l.nd = some ⟨b, d⟩ ∧ IsBlock val r1 c1 b d l.values) ∧
    (FullAt m ⟨r1, c1⟩ ∨ FullAt m ⟨(r1 + 1 : Nat), c1⟩ →
      ∃ l, R.doLasso A jsonLoads ('#' :: (a.text ++ "(DR):__:U1".toList)) { sheet := some s } = .ok (.lasso l) ∧
        l.st = some ⟨r1, c1⟩ ∧ l.nd = some ⟨b, d⟩ ∧ IsBlock val r1 c1 b d l.values) ∧
    (FullAt m ⟨r1, c1⟩ ∨ FullAt m ⟨r1, (c1 + 1 : Nat)⟩ →
      ∃ l, R.doLasso A jsonLoads ('#' :: (a.text ++ "(RD):__:L1".toList)) { sheet := some s } = .ok (.lasso l) ∧
        l.st = some ⟨r1, c1⟩ ∧ l.nd = some ⟨b, d⟩ ∧ IsBlock val r1 c1 b d l.values) := by
  obtain ⟨o1, o2⟩ := box_ordered h
  obtain ⟨w1, w2⟩ := box_in h
  have hdn := hR.lower
  have hus : ∀ b, CellText.Ok b (.a1 "_".toList "_".toList) := fun b => ⟨.inr (.inl rfl), .inr (.inl rfl)⟩
  have hca : ∀ b, CellText.Ok b (.a1 "^".toList "^".toList) := fun b => ⟨.inr (.inr (.inl rfl)), .inr (.inr (.inl rfl))⟩
  have hl := cell_resolves ha (⟨r1, c1⟩ : Coords) ⟨b, d⟩ none
  obtain ⟨hU, hL⟩ := rect_header h hb hd hdn hi hj hl
  refine ⟨?_, ?_, ?_⟩
  · let rt : RefText := ⟨[], none, some ⟨.a1 "^".toList "^".toList, none⟩, some (some ⟨.a1 "_".toList "_".toList, none⟩, none), none⟩
    refine block_on hR jsonLoads (r1 := r1) (c1 := c1) (r2 := b) (c2 := d) (by omega) (by omega) hb' hd' rt [] ?_ rfl rfl (by decide) (by unfold NoCurly; decide) rfl ?_
    · exact ⟨by simp [Spaces, rt], trivial, (by intro e he; cases he; exact ⟨hca _, trivial⟩),
        (by intro e ex he; cases he; exact ⟨hus _, trivial⟩), (by intro nd ex he; cases he; trivial), trivial, by simp [rt]⟩
    · have h1 : rt.first = ⟨⟨['^'], ['^']⟩, none, none⟩ := rfl
      have h2 : rt.second = some ⟨⟨['_'], ['_']⟩, none, none⟩ := rfl
      rw [h1, h2]
      have := corners_resolve (⟨r1, c1⟩ : Coords) ⟨b, d⟩
      simp only [resolveCaptureRect, resolveSt, resolveNd, (this _).1, (this _).2, sortRect, List.map_nil,
        ne_eq, not_true_eq_false, if_false, Except.ok.injEq, Prod.mk.injEq, Coords.mk.injEq, Option.some.injEq]
      omega
  · intro hf
    let rt : RefText := ⟨[], none, some ⟨.a1 a.letters (natStr a.row), some ("DR".toList, none)⟩,
      some (some ⟨.a1 "_".toList "_".toList, none⟩, some "U1".toList), none⟩
    have htext : a.text ++ "(DR):__:U1".toList = rt.text := by
      simp [rt, RefText.text, sheetText, optEdgeText, rangeText, expText, filtText, EdgeText.text, CellText.text, movText, A1.text]
    rw [htext]
    refine block_on hR jsonLoads (r1 := r1) (c1 := c1) (r2 := b) (c2 := d) (by omega) (by omega) hb' hd' rt [.counted 'U' "1".toList] ?_ rfl rfl
      (by rw [← htext]; simp) (by rw [← htext]; exact chars_ok ha _ (by decide)) ?_ ?_
    · exact ⟨by simp [Spaces, rt], trivial, (by intro e he; cases he; exact ⟨(cell_ok ha false).1, by decide, .inl rfl⟩),
        (by intro e ex he; cases he; exact ⟨hus _, trivial⟩), (by intro nd ex he; cases he; unfold ExpOk; decide), trivial, by simp [rt]⟩
    · exact ⟨by intro it hit; simp at hit; subst hit; exact ⟨rfl, by decide, by decide⟩, trivial, rfl⟩
    · exact hU hf
  · intro hf
    let rt : RefText := ⟨[], none, some ⟨.a1 a.letters (natStr a.row), some ("RD".toList, none)⟩,
      some (some ⟨.a1 "_".toList "_".toList, none⟩, some "L1".toList), none⟩
    have htext : a.text ++ "(RD):__:L1".toList = rt.text := by
      simp [rt, RefText.text, sheetText, optEdgeText, rangeText, expText, filtText, EdgeText.text, CellText.text, movText, A1.text]
    rw [htext]
    refine block_on hR jsonLoads (r1 := r1) (c1 := c1) (r2 := b) (c2 := d) (by omega) (by omega) hb' hd' rt [.counted 'L' "1".toList] ?_ rfl rfl
      (by rw [← htext]; simp) (by rw [← htext]; exact chars_ok ha _ (by decide)) ?_ ?_
    · exact ⟨by simp [Spaces, rt], trivial, (by intro e he; cases he; exact ⟨(cell_ok ha false).1, by decide, .inl rfl⟩),
        (by intro e ex he; cases he; exact ⟨hus _, trivial⟩), (by intro nd ex he; cases he; unfold ExpOk; decide), trivial, by simp [rt]⟩
    · exact ⟨by intro it hit; simp at hit; subst hit; exact ⟨rfl, by decide, by decide⟩, trivial, rfl⟩
    · exact hL hf

/-- C147. On an array sheet with one table, given by the smallest rectangle around its full cells, the documented
ways of capturing it agree: from corner to corner; from the first full cell found going down and then right, to the
corner, with the header row above added; and from the first full cell found going right and then down, to the
corner, with the index column before it added. The cell where the header row and the index column meet may be
empty or full. -/
theorem C147_header_and_index (R : Ranger Grid) (jsonLoads : Str → Option Doc) (g : Grid) (m : Mat) (r1 c1 r2 c2 : Nat)
    (hfetch : R.fetch none none (some g) = .ok g) (hm : g.states = .ok m) (h : BoundingBox m r1 c1 r2 c2)
    (a : A1) (i j : Nat) (ha : a.Is i j) (hi : i ≤ r1) (hj : j ≤ c1) :
    (∃ l, R.doLasso arrayApi jsonLoads "#^^:__".toList { sheet := some g } = .ok (.lasso l) ∧
      l.st = some ⟨r1, c1⟩ ∧ l.nd = some ⟨r2, c2⟩ ∧ IsBlock g.val r1 c1 r2 c2 l.values) ∧
    (FullAt m ⟨r1, c1⟩ ∨ FullAt m ⟨(r1 + 1 : Nat), c1⟩ →
      ∃ l, R.doLasso arrayApi jsonLoads ('#' :: (a.text ++ "(DR):__:U1".toList)) { sheet := some g } = .ok (.lasso l) ∧
        l.st = some ⟨r1, c1⟩ ∧ l.nd = some ⟨r2, c2⟩ ∧ IsBlock g.val r1 c1 r2 c2 l.values) ∧
    (FullAt m ⟨r1, c1⟩ ∨ FullAt m ⟨r1, (c1 + 1 : Nat)⟩ →
      ∃ l, R.doLasso arrayApi jsonLoads ('#' :: (a.text ++ "(RD):__:L1".toList)) { sheet := some g } = .ok (.lasso l) ∧
        l.st = some ⟨r1, c1⟩ ∧ l.nd = some ⟨r2, c2⟩ ∧ IsBlock g.val r1 c1 r2 c2 l.values) := by
  obtain ⟨w1, w2⟩ := box_in h
  have hR := array_readable hfetch hm
  rw [box_margins h] at hR
  exact header_on hR jsonLoads h (Nat.le_refl _) (Nat.le_refl _) w1 w2 a i j ha hi hj

/-- C147. The same for the sheets of Excel files, where `__` is the last cell of the sheet, so that the empty cells
between the table and it are captured as well, in each of the ways. -/
theorem C147_header_and_index_excel (dateOf : Nat → Doc) (nan : Doc) (R : Ranger XlGrid) (jsonLoads : Str → Option Doc) (g : XlGrid) (r1 c1 r2 c2 : Nat)
    (hfetch : R.fetch none none (some g) = .ok g) (h : BoundingBox g.states r1 c1 r2 c2)
    (a : A1) (i j : Nat) (ha : a.Is i j) (hi : i ≤ r1) (hj : j ≤ c1) :
    (∃ l, R.doLasso (xlrdApi dateOf nan) jsonLoads "#^^:__".toList { sheet := some g } = .ok (.lasso l) ∧
      l.st = some ⟨r1, c1⟩ ∧ l.nd = some ⟨(g.rows - 1 : Nat), (g.cols - 1 : Nat)⟩ ∧
      IsBlock (fun i j => parseCell dateOf nan (g.cell i j)) r1 c1 (g.rows - 1) (g.cols - 1) l.values) ∧
    (FullAt g.states ⟨r1, c1⟩ ∨ FullAt g.states ⟨(r1 + 1 : Nat), c1⟩ →
      ∃ l, R.doLasso (xlrdApi dateOf nan) jsonLoads ('#' :: (a.text ++ "(DR):__:U1".toList)) { sheet := some g } = .ok (.lasso l) ∧
        l.st = some ⟨r1, c1⟩ ∧ l.nd = some ⟨(g.rows - 1 : Nat), (g.cols - 1 : Nat)⟩ ∧
        IsBlock (fun i j => parseCell dateOf nan (g.cell i j)) r1 c1 (g.rows - 1) (g.cols - 1) l.values) ∧
    (FullAt g.states ⟨r1, c1⟩ ∨ FullAt g.states ⟨r1, (c1 + 1 : Nat)⟩ →
      ∃ l, R.doLasso (xlrdApi dateOf nan) jsonLoads ('#' :: (a.text ++ "(RD):__:L1".toList)) { sheet := some g } = .ok (.lasso l) ∧
        l.st = some ⟨r1, c1⟩ ∧ l.nd = some ⟨(g.rows - 1 : Nat), (g.cols - 1 : Nat)⟩ ∧
        IsBlock (fun i j => parseCell dateOf nan (g.cell i j)) r1 c1 (g.rows - 1) (g.cols - 1) l.values) := by
  obtain ⟨w1, w2⟩ := box_in h
  have hR := excel_readable dateOf nan hfetch (let ⟨_, hj⟩ := h.2.1; ⟨_, hj⟩)
  have e : (⟨(g.rows : Int) - 1, (g.cols : Int) - 1⟩ : Coords) = ⟨(g.rows - 1 : Nat), (g.cols - 1 : Nat)⟩ := by
    simp only [XlGrid.states] at w1 w2
    simp only [Coords.mk.injEq]; omega
  rw [box_margins h, e] at hR
  simp only [XlGrid.states] at w1 w2
  exact header_on hR jsonLoads h (by omega) (by omega) (by simp only [XlGrid.states]; omega) (by simp only [XlGrid.states]; omega) a i j ha hi hj

private theorem run_len {m : Mat} {p : Coords} {d : Dir} {k n : Nat} (hr : RunEnds m p d k) (hf : ∀ x ≤ n, FullAt m (stepsFrom p d x))
    (he : ¬ FullAt m (stepsFrom p d (n + 1))) : k = n := by
  obtain ⟨a, b⟩ := hr
  rcases Nat.lt_trichotomy k n with hk | hk | hk
  · exact absurd (hf (k + 1) hk) b
  · exact hk
  · exact absurd (a (n + 1) hk) he

private theorem among_on {S : Type} {A : SheetApi S} {R : Ranger S} {s : S} {m : Mat} {up dn : Coords} {val : Nat → Nat → Doc}
    (hR : Readable A R s m up dn val) (jsonLoads : Str → Option Doc) {r1 c1 r2 c2 : Nat} (o1 : r1 ≤ r2) (o2 : c1 ≤ c2)
    (hcol : ∀ i : Nat, r1 ≤ i → i ≤ r2 → FullAt m ⟨i, c1⟩) (hbelow : ¬ FullAt m ⟨(r2 + 1 : Nat), c1⟩)
    (hrow : ∀ j : Nat, c1 ≤ j → j ≤ c2 → FullAt m ⟨r1, j⟩) (hafter : ¬ FullAt m ⟨r1, (c2 + 1 : Nat)⟩)
    (a : A1) (ha : a.Is r1 c1) (ref : Str) (href : ref = ":..(DR)".toList ∨ ref = ":..(RD)".toList) :
    ∃ l, R.doLasso A jsonLoads ('#' :: (a.text ++ ref)) { sheet := some s } = .ok (.lasso l) ∧
      l.st = some ⟨r1, c1⟩ ∧ l.nd = some ⟨r2, c2⟩ ∧ IsBlock val r1 c1 r2 c2 l.values := by
  have w1 := fullAt_iff.1 (hcol r2 o1 (Nat.le_refl _))
  have w2 := fullAt_iff.1 (hrow c2 o2 (Nat.le_refl _))
  simp only at w1 w2
  have hfull := hcol r1 (Nat.le_refl _) o1
  have hdn := hR.lower
  have hdot : CellText.Ok true (.a1 ".".toList ".".toList) :=
    ⟨.inr (.inr (.inr ⟨rfl, rfl⟩)), .inr (.inr (.inr ⟨rfl, rfl⟩))⟩
  have hl := cell_resolves ha up dn none
  have hdotr : resolveCell ⟨['.'], ['.']⟩ up dn (some ⟨r1, c1⟩) = .ok ⟨r1, c1⟩ := by
    simp [resolveCell, resolveCoord]
  have hD : ∀ k, RunEnds m ⟨r1, c1⟩ .D k → k = r2 - r1 := by
    intro k hk
    refine run_len hk ?_ ?_
    · intro x hx
      have e : stepsFrom ⟨r1, c1⟩ .D x = ⟨(r1 + x : Nat), c1⟩ := by simp [stepsFrom, unit]
      rw [e]; exact hcol _ (by omega) (by omega)
    · have e : stepsFrom ⟨r1, c1⟩ .D (r2 - r1 + 1) = ⟨(r2 + 1 : Nat), c1⟩ := by simp only [stepsFrom, unit, Coords.mk.injEq]; omega
      rw [e]; exact hbelow
  have hRt : ∀ k, RunEnds m ⟨r1, c1⟩ .R k → k = c2 - c1 := by
    intro k hk
    refine run_len hk ?_ ?_
    · intro x hx
      have e : stepsFrom ⟨r1, c1⟩ .R x = ⟨r1, (c1 + x : Nat)⟩ := by simp [stepsFrom, unit]
      rw [e]; exact hrow _ (by omega) (by omega)
    · have e : stepsFrom ⟨r1, c1⟩ .R (c2 - c1 + 1) = ⟨r1, (c2 + 1 : Nat)⟩ := by simp only [stepsFrom, unit, Coords.mk.injEq]; omega
      rw [e]; exact hafter
  have hnd : ∀ d1 d2 : Dir, (d1 = .D ∧ d2 = .R ∨ d1 = .R ∧ d2 = .D) →
      resolveNd m up dn ⟨⟨['.'], ['.']⟩, some [d1, d2], none⟩ ⟨r1, c1⟩ = .ok ⟨r2, c2⟩ := by
    intro d1 d2 hd
    have hp : Perp d1 d2 := by rcases hd with ⟨rfl, rfl⟩ | ⟨rfl, rfl⟩ <;> decide
    obtain ⟨-, h1, -, -⟩ := C37_second_edge m up dn ⟨r1, c1⟩ ⟨['.'], ['.']⟩ ⟨r1, c1⟩ hdotr
      (by simp) (by simp) hdn _ d1 (some d2) (.two _ _ hp) none
    rw [h1 hfull (.inr ⟨rfl, rfl⟩)]
    obtain ⟨k, l, hk, hl, e⟩ := C34_two_moves m dn ⟨r1, c1⟩ d1 d2 hp hdn hfull
    rw [e]
    rcases hd with ⟨rfl, rfl⟩ | ⟨rfl, rfl⟩
    · rw [hD _ hk, hRt _ hl]
      simp only [stepsFrom, unit, Except.ok.injEq, Coords.mk.injEq]; omega
    · rw [hRt _ hk, hD _ hl]
      simp only [stepsFrom, unit, Except.ok.injEq, Coords.mk.injEq]; omega
  have main : ∀ mv : Str, (mv = "DR".toList ∨ mv = "RD".toList) → ref = ":..(".toList ++ mv ++ ")".toList →
      ∃ l, R.doLasso A jsonLoads ('#' :: (a.text ++ ref)) { sheet := some s } = .ok (.lasso l) ∧
        l.st = some ⟨r1, c1⟩ ∧ l.nd = some ⟨r2, c2⟩ ∧ IsBlock val r1 c1 r2 c2 l.values := by
    intro mv hmv href
    let rt : RefText := ⟨[], none, some ⟨.a1 a.letters (natStr a.row), none⟩,
      some (some ⟨.a1 ".".toList ".".toList, some (mv, none)⟩, none), none⟩
    have htext : a.text ++ ref = rt.text := by
      rw [href]
      simp [rt, RefText.text, sheetText, optEdgeText, rangeText, expText, filtText, EdgeText.text, CellText.text, movText, A1.text]
    rw [htext]
    refine block_on hR jsonLoads o1 o2 (by omega) (by omega) rt [] ?_ rfl rfl
      (by rw [← htext, href]; simp) (by rw [← htext]; refine chars_ok ha _ ?_; rw [href]; rcases hmv with rfl | rfl <;> decide) rfl ?_
    · exact ⟨by simp [Spaces, rt], trivial, (by intro e he; cases he; exact ⟨(cell_ok ha false).1, trivial⟩),
        (by intro e ex he; cases he; exact ⟨hdot, by rcases hmv with rfl | rfl <;> decide, .inl rfl⟩),
        (by intro nd ex he; cases he; trivial), trivial, by simp [rt]⟩
    · have h1 : rt.first = ⟨⟨upper (natStr a.row), upper a.letters⟩, none, none⟩ := rfl
      have h2 : rt.second = some ⟨⟨['.'], ['.']⟩, some (dirsMeant mv), none⟩ := rfl
      have h3 : resolveNd m up dn ⟨⟨['.'], ['.']⟩, some (dirsMeant mv), none⟩ ⟨r1, c1⟩ = .ok ⟨r2, c2⟩ := by
        rcases hmv with rfl | rfl
        · exact hnd .D .R (.inl ⟨rfl, rfl⟩)
        · exact hnd .R .D (.inr ⟨rfl, rfl⟩)
      rw [h1, h2]
      simp only [resolveCaptureRect, resolveSt, hl, h3, sortRect, List.map_nil,
        ne_eq, not_true_eq_false, if_false, Except.ok.injEq, Prod.mk.injEq, Coords.mk.injEq, Option.some.injEq]
      omega
  rcases href with rfl | rfl
  · exact main "DR".toList (.inl rfl) rfl
  · exact main "RD".toList (.inr rfl) rfl

/-- C147. A table whose first row and first column have no gap is captured from its corner cell to the ends of
those two, whatever other tables the sheet holds. -/
theorem C147_among_others (R : Ranger Grid) (jsonLoads : Str → Option Doc) (g : Grid) (m : Mat) (r1 c1 r2 c2 : Nat)
    (hfetch : R.fetch none none (some g) = .ok g) (hm : g.states = .ok m) (o1 : r1 ≤ r2) (o2 : c1 ≤ c2)
    (hcol : ∀ i : Nat, r1 ≤ i → i ≤ r2 → FullAt m ⟨i, c1⟩) (hbelow : ¬ FullAt m ⟨(r2 + 1 : Nat), c1⟩)
    (hrow : ∀ j : Nat, c1 ≤ j → j ≤ c2 → FullAt m ⟨r1, j⟩) (hafter : ¬ FullAt m ⟨r1, (c2 + 1 : Nat)⟩)
    (a : A1) (ha : a.Is r1 c1) (ref : Str) (href : ref = ":..(DR)".toList ∨ ref = ":..(RD)".toList) :
    ∃ l, R.doLasso arrayApi jsonLoads ('#' :: (a.text ++ ref)) { sheet := some g } = .ok (.lasso l) ∧
      l.st = some ⟨r1, c1⟩ ∧ l.nd = some ⟨r2, c2⟩ ∧ IsBlock g.val r1 c1 r2 c2 l.values :=
  among_on (array_readable hfetch hm) jsonLoads o1 o2 hcol hbelow hrow hafter a ha ref href

/-- C147. The same for the sheets of Excel files. -/
theorem C147_among_others_excel (dateOf : Nat → Doc) (nan : Doc) (R : Ranger XlGrid) (jsonLoads : Str → Option Doc) (g : XlGrid) (r1 c1 r2 c2 : Nat)
    (hfetch : R.fetch none none (some g) = .ok g) (o1 : r1 ≤ r2) (o2 : c1 ≤ c2)
    (hcol : ∀ i : Nat, r1 ≤ i → i ≤ r2 → FullAt g.states ⟨i, c1⟩) (hbelow : ¬ FullAt g.states ⟨(r2 + 1 : Nat), c1⟩)
    (hrow : ∀ j : Nat, c1 ≤ j → j ≤ c2 → FullAt g.states ⟨r1, j⟩) (hafter : ¬ FullAt g.states ⟨r1, (c2 + 1 : Nat)⟩)
    (a : A1) (ha : a.Is r1 c1) (ref : Str) (href : ref = ":..(DR)".toList ∨ ref = ":..(RD)".toList) :
    ∃ l, R.doLasso (xlrdApi dateOf nan) jsonLoads ('#' :: (a.text ++ ref)) { sheet := some g } = .ok (.lasso l) ∧
      l.st = some ⟨r1, c1⟩ ∧ l.nd = some ⟨r2, c2⟩ ∧ IsBlock (fun i j => parseCell dateOf nan (g.cell i j)) r1 c1 r2 c2 l.values :=
  among_on (excel_readable dateOf nan hfetch ⟨_, hcol r1 (Nat.le_refl _) o1⟩) jsonLoads o1 o2 hcol hbelow hrow hafter a ha ref href

private def headed : Grid := ⟨6, 6, fun i j => if (1 ≤ i ∧ i ≤ 4) ∧ (2 ≤ j ∧ j ≤ 4) ∧ ¬ (i = 1 ∧ j = 2) then .int (10 * i + j) else .null⟩
private def other : Grid := ⟨8, 6, fun i j => if (1 ≤ i ∧ i ≤ 4) ∧ (2 ≤ j ∧ j ≤ 4) ∨ i = 6 then .int (10 * i + j) else .null⟩
private def headedRanger : Ranger Grid := ⟨fun _ _ s => match s with | some s => .ok s | none => .error .valueError, [], fun _ => none⟩

theorem full_in (g : Grid) {m : Mat} (hm : g.states = .ok m) (i j : Nat) :
    FullAt m ⟨i, j⟩ ↔ i < g.rows ∧ j < g.cols ∧ (match g.val i j with | .null => false | _ => true) = true := by
  obtain ⟨hne, -⟩ := sheet_dims hm
  rw [Grid.states, if_neg hne] at hm; cases hm
  rw [fullAt_iff]
  simp only [Int.toNat_natCast]
  constructor
  · rintro ⟨-, h1, -, h2, h3⟩; exact ⟨by omega, by omega, h3⟩
  · rintro ⟨h1, h2, h3⟩; exact ⟨by omega, by omega, by omega, by omega, h3⟩

/-- The table of the documentation: a header row and an index column, with an empty cell where they meet. -/
example : ∃ m, headed.states = .ok m ∧ BoundingBox m 1 2 4 4 ∧ ¬ FullAt m ⟨1, 2⟩ ∧ FullAt m ⟨2, 2⟩ ∧ FullAt m ⟨1, 3⟩ := by
  refine ⟨_, rfl, ⟨?_, ⟨3, (full_in headed rfl 1 3).2 (by decide)⟩, ⟨3, (full_in headed rfl 4 3).2 (by decide)⟩, ⟨3, (full_in headed rfl 3 2).2 (by decide)⟩,
    ⟨3, (full_in headed rfl 3 4).2 (by decide)⟩⟩, fun h => ?_, (full_in headed rfl 2 2).2 (by decide), (full_in headed rfl 1 3).2 (by decide)⟩
  · intro i j h
    obtain ⟨-, -, h3⟩ := (full_in headed rfl i j).1 h
    simp only [headed] at h3
    by_cases hc : (1 ≤ i ∧ i ≤ 4) ∧ (2 ≤ j ∧ j ≤ 4) ∧ ¬ (i = 1 ∧ j = 2)
    · omega
    · rw [if_neg hc] at h3; simp at h3
  · exact absurd ((full_in headed rfl 1 2).1 h) (by decide)

example : headedRanger.fetch none none (some headed) = .ok headed := rfl

/-- With a second table below, the corner-to-corner ways capture it too, while the runs from the corner cell of the
first end with it. -/
example : (match headedRanger.doLasso arrayApi (fun _ => none) "#A1(DR):__:U1".toList { sheet := some other } with
    | .ok (.lasso l) => l.nd == some ⟨6, 5⟩ | _ => false) = true ∧
    (match headedRanger.doLasso arrayApi (fun _ => none) "#C2:..(DR)".toList { sheet := some other } with
    | .ok (.lasso l) => l.nd == some ⟨4, 4⟩ | _ => false) = true := by decide +kernel

example : ∃ m, other.states = .ok m ∧ (∀ i : Nat, 1 ≤ i → i ≤ 4 → FullAt m ⟨i, 2⟩) ∧ ¬ FullAt m ⟨5, 2⟩ ∧
    (∀ j : Nat, 2 ≤ j → j ≤ 4 → FullAt m ⟨1, j⟩) ∧ ¬ FullAt m ⟨1, 5⟩ ∧ FullAt m ⟨6, 0⟩ := by
  refine ⟨_, rfl, ?_, fun h => absurd ((full_in other rfl 5 2).1 h) (by decide), ?_, fun h => absurd ((full_in other rfl 1 5).1 h) (by decide),
    (full_in other rfl 6 0).2 (by decide)⟩
  · intro i h1 h2
    refine (full_in other rfl i 2).2 ⟨by simp only [other]; omega, by decide, ?_⟩
    simp only [other]; rw [if_pos (by omega)]
  · intro j h1 h2
    refine (full_in other rfl 1 j).2 ⟨by decide, by simp only [other]; omega, ?_⟩
    simp only [other]; rw [if_pos (by omega)]

/-- A sheet of an Excel file with a header row and an index column, an empty cell where they meet, and an empty row and
column after the table. -/
private def headedXl : XlGrid := ⟨5, 5, fun i j =>
  if (1 ≤ i ∧ i ≤ 3) ∧ (1 ≤ j ∧ j ≤ 3) ∧ ¬ (i = 1 ∧ j = 1) then .intNum (10 * i + j) else .empty⟩

example : BoundingBox headedXl.states 1 1 3 3 ∧ ¬ FullAt headedXl.states ⟨1, 1⟩ ∧ FullAt headedXl.states ⟨2, 1⟩ ∧
    FullAt headedXl.states ⟨1, 2⟩ := by
  have key : ∀ i j : Nat, FullAt headedXl.states ⟨i, j⟩ ↔ (1 ≤ i ∧ i ≤ 3) ∧ (1 ≤ j ∧ j ≤ 3) ∧ ¬ (i = 1 ∧ j = 1) := by
    intro i j
    rw [fullAt_iff]
    simp only [Int.toNat_natCast, headedXl, XlGrid.states]
    by_cases h : (1 ≤ i ∧ i ≤ 3) ∧ (1 ≤ j ∧ j ≤ 3) ∧ ¬ (i = 1 ∧ j = 1)
    · rw [if_pos h]
      exact ⟨fun _ => h, fun _ => ⟨by omega, by omega, by omega, by omega, rfl⟩⟩
    · rw [if_neg h]
      exact ⟨fun ⟨_, _, _, _, hx⟩ => absurd hx (by decide), fun hx => absurd hx h⟩
  refine ⟨⟨?_, ⟨2, (key _ _).2 (by decide)⟩, ⟨2, (key _ _).2 (by decide)⟩, ⟨2, (key _ _).2 (by decide)⟩, ⟨2, (key _ _).2 (by decide)⟩⟩,
    fun h => absurd ((key 1 1).1 h) (by decide), (key 2 1).2 (by decide), (key 1 2).2 (by decide)⟩
  intro i j h
  have := (key i j).1 h
  omega

example : (["#^^:__".toList, "#A1(DR):__:U1".toList, "#A1(RD):__:L1".toList].all fun ref =>
    match (⟨fun _ _ s => match s with | some s => .ok s | none => .error .valueError, [], fun _ => none⟩ : Ranger XlGrid).doLasso
      (xlrdApi (fun _ => .null) .null) (fun _ => none) ref { sheet := some headedXl } with
    | .ok (.lasso l) => l.st == some ⟨1, 1⟩ && l.nd == some ⟨4, 4⟩ | _ => false) = true := by decide +kernel

end Props
