import Verif.Props.Shifted
import Verif.Props.PlainLasso
/-
C144, continued: the outcomes of lassos from arrays and from sheets of Excel files.
-/
namespace Props
open Py Model Spec

private theorem shifted_outcome {S : Type} (A : SheetApi S) (noEmpty lone : Bool) (a b : Nat) (s s' : S)
    (mk mk' : Option Coords → Option Coords → Doc → Lasso S)
    (hmk : ∀ st nd v, (mk st nd v).st = st ∧ (mk st nd v).nd = nd ∧ (mk st nd v).values = v)
    (hmk' : ∀ st nd v, (mk' st nd v).st = st ∧ (mk' st nd v).nd = nd ∧ (mk' st nd v).values = v)
    (rect : Except PyErr (Coords × Option Coords))
    (hread : ∀ st nd, rect = .ok (st, nd) → A.readRect s' (shift a b st) (nd.map (shift a b)) = A.readRect s st nd) :
    ShiftedLassos a b (plainOutcome A noEmpty lone s mk rect) (plainOutcome A noEmpty lone s' mk' (shiftOutcome a b rect)) := by
  unfold plainOutcome
  cases rect with
  | ok p =>
    obtain ⟨st, nd⟩ := p
    simp only [shiftOutcome, hread st nd rfl]
    cases A.readRect s st nd with
    | error e => exact .error e
    | ok v =>
      refine .values _ _ ?_ ?_ ?_
      · rw [(hmk _ _ _).2.2, (hmk' _ _ _).2.2]
      · rw [(hmk _ _ _).1, (hmk' _ _ _).1]; rfl
      · rw [(hmk _ _ _).2.1, (hmk' _ _ _).2.1]
  | error e =>
    cases e
    case emptyCapture =>
      cases noEmpty
      · refine .values _ _ ?_ ?_ ?_
        · rw [(hmk _ _ _).2.2, (hmk' _ _ _).2.2]
        · rw [(hmk _ _ _).1, (hmk' _ _ _).1]; rfl
        · rw [(hmk _ _ _).2.1, (hmk' _ _ _).2.1]; rfl
      · exact .error _
    all_goals exact .error _

private theorem shifted_lasso {S : Type} (R R' : Ranger S) (A : SheetApi S) (jsonLoads : Str → Option Doc) (u : Str) (r r' : RefText)
    (items : List ExpItem) (a b : Nat) (sheet0 sheet0' : Option S) (base : Option Coords) (s s' : S) (m m' : Mat) (up dn : Coords)
    (hopts : R'.baseOpts = R.baseOpts) (hu : '#' ∉ u)
    (hr : r.Ok ∧ r.filt = none ∧ r.text ≠ [] ∧ NoCurly (u ++ r.text) ∧ r.Expands items)
    (hr' : r'.Ok ∧ r'.filt = none ∧ r'.text ≠ [] ∧ NoCurly (u ++ r'.text) ∧ r'.Expands items)
    (hg : R.fetch (if u = [] then none else some u) r.sheetName sheet0 = .ok s)
    (hg' : R'.fetch (if u = [] then none else some u) r'.sheetName sheet0' = .ok s')
    (hs : A.states s = .ok m) (hs' : A.states s' = .ok m') (hsh : Shifted a b m m') (hm : A.margins s = .ok (up, dn))
    (hm' : A.margins s' = .ok (shift a b up, shift a b dn)) (hd : MarginOf m dn) (hd' : MarginOf m' (shift a b dn))
    (hup : 0 ≤ up.row ∧ 0 ≤ up.col) (hb : ∀ c, base = some c → 0 ≤ c.row ∧ 0 ≤ c.col)
    (h1 : ShiftedEdge a b dn r.first r'.first) (h2 : ShiftedSecond a b dn r.second r'.second)
    (hread : ∀ (st : Coords) (nd : Option Coords), (0 ≤ st.row ∧ 0 ≤ st.col) → (∀ c, nd = some c → 0 ≤ c.row ∧ 0 ≤ c.col) →
      A.readRect s' (shift a b st) (nd.map (shift a b)) = A.readRect s st nd) :
    ShiftedLassos a b (R.doLasso A jsonLoads (u ++ '#' :: r.text) { sheet := sheet0, baseCoords := base })
      (R'.doLasso A jsonLoads (u ++ '#' :: r'.text) { sheet := sheet0', baseCoords := base.map (shift a b) }) := by
  obtain ⟨p1, p2, p3, p4, p5⟩ := hr
  obtain ⟨q1, q2, q3, q4, q5⟩ := hr'
  obtain ⟨mk, hmk, e1⟩ := doLasso_plain R A jsonLoads u r items sheet0 base s hu p4 p1 p2 p3 p5 hg
  obtain ⟨mk', hmk', e2⟩ := doLasso_plain R' A jsonLoads u r' items sheet0' (base.map (shift a b)) s' hu q4 q1 q2 q3 q5 hg'
  have hlone : r'.second.isNone = r.second.isNone := by
    have key : ∀ x y, ShiftedSecond a b dn x y → y.isNone = x.isNone := by intro x y h; cases h <;> rfl
    exact key _ _ h2
  have e3 : rectOn A s r.first r.second (items.map ExpItem.meaning) base =
      resolveCaptureRect m up dn r.first r.second (items.map ExpItem.meaning) base := by
    unfold rectOn; rw [hs, hm]
  have e4 : rectOn A s' r'.first r'.second (items.map ExpItem.meaning) (base.map (shift a b)) =
      shiftOutcome a b (resolveCaptureRect m up dn r.first r.second (items.map ExpItem.meaning) base) := by
    unfold rectOn; rw [hs', hm']
    exact C144_shifted_partial a b m m' hsh up dn hd hd' hup _ _ _ _ h1 h2 _ base hb
  rw [e1, e2, hlone, e3, e4, hopts]
  refine shifted_outcome A _ _ a b s s' mk mk' hmk hmk' _ ?_
  intro st nd hres
  have hnn := rect_nonneg hsh hd hd' hup h1 h2 hb hres
  exact hread st nd hnn.1 hnn.2

/-- C144. Lassoing from an array after empty rows and columns were inserted before all that it has, relatively to a
base cell moved likewise if any: the reference, with its numbers increased likewise, gives the same values, from the
moved rectangle, or fails with the same error, up to the same references as for `C144_shifted_partial`. -/
theorem C144_lasso_partial (R R' : Ranger Grid) (jsonLoads : Str → Option Doc) (u : Str) (r r' : RefText)
    (items : List ExpItem) (a b : Nat) (sheet0 sheet0' : Option Grid) (base : Option Coords) (g g' : Grid)
    (hp : PaddedGrid a b g g') (m : Mat) (hs : g.states = .ok m) (hfull : ∃ p, FullAt m p)
    (hopts : R'.baseOpts = R.baseOpts) (hu : '#' ∉ u)
    (hr : r.Ok ∧ r.filt = none ∧ r.text ≠ [] ∧ NoCurly (u ++ r.text) ∧ r.Expands items)
    (hr' : r'.Ok ∧ r'.filt = none ∧ r'.text ≠ [] ∧ NoCurly (u ++ r'.text) ∧ r'.Expands items)
    (hg : R.fetch (if u = [] then none else some u) r.sheetName sheet0 = .ok g)
    (hg' : R'.fetch (if u = [] then none else some u) r'.sheetName sheet0' = .ok g')
    (hb : ∀ c, base = some c → 0 ≤ c.row ∧ 0 ≤ c.col)
    (h1 : ShiftedEdge a b (marginCoords m).2 r.first r'.first)
    (h2 : ShiftedSecond a b (marginCoords m).2 r.second r'.second) :
    ShiftedLassos a b (R.doLasso arrayApi jsonLoads (u ++ '#' :: r.text) { sheet := sheet0, baseCoords := base })
      (R'.doLasso arrayApi jsonLoads (u ++ '#' :: r'.text) { sheet := sheet0', baseCoords := base.map (shift a b) }) := by
  have hne : g.rows ≠ 0 ∧ g.cols ≠ 0 := by
    unfold Grid.states at hs
    split at hs
    · cases hs
    · omega
  obtain ⟨m', hs'⟩ : ∃ m', g'.states = .ok m' := by
    unfold Grid.states
    rw [if_neg (by have := hp.rows; have := hp.cols; omega)]
    exact ⟨_, rfl⟩
  have hsh := C144_padded a b g g' hp m m' hs hs'
  have hmg := C144_margins a b m m' hsh hfull
  have mg : arrayApi.margins g = .ok ((marginCoords m).1, (marginCoords m).2) := by
    simp only [arrayApi, hs]; rfl
  have mg' : arrayApi.margins g' = .ok (shift a b (marginCoords m).1, shift a b (marginCoords m).2) := by
    simp only [arrayApi, hs', getMargins, Option.getD_none, hmg]
  have hfull' : ∃ p, FullAt m' p := by
    obtain ⟨p, hp⟩ := hfull; exact ⟨_, (hsh p).2 hp⟩
  have hm' := margin_of_full hfull'
  rw [hmg] at hm'
  exact shifted_lasso R R' arrayApi jsonLoads u r r' items a b sheet0 sheet0' base g g' m m' _ _ hopts hu hr hr' hg hg' hs hs' hsh
    mg mg' (margin_of_full hfull) hm' (up_nonneg hfull) hb h1 h2 (fun st nd x y => C144_values a b g g' hp hne st nd x y)

private theorem xl_full (c : XlCell) (h : c = .empty ∨ c = .blank) : c.full = false := by rcases h with rfl | rfl <;> rfl

private theorem excel_shifted {a b : Nat} {g g' : XlGrid} (hp : PaddedExcel a b g g') : Shifted a b g.states g'.states := by
  intro p
  constructor
  · rintro ⟨i, j, e, hi, hj, hc⟩
    simp only [shift, Coords.mk.injEq] at e
    simp only [XlGrid.states] at hi hj hc
    have hia : a ≤ i := by
      by_cases h : a ≤ i
      · exact h
      · rw [xl_full _ (hp.above i j (by omega))] at hc; cases hc
    have hjb : b ≤ j := by
      by_cases h : b ≤ j
      · exact h
      · rw [xl_full _ (hp.before i j (by omega))] at hc; cases hc
    have hv := hp.same (i - a) (j - b)
    rw [show i - a + a = i by omega, show j - b + b = j by omega] at hv
    have h1 := hp.rows
    have h2 := hp.cols
    refine ⟨i - a, j - b, ?_, by simp only [XlGrid.states]; omega, by simp only [XlGrid.states]; omega, ?_⟩
    · cases p; simp only [Coords.mk.injEq] at e ⊢; omega
    · simp only [XlGrid.states]; rw [← hv]; exact hc
  · rintro ⟨i, j, rfl, hi, hj, hc⟩
    simp only [XlGrid.states] at hi hj hc
    have h1 := hp.rows
    have h2 := hp.cols
    refine ⟨i + a, j + b, ?_, by simp only [XlGrid.states]; omega, by simp only [XlGrid.states]; omega, ?_⟩
    · simp only [shift, Coords.mk.injEq]; omega
    · simp only [XlGrid.states]; rw [hp.same i j]; exact hc

private theorem elem_shift {a b : Nat} {g g' : XlGrid} (hp : PaddedExcel a b g g') (dateOf : Nat → Doc) (nan : Doc) (r c : Int)
    (hr : 0 ≤ r) (hc : 0 ≤ c) : g'.elem dateOf nan (r + a) (c + b) = g.elem dateOf nan r c := by
  unfold XlGrid.elem
  rw [hp.rows, hp.cols, index_shift _ _ _ hr, index_shift _ _ _ hc]
  cases seqIndex g.rows r with
  | none => rfl
  | some i =>
    cases seqIndex g.cols c with
    | none => rfl
    | some j => simp only [Option.map_some, XlGrid.states, hp.same]; rfl

private theorem range_map_shift {β : Type} (x y : Int) (a : Nat) (f f' : Int → β) (hx : 0 ≤ x) (h : ∀ z, 0 ≤ z → f' (z + a) = f z) :
    (pyRange (x + a) (y + a)).map f' = (pyRange x y).map f := by
  unfold pyRange
  rw [show (y + a - (x + a)) = y - x by omega, List.map_map, List.map_map]
  apply List.map_congr_left
  intro k _
  simp only [Function.comp]
  rw [← h (x + (k : Nat)) (by omega)]
  congr 1
  omega

/-- C144. The values of a rectangle of a sheet of an Excel file are those of the moved rectangle. -/
theorem C144_excel_values (a b : Nat) (g g' : XlGrid) (hp : PaddedExcel a b g g') (dateOf : Nat → Doc) (nan : Doc) (st : Coords)
    (nd : Option Coords) (h1 : 0 ≤ st.row ∧ 0 ≤ st.col) :
    g'.readRect dateOf nan (shift a b st) (nd.map (shift a b)) = g.readRect dateOf nan st nd := by
  unfold XlGrid.readRect
  cases nd with
  | none =>
    simp only [Option.map_none, shift, hp.rows, hp.cols, index_shift _ _ _ h1.1, index_shift _ _ _ h1.2]
    cases seqIndex g.rows st.row with
    | none => rfl
    | some i =>
      cases seqIndex g.cols st.col with
      | none => rfl
      | some j => simp only [Option.map_some, hp.same]
  | some q =>
    simp only [Option.map_some, shift, show q.row + (a : Int) + 1 = q.row + 1 + a by omega,
      show q.col + (b : Int) + 1 = q.col + 1 + b by omega, Except.ok.injEq, Captured.table.injEq]
    exact range_map_shift _ _ a _ _ h1.1 (fun z hz => range_map_shift _ _ b _ _ h1.2 (fun w hw => elem_shift hp dateOf nan z w hz hw))

private theorem xl_margin (g : XlGrid) {i j : Nat} (hi : i < g.rows) (hj : j < g.cols) :
    MarginOf g.states ⟨(g.rows : Int) - 1, (g.cols : Int) - 1⟩ := by
  refine ⟨?_, ?_, ?_, ?_, ?_⟩
  · simp only; omega
  · simp only [XlGrid.states]; omega
  · simp only; omega
  · simp only [XlGrid.states]; omega
  · rintro p ⟨k, l, rfl, hk, hl, _⟩
    simp only [XlGrid.states] at hk hl
    simp only
    omega

/-- C144. The same for the sheets of Excel files, which count all cells up to the last one of the sheet, empty or not. -/
theorem C144_excel_lasso_partial (dateOf : Nat → Doc) (nan : Doc) (R R' : Ranger XlGrid) (jsonLoads : Str → Option Doc) (u : Str)
    (r r' : RefText) (items : List ExpItem) (a b : Nat) (sheet0 sheet0' : Option XlGrid) (base : Option Coords) (g g' : XlGrid)
    (hp : PaddedExcel a b g g') (hfull : ∃ i j, i < g.rows ∧ j < g.cols ∧ g.cell i j ≠ .empty ∧ g.cell i j ≠ .blank)
    (hopts : R'.baseOpts = R.baseOpts) (hu : '#' ∉ u)
    (hr : r.Ok ∧ r.filt = none ∧ r.text ≠ [] ∧ NoCurly (u ++ r.text) ∧ r.Expands items)
    (hr' : r'.Ok ∧ r'.filt = none ∧ r'.text ≠ [] ∧ NoCurly (u ++ r'.text) ∧ r'.Expands items)
    (hg : R.fetch (if u = [] then none else some u) r.sheetName sheet0 = .ok g)
    (hg' : R'.fetch (if u = [] then none else some u) r'.sheetName sheet0' = .ok g')
    (hb : ∀ c, base = some c → 0 ≤ c.row ∧ 0 ≤ c.col)
    (h1 : ShiftedEdge a b ⟨(g.rows : Int) - 1, (g.cols : Int) - 1⟩ r.first r'.first)
    (h2 : ShiftedSecond a b ⟨(g.rows : Int) - 1, (g.cols : Int) - 1⟩ r.second r'.second) :
    ShiftedLassos a b (R.doLasso (xlrdApi dateOf nan) jsonLoads (u ++ '#' :: r.text) { sheet := sheet0, baseCoords := base })
      (R'.doLasso (xlrdApi dateOf nan) jsonLoads (u ++ '#' :: r'.text)
        { sheet := sheet0', baseCoords := base.map (shift a b) }) := by
  have hsh := excel_shifted hp
  obtain ⟨i, j, hi, hj, c1, c2⟩ := hfull
  have hfull : ∃ p, FullAt g.states p := by
    refine ⟨⟨i, j⟩, i, j, rfl, hi, hj, ?_⟩
    simp only [XlGrid.states]
    cases hc : g.cell i j <;> first | rfl | exact absurd hc c1 | exact absurd hc c2
  have hmg := C144_margins a b _ _ hsh hfull
  have e1 := hp.rows
  have e2 := hp.cols
  have mg : (xlrdApi dateOf nan).margins g = .ok ((marginCoords g.states).1, ⟨(g.rows : Int) - 1, (g.cols : Int) - 1⟩) := by
    simp only [xlrdApi, XlGrid.dnMargin]
    rw [if_neg (by omega)]; rfl
  have edn : (⟨(g'.rows : Int) - 1, (g'.cols : Int) - 1⟩ : Coords) = shift a b ⟨(g.rows : Int) - 1, (g.cols : Int) - 1⟩ := by
    simp only [shift, Coords.mk.injEq]; omega
  have mg' : (xlrdApi dateOf nan).margins g' =
      .ok (shift a b (marginCoords g.states).1, shift a b ⟨(g.rows : Int) - 1, (g.cols : Int) - 1⟩) := by
    simp only [xlrdApi, XlGrid.dnMargin]
    rw [if_neg (by omega)]
    simp only [getMargins, Option.getD_none, Option.getD_some, hmg, edn]
  have hd : MarginOf g.states ⟨(g.rows : Int) - 1, (g.cols : Int) - 1⟩ := xl_margin g hi hj
  have hd' : MarginOf g'.states (shift a b ⟨(g.rows : Int) - 1, (g.cols : Int) - 1⟩) := by
    rw [← edn]
    exact xl_margin g' (show i < g'.rows by omega) (show j < g'.cols by omega)
  exact shifted_lasso R R' (xlrdApi dateOf nan) jsonLoads u r r' items a b sheet0 sheet0' base g g' _ _ _ _ hopts hu hr hr' hg hg' rfl rfl
    hsh mg mg' hd hd' (up_nonneg hfull) hb h1 h2 (fun st nd x _ => C144_excel_values a b g g' hp dateOf nan st nd x)

/-- The edges `A1(RD)` and `B3(RD)`. -/
private theorem edges_fit (dn : Coords) (h : 0 ≤ dn.row ∧ 0 ≤ dn.col) : ShiftedEdge 2 1 dn ⟨⟨"1".toList, "A".toList⟩, some [.R, .D], none⟩ ⟨⟨"3".toList, "B".toList⟩, some [.R, .D], none⟩ where
  row := .number _ _ 1 (by decide) (by unfold RowNumber; decide +kernel) (by unfold RowNumber; decide +kernel)
  col := .number _ _ 1 (by decide) (.inr ⟨by decide, by decide, by decide +kernel⟩) (.inr ⟨by decide, by decide, by decide +kernel⟩)
  mov := rfl
  mod := rfl
  moves ms h := by cases h; exact ⟨_, _, .two _ _ (by decide)⟩
  rowIn n h := by
    have h' : (some (1 : Int)) = some n := h
    cases h'; omega
  colIn n h := by
    have h' : (none : Option Int) = some n := h
    cases h'

/-- An array with one value, and the same after two rows and one column. -/
private def one : Grid := ⟨3, 3, fun i j => if (i, j) = (1, 2) then .int 5 else .null⟩
private def oneMoved : Grid := ⟨5, 4, fun i j => if (i, j) = (3, 3) then .int 5 else .null⟩

private theorem one_padded : PaddedGrid 2 1 one oneMoved where
  rows := rfl
  cols := rfl
  same i j := by simp only [one, oneMoved, Prod.mk.injEq]; congr 1; simp only [eq_iff_iff]; omega
  above i j h := by simp only [oneMoved, Prod.mk.injEq]; rw [if_neg (by omega)]
  before i j h := by simp only [oneMoved, Prod.mk.injEq]; rw [if_neg (by omega)]

/-- The references `A1(RD)` and `B3(RD)`. -/
private def refA1 : RefText := ⟨[], none, some ⟨.a1 "A".toList "1".toList, some ("RD".toList, none)⟩, none, none⟩
private def refB3 : RefText := ⟨[], none, some ⟨.a1 "B".toList "3".toList, some ("RD".toList, none)⟩, none, none⟩

private theorem refA1_ok : refA1.Ok := by
  refine ⟨by simp [Spaces, refA1], trivial, ?_, by simp [refA1], by simp [refA1], trivial, by simp [refA1]⟩
  intro e he; cases he
  exact ⟨⟨.inl ⟨by decide, by decide⟩, .inl ⟨'1', [], rfl, by decide, by decide, by simp⟩⟩, by decide, .inl rfl⟩

private theorem refB3_ok : refB3.Ok := by
  refine ⟨by simp [Spaces, refB3], trivial, ?_, by simp [refB3], by simp [refB3], trivial, by simp [refB3]⟩
  intro e he; cases he
  exact ⟨⟨.inl ⟨by decide, by decide⟩, .inl ⟨'3', [], rfl, by decide, by decide, by simp⟩⟩, by decide, .inl rfl⟩

/-- Both lassos, from the two arrays. -/
example (jsonLoads : Str → Option Doc) : ShiftedLassos 2 1
    (Ranger.doLasso ⟨fun _ _ _ => .ok one, [], fun _ => none⟩ arrayApi jsonLoads "#A1(RD)".toList {})
    (Ranger.doLasso ⟨fun _ _ _ => .ok oneMoved, [], fun _ => none⟩ arrayApi jsonLoads "#B3(RD)".toList {}) :=
  C144_lasso_partial ⟨fun _ _ _ => .ok one, [], fun _ => none⟩ ⟨fun _ _ _ => .ok oneMoved, [], fun _ => none⟩ jsonLoads []
    refA1 refB3 [] 2 1 none none none one oneMoved one_padded _ rfl ⟨⟨1, 2⟩, 1, 2, rfl, by decide, by decide, rfl⟩ rfl (by decide)
    ⟨refA1_ok, rfl, by decide, by unfold NoCurly; decide, rfl⟩ ⟨refB3_ok, rfl, by decide, by unfold NoCurly; decide, rfl⟩
    rfl rfl (fun c hc => by cases hc) (edges_fit _ (by decide)) .none

/-- They give the value, from `C2` and from `D4`. -/
example : resolveCaptureRect ⟨3, 3, fun i j => decide ((i, j) = (1, 2))⟩ ⟨1, 2⟩ ⟨1, 2⟩ refA1.first refA1.second [] none = .ok (⟨1, 2⟩, none) ∧
    resolveCaptureRect ⟨5, 4, fun i j => decide ((i, j) = (3, 3))⟩ ⟨3, 3⟩ ⟨3, 3⟩ refB3.first refB3.second [] none = .ok (⟨3, 3⟩, none) ∧
    one.readRect ⟨1, 2⟩ none = .ok (.scalar (.int 5)) ∧ oneMoved.readRect ⟨3, 3⟩ none = .ok (.scalar (.int 5)) := ⟨rfl, rfl, rfl, rfl⟩

/-- The sheets of an Excel file with the same cell. -/
private def oneXl : XlGrid := ⟨3, 3, fun i j => if (i, j) = (1, 2) then .intNum 5 else .blank⟩
private def oneXlMoved : XlGrid := ⟨5, 4, fun i j => if (i, j) = (3, 3) then .intNum 5 else .blank⟩

private theorem oneXl_padded : PaddedExcel 2 1 oneXl oneXlMoved where
  rows := rfl
  cols := rfl
  same i j := by simp only [oneXl, oneXlMoved, Prod.mk.injEq]; congr 1; simp only [eq_iff_iff]; omega
  above i j h := by simp only [oneXlMoved, Prod.mk.injEq]; rw [if_neg (by omega)]; exact .inr rfl
  before i j h := by simp only [oneXlMoved, Prod.mk.injEq]; rw [if_neg (by omega)]; exact .inr rfl

/-- Both lassos, from the two sheets. -/
example (dateOf : Nat → Doc) (nan : Doc) (jsonLoads : Str → Option Doc) : ShiftedLassos 2 1
    (Ranger.doLasso ⟨fun _ _ _ => .ok oneXl, [], fun _ => none⟩ (xlrdApi dateOf nan) jsonLoads "#A1(RD)".toList {})
    (Ranger.doLasso ⟨fun _ _ _ => .ok oneXlMoved, [], fun _ => none⟩ (xlrdApi dateOf nan) jsonLoads "#B3(RD)".toList {}) :=
  C144_excel_lasso_partial dateOf nan ⟨fun _ _ _ => .ok oneXl, [], fun _ => none⟩ ⟨fun _ _ _ => .ok oneXlMoved, [], fun _ => none⟩
    jsonLoads [] refA1 refB3 [] 2 1 none none none oneXl oneXlMoved oneXl_padded ⟨1, 2, by decide, by decide, (fun h => nomatch (show XlCell.intNum 5 = .empty from h)), (fun h => nomatch (show XlCell.intNum 5 = .blank from h))⟩ rfl (by decide)
    ⟨refA1_ok, rfl, by decide, by unfold NoCurly; decide, rfl⟩ ⟨refB3_ok, rfl, by decide, by unfold NoCurly; decide, rfl⟩
    rfl rfl (fun c hc => by cases hc) (edges_fit _ (by decide)) .none

end Props
