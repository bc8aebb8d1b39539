import Verif.Model.Sheet
import Verif.Lemmas.Capture
/-
C38, C39: margins and reading.
-/
set_option linter.unusedSimpArgs false
namespace Props
open Py Model Spec

private theorem mem_full (m : Mat) (i j : Nat) : (i, j) ∈ m.full ↔ FullAt m ⟨i, j⟩ := by
  simp only [Mat.full, List.mem_flatMap, List.mem_filterMap, List.mem_range]
  constructor
  · rintro ⟨a, ha, b, hb, h⟩
    split at h
    · simp at h; obtain ⟨rfl, rfl⟩ := h
      exact ⟨a, b, rfl, ha, hb, by assumption⟩
    · simp at h
  · rintro ⟨a, b, he, ha, hb, h⟩
    simp at he
    have h1 : i = a := by omega
    have h2 : j = b := by omega
    subst h1; subst h2
    exact ⟨i, ha, j, hb, by simp [h]⟩

private theorem fold_min : ∀ (ps : List (Nat × Nat)) (p : Nat × Nat),
    let lo := ps.foldl (fun a q => (min a.1 q.1, min a.2 q.2)) p
    (∀ q ∈ p :: ps, lo.1 ≤ q.1 ∧ lo.2 ≤ q.2) ∧ (∃ q ∈ p :: ps, lo.1 = q.1) ∧ (∃ q ∈ p :: ps, lo.2 = q.2)
  | [], p => by simp
  | q :: ps, p => by
    have ih := fold_min ps (min p.1 q.1, min p.2 q.2)
    simp only [List.foldl_cons] at ih ⊢
    obtain ⟨h1, ⟨a, ha, ea⟩, ⟨b, hb, eb⟩⟩ := ih
    have h0 := h1 _ (List.mem_cons_self)
    simp only at h0
    refine ⟨?_, ?_, ?_⟩
    · intro x hx
      simp only [List.mem_cons] at hx
      rcases hx with rfl | rfl | hx
      · omega
      · omega
      · exact h1 x (by simp [hx])
    · simp only [List.mem_cons] at ha
      rcases ha with rfl | ha
      · simp only at ea
        by_cases hle : p.1 ≤ q.1
        · exact ⟨p, by simp, by rw [ea]; omega⟩
        · exact ⟨q, by simp, by rw [ea]; omega⟩
      · exact ⟨a, by simp [ha], ea⟩
    · simp only [List.mem_cons] at hb
      rcases hb with rfl | hb
      · simp only at eb
        by_cases hle : p.2 ≤ q.2
        · exact ⟨p, by simp, by rw [eb]; omega⟩
        · exact ⟨q, by simp, by rw [eb]; omega⟩
      · exact ⟨b, by simp [hb], eb⟩

private theorem fold_max : ∀ (ps : List (Nat × Nat)) (p : Nat × Nat),
    let hi := ps.foldl (fun a q => (max a.1 q.1, max a.2 q.2)) p
    (∀ q ∈ p :: ps, q.1 ≤ hi.1 ∧ q.2 ≤ hi.2) ∧ (∃ q ∈ p :: ps, hi.1 = q.1) ∧ (∃ q ∈ p :: ps, hi.2 = q.2)
  | [], p => by simp
  | q :: ps, p => by
    have ih := fold_max ps (max p.1 q.1, max p.2 q.2)
    simp only [List.foldl_cons] at ih ⊢
    obtain ⟨h1, ⟨a, ha, ea⟩, ⟨b, hb, eb⟩⟩ := ih
    have h0 := h1 _ (List.mem_cons_self)
    simp only at h0
    refine ⟨?_, ?_, ?_⟩
    · intro x hx
      simp only [List.mem_cons] at hx
      rcases hx with rfl | rfl | hx
      · omega
      · omega
      · exact h1 x (by simp [hx])
    · simp only [List.mem_cons] at ha
      rcases ha with rfl | ha
      · simp only at ea
        by_cases hle : p.1 ≤ q.1
        · exact ⟨q, by simp, by rw [ea]; omega⟩
        · exact ⟨p, by simp, by rw [ea]; omega⟩
      · exact ⟨a, by simp [ha], ea⟩
    · simp only [List.mem_cons] at hb
      rcases hb with rfl | hb
      · simp only at eb
        by_cases hle : p.2 ≤ q.2
        · exact ⟨q, by simp, by rw [eb]; omega⟩
        · exact ⟨p, by simp, by rw [eb]; omega⟩
      · exact ⟨b, by simp [hb], eb⟩

/-- C38. The margins bound every full cell. -/
theorem C38_margins_bound (m : Mat) (p : Coords) (h : FullAt m p) :
    (marginCoords m).1.row ≤ p.row ∧ (marginCoords m).1.col ≤ p.col ∧
    p.row ≤ (marginCoords m).2.row ∧ p.col ≤ (marginCoords m).2.col := by
  have h' := h
  obtain ⟨i, j, rfl, hi, hj, hc⟩ := h
  have hm := (mem_full m i j).2 h'
  unfold marginCoords
  cases hf : m.full with
  | nil => rw [hf] at hm; simp at hm
  | cons q qs =>
    rw [hf] at hm
    have h1 := (fold_min qs q).1 _ hm
    have h2 := (fold_max qs q).1 _ hm
    simp only at h1 h2 ⊢
    omega

/-- C38. Each of the four bounds is attained by a full cell, if there is any. -/
theorem C38_margins_attained (m : Mat) (h : ∃ p, FullAt m p) :
    (∃ p, FullAt m p ∧ p.row = (marginCoords m).1.row) ∧ (∃ p, FullAt m p ∧ p.col = (marginCoords m).1.col) ∧
    (∃ p, FullAt m p ∧ p.row = (marginCoords m).2.row) ∧ (∃ p, FullAt m p ∧ p.col = (marginCoords m).2.col) := by
  obtain ⟨p, hp⟩ := h
  have hp' := hp
  obtain ⟨i, j, rfl, hi, hj, hc⟩ := hp
  have hm := (mem_full m i j).2 hp'
  unfold marginCoords
  cases hf : m.full with
  | nil => rw [hf] at hm; simp at hm
  | cons q qs =>
    have hmem : ∀ x ∈ q :: qs, FullAt m ⟨x.1, x.2⟩ := by
      intro x hx
      rw [← hf] at hx
      exact (mem_full m x.1 x.2).1 hx
    obtain ⟨_, ⟨a, ha, ea⟩, ⟨b, hb, eb⟩⟩ := fold_min qs q
    obtain ⟨_, ⟨c, hc, ec⟩, ⟨d, hd, ed⟩⟩ := fold_max qs q
    refine ⟨⟨_, hmem a ha, ?_⟩, ⟨_, hmem b hb, ?_⟩, ⟨_, hmem c hc, ?_⟩, ⟨_, hmem d hd, ?_⟩⟩ <;> simp only <;> omega

/-- C38. A sheet without full cells has its margins at the origin. -/
theorem C38_all_empty (m : Mat) (h : ∀ p, ¬ FullAt m p) : marginCoords m = (⟨0, 0⟩, ⟨0, 0⟩) := by
  unfold marginCoords
  cases hf : m.full with
  | nil => rfl
  | cons q qs =>
    have : (q.1, q.2) ∈ m.full := by rw [hf]; simp
    exact absurd ((mem_full m q.1 q.2).1 this) (h _)

/-- C38. The computed lower margin is one that targeting can rely on, for any non-degenerate matrix. -/
theorem C38_lower_margin_ok (m : Mat) (hr : 0 < m.rows) (hc : 0 < m.cols) : MarginOf m (marginCoords m).2 := by
  by_cases h : ∃ p, FullAt m p
  · obtain ⟨_, _, ⟨p, hp, ep⟩, ⟨q, hq, eq⟩⟩ := C38_margins_attained m h
    have h1 := fullAt_iff.1 hp
    have h2 := fullAt_iff.1 hq
    refine ⟨by omega, by omega, by omega, by omega, ?_⟩
    intro x hx
    have := C38_margins_bound m x hx
    omega
  · have he := C38_all_empty m (fun p hp => h ⟨p, hp⟩)
    rw [he]
    refine ⟨by simp, by simp; omega, by simp, by simp; omega, ?_⟩
    intro p hp; exact absurd ⟨p, hp⟩ h

private def docSheet : Mat := ⟨4, 3, fun i j =>
  ([[false, false, false], [false, true, false], [false, true, true], [false, false, true]].getD i []).getD j false⟩
example : marginCoords docSheet = (⟨1, 1⟩, ⟨3, 2⟩) := by decide
example : FullAt docSheet ⟨1, 1⟩ := ⟨1, 1, rfl, by decide, by decide, rfl⟩

/-- C38. So is the lower margin reported for *xlrd* sheets, where the upper one is computed. -/
theorem C38_xlrd_margins (g : XlGrid) (dn : Coords) (h : g.dnMargin = .ok dn) :
    MarginOf g.states (getMargins (none, some dn) g.states).2 ∧
    (getMargins (none, some dn) g.states).1 = (marginCoords g.states).1 := by
  unfold XlGrid.dnMargin at h
  split at h
  · simp at h
  · simp at h; subst h
    refine ⟨?_, rfl⟩
    simp only [getMargins, Option.getD_some]
    refine ⟨by simp only; omega, by simp [XlGrid.states]; omega, by simp only; omega, by simp [XlGrid.states]; omega, ?_⟩
    intro p hp
    have := fullAt_iff.1 hp
    simp [XlGrid.states] at this
    simp only
    omega

private theorem sliceIdx_eq (n a b : Nat) (hab : a ≤ b + 1) (hb : b < n) :
    sliceIdx n (a : Int) ((b : Int) + 1) = (List.range (b + 1 - a)).map (fun k => a + k) := by
  unfold sliceIdx
  have e1 : sliceBound n (a : Int) = a := by rw [sliceBound_nonneg (by omega)]; omega
  have e2 : sliceBound n ((b : Int) + 1) = b + 1 := by rw [sliceBound_nonneg (by omega)]; omega
  rw [e1, e2]
  have hn : n = a + (b + 1 - a) + (n - (b + 1)) := by omega
  rw [hn, List.range_add, List.range_add, List.filter_append, List.filter_append]
  have f1 : (List.range a).filter (fun i => decide (a ≤ i ∧ i < b + 1)) = [] := by
    rw [List.filter_eq_nil_iff]; intro x hx; simp at hx ⊢; omega
  have f2 : ((List.range (b + 1 - a)).map (fun x => a + x)).filter (fun i => decide (a ≤ i ∧ i < b + 1)) =
      (List.range (b + 1 - a)).map (fun x => a + x) := by
    rw [List.filter_eq_self]; intro x hx; simp at hx ⊢; omega
  have f3 : ((List.range (n - (b + 1))).map (fun x => a + (b + 1 - a) + x)).filter (fun i => decide (a ≤ i ∧ i < b + 1)) = [] := by
    rw [List.filter_eq_nil_iff]; intro x hx; simp at hx ⊢; omega
  rw [f1, f2, f3]; simp

/-- C39. Reading a rectangle that lies in an array sheet gives a table of its size, with the value of the
sheet at each position. -/
theorem C39_array_rect (g : Grid) (r1 c1 r2 c2 : Nat) (hr : r1 ≤ r2) (hr2 : r2 < g.rows) (hc : c1 ≤ c2)
    (hc2 : c2 < g.cols) :
    ∃ t, g.readRect ⟨r1, c1⟩ (some ⟨r2, c2⟩) = .ok (.table t) ∧ t.length = r2 - r1 + 1 ∧
      (∀ row ∈ t, row.length = c2 - c1 + 1) ∧
      ∀ i j, i ≤ r2 - r1 → j ≤ c2 - c1 → (t[i]?.bind (·[j]?)) = some (g.val (r1 + i) (c1 + j)) := by
  have hne : ¬ (g.rows = 0 ∨ g.cols = 0) := by omega
  refine ⟨_, by simp only [Grid.readRect, if_neg hne]; rfl, ?_, ?_, ?_⟩
  · simp only [sliceIdx_eq g.rows r1 r2 (by omega) hr2, List.length_map, List.length_range]; omega
  · intro row hrow
    simp only [sliceIdx_eq g.cols c1 c2 (by omega) hc2, List.mem_map] at hrow
    obtain ⟨_, _, rfl⟩ := hrow
    simp; omega
  · intro i j hi hj
    simp only [sliceIdx_eq g.rows r1 r2 (by omega) hr2, sliceIdx_eq g.cols c1 c2 (by omega) hc2,
      List.getElem?_map]
    rw [List.getElem?_range (by omega)]
    simp only [Option.map_some, Option.bind_some, List.getElem?_map]
    rw [List.getElem?_range (by omega)]
    rfl

/-- C39. Reading one cell of an array sheet gives its value; outside the sheet it fails. -/
theorem C39_array_cell (g : Grid) (r c : Nat) :
    (r < g.rows → c < g.cols → g.readRect ⟨r, c⟩ none = .ok (.scalar (g.val r c))) ∧
    ((g.rows ≤ r ∨ g.cols ≤ c) → ∃ e, g.readRect ⟨r, c⟩ none = .error e) := by
  constructor
  · intro hr hc
    have hne : ¬ (g.rows = 0 ∨ g.cols = 0) := by omega
    simp [Grid.readRect, hne, seqIndex_nat, hr, hc]
  · intro h
    unfold Grid.readRect
    split
    · exact ⟨_, rfl⟩
    · simp only [seqIndex_nat]
      by_cases hr : r < g.rows
      · have hc : ¬ c < g.cols := by omega
        simp [hr, hc]
      · simp [hr]

private def docGrid : Grid := ⟨3, 2, fun i j => .int (10 * i + j)⟩
example : docGrid.readRect ⟨1, 0⟩ (some ⟨2, 1⟩) = .ok (.table [[.int 10, .int 11], [.int 20, .int 21]]) := rfl

/-- C39. Reading a rectangle of an *xlrd* sheet, in or beyond the sheet, gives a table of the size of
the rectangle, with the value of each cell in the sheet and `None` beyond. -/
theorem C39_xlrd_rect (g : XlGrid) (dateOf : Nat → Doc) (nan : Doc) (r1 c1 r2 c2 : Nat) (hr : r1 ≤ r2)
    (hc : c1 ≤ c2) :
    ∃ t, g.readRect dateOf nan ⟨r1, c1⟩ (some ⟨r2, c2⟩) = .ok (.table t) ∧ t.length = r2 - r1 + 1 ∧
      (∀ row ∈ t, row.length = c2 - c1 + 1) ∧
      ∀ i j, i ≤ r2 - r1 → j ≤ c2 - c1 → (t[i]?.bind (·[j]?)) = some
        (if r1 + i < g.rows ∧ c1 + j < g.cols then parseCell dateOf nan (g.cell (r1 + i) (c1 + j)) else .null) := by
  refine ⟨_, rfl, ?_, ?_, ?_⟩
  · simp [pyRange]; omega
  · intro row hrow
    simp only [List.mem_map] at hrow
    obtain ⟨_, _, rfl⟩ := hrow
    simp [pyRange]; omega
  · intro i j hi hj
    simp only [pyRange, List.getElem?_map]
    rw [List.getElem?_range (by omega)]
    simp only [Option.map_some, Option.bind_some, List.getElem?_map]
    rw [List.getElem?_range (by omega)]
    have a1 : (r1 : Int) + (i : Nat) = ((r1 + i : Nat) : Int) := by omega
    have a2 : (c1 : Int) + (j : Nat) = ((c1 + j : Nat) : Int) := by omega
    have hval : ∀ x : XlCell, (if x.full = true then parseCell dateOf nan x else .null) = parseCell dateOf nan x := by
      intro x; cases x <;> rfl
    simp only [Option.map_some, XlGrid.elem, a1, a2, seqIndex_nat]
    by_cases hr : r1 + i < g.rows
    · by_cases hc : c1 + j < g.cols
      · simp only [hr, hc, if_true, and_self]
        exact congrArg some (hval _)
      · simp [hr, hc]
    · simp [hr]

private def docXl : XlGrid := ⟨1, 2, fun _ j => if j = 0 then .text "a".toList else .intNum 3⟩
example : docXl.readRect .atom (.atom 0) ⟨0, 0⟩ (some ⟨1, 1⟩) =
    .ok (.table [[.str "a".toList, .int 3], [.null, .null]]) := rfl

/-- What a cell of an Excel file is read as. -/
inductive ReadAs (dateOf : Nat → Doc) (nan : Doc) : XlCell → Doc → Prop
  | empty : ReadAs dateOf nan .empty .null
  | blank : ReadAs dateOf nan .blank .null
  | text (s) : ReadAs dateOf nan (.text s) (.str s)
  | whole (n) : ReadAs dateOf nan (.intNum n) (.int n)
  | fraction (x) : ReadAs dateOf nan (.fracNum x) (.atom x)
  | boolean (b) : ReadAs dateOf nan (.boolean b) (.bool b)
  | date (d) : ReadAs dateOf nan (.date d) (dateOf d)
  | error : ReadAs dateOf nan .error nan

/-- C39. Reading one cell of an *xlrd* sheet gives what is written there: whole numbers as integers,
texts and booleans as such, nothing as `None`; outside the sheet it fails. -/
theorem C39_xlrd_cell (g : XlGrid) (dateOf : Nat → Doc) (nan : Doc) (r c : Nat) :
    (r < g.rows → c < g.cols → ∃ v, g.readRect dateOf nan ⟨r, c⟩ none = .ok (.scalar v) ∧
      ReadAs dateOf nan (g.cell r c) v) ∧
    ((g.rows ≤ r ∨ g.cols ≤ c) → g.readRect dateOf nan ⟨r, c⟩ none = .error .lookupError) := by
  constructor
  · intro hr hc
    refine ⟨parseCell dateOf nan (g.cell r c), by simp [XlGrid.readRect, seqIndex_nat, hr, hc], ?_⟩
    cases g.cell r c <;> constructor
  · intro h
    simp only [XlGrid.readRect, seqIndex_nat]
    by_cases hr : r < g.rows
    · have hc : ¬ c < g.cols := by omega
      simp [hr, hc]
    · simp [hr]

/-- C73. A cell of an array sheet counts as full exactly when reading it gives a value that is not `None`:
zeros, empty texts and `False` are full. -/
theorem C73_array_full (g : Grid) (m : Mat) (h : g.states = .ok m) (r c : Nat) (hr : r < g.rows) (hc : c < g.cols) :
    FullAt m ⟨r, c⟩ ↔ ∃ v, g.readRect ⟨r, c⟩ none = .ok (.scalar v) ∧ v ≠ .null := by
  rw [(C39_array_cell g r c).1 hr hc]
  have hne : ¬ (g.rows = 0 ∨ g.cols = 0) := by omega
  simp only [Grid.states, if_neg hne, Except.ok.injEq] at h
  subst h
  constructor
  · rintro ⟨i, j, he, _, _, hf⟩
    simp at he
    obtain rfl : r = i := by omega
    obtain rfl : c = j := by omega
    refine ⟨_, rfl, ?_⟩
    intro hn
    simp [hn] at hf
  · rintro ⟨v, hv, hn⟩
    simp at hv
    refine ⟨r, c, rfl, hr, hc, ?_⟩
    simp only [hv]

/-- C73. The same for *xlrd* sheets, when dates and errors are read as values. -/
theorem C73_xlrd_full (g : XlGrid) (dateOf : Nat → Doc) (nan : Doc) (hd : ∀ t, dateOf t ≠ .null) (hn : nan ≠ .null)
    (r c : Nat) (hr : r < g.rows) (hc : c < g.cols) :
    FullAt g.states ⟨r, c⟩ ↔ ∃ v, g.readRect dateOf nan ⟨r, c⟩ none = .ok (.scalar v) ∧ v ≠ .null := by
  obtain ⟨v, hv, hr'⟩ := (C39_xlrd_cell g dateOf nan r c).1 hr hc
  rw [hv]
  have key : (g.cell r c).full = true ↔ v ≠ .null := by
    generalize g.cell r c = x at hr'
    cases hr' <;> simp [XlCell.full, hn, hd]
  constructor
  · rintro ⟨i, j, he, _, _, hf⟩
    simp at he
    obtain rfl : r = i := by omega
    obtain rfl : c = j := by omega
    exact ⟨v, rfl, key.1 hf⟩
  · rintro ⟨w, hw, hnn⟩
    simp at hw
    subst hw
    exact ⟨r, c, rfl, hr, hc, key.2 hnn⟩

/-- A sheet with a zero, an empty text, a `False` and a `None`: all but the last are full. -/
example : ∃ m, (⟨1, 4, fun _ j => [Doc.int 0, .str [], .bool false, .null].getD j .null⟩ : Grid).states = .ok m ∧
    (List.range 4).map (m.cell 0) = [true, true, true, false] := ⟨_, rfl, rfl⟩

end Props
