import Verif.Props.PlainLasso
import Verif.Props.HeaderTable
import Verif.Lemmas.DocEq
/-
C161: what was captured can be captured again by the names of its corner cells, and cell by cell.
-/
namespace Props
open Py Model Spec Lemmas

/-- What a lasso without filters that captured a rectangle says of it. -/
private theorem captured {S : Type} (R : Ranger S) (A : SheetApi S) (jsonLoads : Str → Option Doc) (u : Str) (r : RefText)
    (items : List ExpItem) (sheet0 : Option S) (base : Option Coords) (s : S)
    (hu : '#' ∉ u) (hpl : NoCurly (u ++ r.text)) (h : r.Ok) (hf : r.filt = none) (hne : r.text ≠ [])
    (hx : r.Expands items) (hfetch : R.fetch (if u = [] then none else some u) r.sheetName sheet0 = .ok s) (l : Lasso S)
    (hl : R.doLasso A jsonLoads (u ++ '#' :: r.text) { sheet := sheet0, baseCoords := base } = .ok (.lasso l)) (st : Coords)
    (hst : l.st = some st) :
    ∃ m mg v, A.states s = .ok m ∧ A.margins s = .ok mg ∧
      resolveCaptureRect m mg.1 mg.2 r.first r.second (items.map ExpItem.meaning) base = .ok (st, l.nd) ∧
      A.readRect s st l.nd = .ok v ∧ l.values = v.toDoc := by
  obtain ⟨mk, hmk, e⟩ := doLasso_plain R A jsonLoads u r items sheet0 base s hu hpl h hf hne hx hfetch
  rw [hl] at e
  unfold plainOutcome rectOn at e
  cases hm : A.states s with
  | error x =>
    rw [hm] at e
    cases x <;> simp only [reduceCtorEq] at e
    split at e
    · cases e
    · injection e with e; injection e with e
      rw [e, (hmk _ _ _).1] at hst; cases hst
  | ok m =>
    cases hg : A.margins s with
    | error x =>
      rw [hm, hg] at e
      cases x <;> simp only [reduceCtorEq] at e
      split at e
      · cases e
      · injection e with e; injection e with e
        rw [e, (hmk _ _ _).1] at hst; cases hst
    | ok mg =>
      rw [hm, hg] at e
      simp only at e
      cases hq : resolveCaptureRect m mg.1 mg.2 r.first r.second (items.map ExpItem.meaning) base with
      | error x =>
        rw [hq] at e
        cases x <;> simp only [reduceCtorEq] at e
        split at e
        · cases e
        · injection e with e; injection e with e
          rw [e, (hmk _ _ _).1] at hst; cases hst
      | ok q =>
        obtain ⟨p, nd⟩ := q
        rw [hq] at e
        simp only at e
        cases hv : A.readRect s p nd with
        | error x => rw [hv] at e; cases e
        | ok v =>
          rw [hv] at e
          injection e with e; injection e with e
          rw [e, (hmk _ _ _).1] at hst
          cases hst
          rw [e, (hmk _ _ _).2.1, (hmk _ _ _).2.2]
          exact ⟨m, mg, v, rfl, rfl, hq, hv, rfl⟩

private theorem letters_plain {a : A1} {i j : Nat} (ha : a.Is i j) : ∀ c ∈ a.text, c ≠ '“' ∧ c ≠ '”' := by
  intro c hc
  have := text_chars ha c hc
  constructor <;> (rintro rfl; revert this; decide)

/-- The reference to one cell, or to two corners, of the same sheet. -/
private theorem explicit {S : Type} (R : Ranger S) (A : SheetApi S) (jsonLoads : Str → Option Doc) (u : Str) (r : RefText)
    (sheet0 : Option S) (base : Option Coords) (s : S)
    (hu : '#' ∉ u) (hpl : NoCurly (u ++ r.text)) (h : r.Ok)
    (hfetch : R.fetch (if u = [] then none else some u) r.sheetName sheet0 = .ok s)
    (m : Mat) (mg : Coords × Coords) (hm : A.states s = .ok m) (hg : A.margins s = .ok mg) (a : A1) (i j : Nat) (ha : a.Is i j) :
    (∀ v, A.readRect s ⟨i, j⟩ none = .ok v →
      ∃ l, R.doLasso A jsonLoads (u ++ '#' :: (sheetText r.sheet ++ a.text)) { sheet := sheet0, baseCoords := base } = .ok (.lasso l) ∧
        l.st = some ⟨i, j⟩ ∧ l.nd = none ∧ l.values = v.toDoc) ∧
    (∀ (b : A1) (i2 j2 : Nat), b.Is i2 j2 → ∀ v, A.readRect s ⟨min (i : Int) i2, min (j : Int) j2⟩ (some ⟨max (i : Int) i2, max (j : Int) j2⟩) = .ok v →
      ∃ l, R.doLasso A jsonLoads (u ++ '#' :: (sheetText r.sheet ++ a.text ++ ':' :: b.text)) { sheet := sheet0, baseCoords := base } = .ok (.lasso l) ∧
        l.st = some ⟨min (i : Int) i2, min (j : Int) j2⟩ ∧ l.nd = some ⟨max (i : Int) i2, max (j : Int) j2⟩ ∧ l.values = v.toDoc) := by
  have hup : ∀ c ∈ u ++ sheetText r.sheet, c ≠ '“' ∧ c ≠ '”' := by
    intro c hc
    constructor <;> rintro rfl
    · refine hpl.1 ?_
      unfold RefText.text
      simp only [List.mem_append] at hc ⊢
      rcases hc with hc | hc
      · exact .inl hc
      · exact .inr (.inr (.inl hc))
    · refine hpl.2 ?_
      unfold RefText.text
      simp only [List.mem_append] at hc ⊢
      rcases hc with hc | hc
      · exact .inl hc
      · exact .inr (.inr (.inl hc))
  have hc : ∀ x : Str, (∀ c ∈ x, c ≠ '“' ∧ c ≠ '”') → NoCurly (u ++ (sheetText r.sheet ++ x)) := by
    intro x hx
    rw [← List.append_assoc]
    constructor <;> (intro hc; rcases List.mem_append.1 hc with hc | hc)
    · exact (hup _ hc).1 rfl
    · exact (hx _ hc).1 rfl
    · exact (hup _ hc).2 rfl
    · exact (hx _ hc).2 rfl
  constructor
  · intro v hv
    let rt : RefText := ⟨[], r.sheet, some ⟨.a1 a.letters (natStr a.row), none⟩, none, none⟩
    have htext : sheetText r.sheet ++ a.text = rt.text := by
      simp [rt, RefText.text, optEdgeText, rangeText, filtText, EdgeText.text, CellText.text, movText, A1.text]
    have hn : rt.text ≠ [] := by
      rw [← htext]; intro e
      exact ha.2.1 (List.append_eq_nil_iff.1 (List.append_eq_nil_iff.1 e).2).1
    have hcur : NoCurly (u ++ rt.text) := by rw [← htext]; exact hc _ (letters_plain ha)
    have hok : rt.Ok := ⟨by simp [Spaces, rt], h.sheet, (by intro e he; cases he; exact cell_ok ha false),
      (by intro e ex he; cases he), (by intro nd ex he; cases he), trivial, by simp [rt]⟩
    rw [htext]
    have h1 : rt.first = ⟨⟨upper (natStr a.row), upper a.letters⟩, none, none⟩ := rfl
    have h2 : rt.second = none := rfl
    obtain ⟨l, e0, -, e1, e2, e3⟩ := (C86_captures R A jsonLoads u rt [] sheet0 base s m mg.1 mg.2 hu hcur hok rfl hn rfl
      hfetch hm hg).1 ⟨i, j⟩ none v
      (by rw [h1, h2]; simp only [resolveCaptureRect, resolveSt, cell_resolves ha, List.map_nil, ne_eq, not_true_eq_false, if_false]) hv
    exact ⟨l, e0, e1, e2, e3⟩
  · intro b i2 j2 hb v hv
    let rt : RefText := ⟨[], r.sheet, some ⟨.a1 a.letters (natStr a.row), none⟩, some (some ⟨.a1 b.letters (natStr b.row), none⟩, none), none⟩
    have htext : sheetText r.sheet ++ a.text ++ ':' :: b.text = rt.text := by
      simp [rt, RefText.text, optEdgeText, rangeText, expText, filtText, EdgeText.text, CellText.text, movText, A1.text]
    have hn : rt.text ≠ [] := by rw [← htext]; simp
    have hcur : NoCurly (u ++ rt.text) := by
      rw [← htext, List.append_assoc]
      refine hc _ ?_
      intro c hc
      rcases List.mem_append.1 hc with hc | hc
      · exact letters_plain ha c hc
      · rcases List.mem_cons.1 hc with rfl | hc
        · decide
        · exact letters_plain hb c hc
    have hok : rt.Ok := ⟨by simp [Spaces, rt], h.sheet, (by intro e he; cases he; exact cell_ok ha false),
      (by intro e ex he; cases he; exact cell_ok hb true), (by intro nd ex he; cases he; trivial), trivial, by simp [rt]⟩
    rw [htext]
    have h1 : rt.first = ⟨⟨upper (natStr a.row), upper a.letters⟩, none, none⟩ := rfl
    have h2 : rt.second = some ⟨⟨upper (natStr b.row), upper b.letters⟩, none, none⟩ := rfl
    obtain ⟨l, e0, -, e1, e2, e3⟩ := (C86_captures R A jsonLoads u rt [] sheet0 base s m mg.1 mg.2 hu hcur hok rfl hn rfl
      hfetch hm hg).1 _ _ v
      (by rw [h1, h2]; simp only [resolveCaptureRect, resolveSt, resolveNd, cell_resolves ha, cell_resolves hb, List.map_nil, ne_eq,
            not_true_eq_false, if_false, sortRect]) hv
    exact ⟨l, e0, e1, e2, e3⟩

/-- C161. On any kind of sheet: what a reference without filters captured, of any form and in any context, is captured
again by the names of its corner cells, in either order, in the same workbook and sheet; and by the name of its only
cell, if it was lassoed without a second edge. -/
theorem C161_again {S : Type} (R : Ranger S) (A : SheetApi S) (jsonLoads : Str → Option Doc) (u : Str) (r : RefText)
    (items : List ExpItem) (sheet0 : Option S) (base : Option Coords) (s : S)
    (hu : '#' ∉ u) (hpl : NoCurly (u ++ r.text)) (h : r.Ok) (hf : r.filt = none) (hne : r.text ≠ [])
    (hx : r.Expands items) (hfetch : R.fetch (if u = [] then none else some u) r.sheetName sheet0 = .ok s) (l : Lasso S)
    (hl : R.doLasso A jsonLoads (u ++ '#' :: r.text) { sheet := sheet0, baseCoords := base } = .ok (.lasso l))
    (a : A1) (i j : Nat) (ha : a.Is i j) (hst : l.st = some ⟨i, j⟩) (base' : Option Coords) :
    (l.nd = none →
      ∃ l', R.doLasso A jsonLoads (u ++ '#' :: (sheetText r.sheet ++ a.text)) { sheet := sheet0, baseCoords := base' } = .ok (.lasso l') ∧
        l'.st = l.st ∧ l'.nd = l.nd ∧ l'.values = l.values) ∧
    (∀ (b : A1) (i2 j2 : Nat), b.Is i2 j2 → l.nd = some ⟨i2, j2⟩ → ∀ x ∈ [a.text ++ ':' :: b.text, b.text ++ ':' :: a.text],
      ∃ l', R.doLasso A jsonLoads (u ++ '#' :: (sheetText r.sheet ++ x)) { sheet := sheet0, baseCoords := base' } = .ok (.lasso l') ∧
        l'.st = l.st ∧ l'.nd = l.nd ∧ l'.values = l.values) := by
  obtain ⟨m, mg, v, hm, hg, hq, hv, hval⟩ := captured R A jsonLoads u r items sheet0 base s hu hpl h hf hne hx hfetch l hl _ hst
  obtain ⟨one, two⟩ := explicit R A jsonLoads u r sheet0 base' s hu hpl h hfetch m mg hm hg a i j ha
  constructor
  · intro hnd
    rw [hnd] at hv
    obtain ⟨l', e0, e1, e2, e3⟩ := one v hv
    exact ⟨l', e0, by rw [e1, hst], by rw [e2, hnd], by rw [e3, hval]⟩
  · intro b i2 j2 hb hnd x hx
    rw [hnd] at hv hq
    obtain ⟨o1, o2, -⟩ := C37_ordered _ _ _ _ _ _ _ _ _ hq
    simp only at o1 o2
    rcases List.mem_cons.1 hx with rfl | hx
    · have e1 : (⟨min (i : Int) i2, min (j : Int) j2⟩ : Coords) = ⟨i, j⟩ := by simp only [Coords.mk.injEq]; omega
      have e2 : (⟨max (i : Int) i2, max (j : Int) j2⟩ : Coords) = ⟨i2, j2⟩ := by simp only [Coords.mk.injEq]; omega
      obtain ⟨l', k0, k1, k2, k3⟩ := two b i2 j2 hb v (by rw [e1, e2]; exact hv)
      rw [List.append_assoc] at k0
      exact ⟨l', k0, by rw [k1, hst, e1], by rw [k2, hnd, e2], by rw [k3, hval]⟩
    · rw [List.mem_singleton.1 hx]
      obtain ⟨-, two⟩ := explicit R A jsonLoads u r sheet0 base' s hu hpl h hfetch m mg hm hg b i2 j2 hb
      have e1 : (⟨min (i2 : Int) i, min (j2 : Int) j⟩ : Coords) = ⟨i, j⟩ := by simp only [Coords.mk.injEq]; omega
      have e2 : (⟨max (i2 : Int) i, max (j2 : Int) j⟩ : Coords) = ⟨i2, j2⟩ := by simp only [Coords.mk.injEq]; omega
      obtain ⟨l', k0, k1, k2, k3⟩ := two a i j ha v (by rw [e1, e2]; exact hv)
      rw [List.append_assoc] at k0
      exact ⟨l', k0, by rw [k1, hst, e1], by rw [k2, hnd, e2], by rw [k3, hval]⟩

/-- C161. Cell by cell, on an array sheet: the value at each place of a captured rectangle is what the name of the cell
there captures. -/
theorem C161_cells (R : Ranger Grid) (jsonLoads : Str → Option Doc) (u : Str) (r : RefText)
    (items : List ExpItem) (sheet0 : Option Grid) (base : Option Coords) (g : Grid)
    (hu : '#' ∉ u) (hpl : NoCurly (u ++ r.text)) (h : r.Ok) (hf : r.filt = none) (hne : r.text ≠ [])
    (hx : r.Expands items) (hfetch : R.fetch (if u = [] then none else some u) r.sheetName sheet0 = .ok g) (l : Lasso Grid)
    (hl : R.doLasso arrayApi jsonLoads (u ++ '#' :: r.text) { sheet := sheet0, baseCoords := base } = .ok (.lasso l))
    (i j i2 j2 : Nat) (hst : l.st = some ⟨i, j⟩) (hnd : l.nd = some ⟨i2, j2⟩) (w1 : i2 < g.rows) (w2 : j2 < g.cols)
    (a : A1) (x y : Nat) (ha : a.Is (i + x) (j + y)) (b1 : i + x ≤ i2) (b2 : j + y ≤ j2) :
    ∃ (t : List (List Doc)) (l' : Lasso Grid), l.values = .list (t.map .list) ∧
      R.doLasso arrayApi jsonLoads (u ++ '#' :: (sheetText r.sheet ++ a.text)) { sheet := sheet0, baseCoords := base } = .ok (.lasso l') ∧
      (t[x]?.bind (·[y]?)) = some l'.values := by
  obtain ⟨m, mg, v, hm, hg, hq, hv, hval⟩ := captured R arrayApi jsonLoads u r items sheet0 base g hu hpl h hf hne hx hfetch l hl _ hst
  rw [hnd] at hv
  obtain ⟨t, ht, -, -, hent⟩ := C39_array_rect g i j i2 j2 (by omega) w1 (by omega) w2
  have hv' : g.readRect ⟨i, j⟩ (some ⟨i2, j2⟩) = .ok v := hv
  rw [ht] at hv'
  cases hv'
  obtain ⟨l', e0, -, -, e3⟩ := (explicit R arrayApi jsonLoads u r sheet0 base g hu hpl h hfetch m mg hm hg a _ _ ha).1 _
    ((C39_array_cell g (i + x) (j + y)).1 (by omega) (by omega))
  refine ⟨t, l', hval, e0, ?_⟩
  rw [e3, hent x y (by omega) (by omega)]
  rfl

/-- C161. The same for the sheets of Excel files. -/
theorem C161_cells_excel (dateOf : Nat → Doc) (nan : Doc) (R : Ranger XlGrid) (jsonLoads : Str → Option Doc) (u : Str) (r : RefText)
    (items : List ExpItem) (sheet0 : Option XlGrid) (base : Option Coords) (g : XlGrid)
    (hu : '#' ∉ u) (hpl : NoCurly (u ++ r.text)) (h : r.Ok) (hf : r.filt = none) (hne : r.text ≠ [])
    (hx : r.Expands items) (hfetch : R.fetch (if u = [] then none else some u) r.sheetName sheet0 = .ok g) (l : Lasso XlGrid)
    (hl : R.doLasso (xlrdApi dateOf nan) jsonLoads (u ++ '#' :: r.text) { sheet := sheet0, baseCoords := base } = .ok (.lasso l))
    (i j i2 j2 : Nat) (hst : l.st = some ⟨i, j⟩) (hnd : l.nd = some ⟨i2, j2⟩)
    (a : A1) (x y : Nat) (ha : a.Is (i + x) (j + y)) (b1 : i + x ≤ i2) (b2 : j + y ≤ j2) (w1 : i + x < g.rows) (w2 : j + y < g.cols) :
    ∃ (t : List (List Doc)) (l' : Lasso XlGrid), l.values = .list (t.map .list) ∧
      R.doLasso (xlrdApi dateOf nan) jsonLoads (u ++ '#' :: (sheetText r.sheet ++ a.text)) { sheet := sheet0, baseCoords := base } = .ok (.lasso l') ∧
      (t[x]?.bind (·[y]?)) = some l'.values := by
  obtain ⟨m, mg, v, hm, hg, hq, hv, hval⟩ := captured R _ jsonLoads u r items sheet0 base g hu hpl h hf hne hx hfetch l hl _ hst
  rw [hnd] at hv
  obtain ⟨t, ht, -, -, hent⟩ := C39_xlrd_rect g dateOf nan i j i2 j2 (by omega) (by omega)
  have hv' : g.readRect dateOf nan ⟨i, j⟩ (some ⟨i2, j2⟩) = .ok v := hv
  rw [ht] at hv'
  cases hv'
  have hc : ∀ p q : Nat, p < g.rows → q < g.cols → g.readRect dateOf nan ⟨p, q⟩ none = .ok (.scalar (parseCell dateOf nan (g.cell p q))) := by
    intro p q hp hq
    simp [XlGrid.readRect, seqIndex_nat, hp, hq]
  obtain ⟨l', e0, -, -, e3⟩ := (explicit R (xlrdApi dateOf nan) jsonLoads u r sheet0 base g hu hpl h hfetch m mg hm hg a _ _ ha).1 _ (hc _ _ w1 w2)
  refine ⟨t, l', hval, e0, ?_⟩
  rw [e3, hent x y (by omega) (by omega), if_pos ⟨w1, w2⟩]
  rfl

/-! ### A table with a header row -/

private def recSheet : Grid := ⟨6, 6, fun i j => if (1 ≤ i ∧ i ≤ 4) ∧ (2 ≤ j ∧ j ≤ 4) ∧ ¬ (i = 1 ∧ j = 2) then .int (10 * i + j) else .null⟩
private def recRanger : Ranger Grid := ⟨fun _ _ s => match s with | some s => .ok s | none => .error .valueError, [], fun _ => none⟩

private def recaptures (ref : Str) (st : Coords) (nd : Option Coords) (v : Doc) : Bool :=
  match recRanger.doLasso arrayApi (fun _ => none) ref { sheet := some recSheet } with
  | .ok (.lasso l) => l.st == some st && l.nd == nd && docEq l.values v
  | _ => false

private def recTable : Doc := .list [.list [.null, .int 13, .int 14], .list [.int 22, .int 23, .int 24], .list [.int 32, .int 33, .int 34],
  .list [.int 42, .int 43, .int 44]]

/-- The table by its corners, with moves, by the names of its corners, and cell by cell. -/
example : recaptures "#A1(DR):__:U1".toList ⟨1, 2⟩ (some ⟨4, 4⟩) recTable = true ∧ recaptures "#C2:E5".toList ⟨1, 2⟩ (some ⟨4, 4⟩) recTable = true ∧
    recaptures "#E5:C2".toList ⟨1, 2⟩ (some ⟨4, 4⟩) recTable = true ∧ recaptures "#D3".toList ⟨2, 3⟩ none (.int 23) = true ∧
    recaptures "#__(U)".toList ⟨4, 4⟩ none (.int 44) = true ∧ recaptures "#E5".toList ⟨4, 4⟩ none (.int 44) = true := by decide +kernel

example : (⟨"C".toList, 2⟩ : A1).Is 1 2 ∧ (⟨"e".toList, 5⟩ : A1).Is 4 4 ∧ recRanger.fetch none none (some recSheet) = .ok recSheet :=
  ⟨by unfold A1.Is; decide, by unfold A1.Is; decide, rfl⟩

end Props
