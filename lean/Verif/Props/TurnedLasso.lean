import Verif.Props.Turned
import Verif.Props.PlainLasso
/-
C140, continued: the values that are captured are turned over with the sheet and the reference.
-/
namespace Props
open Py Model Spec

private theorem turned_outcome {S : Type} (A : SheetApi S) (noEmpty lone : Bool) (s s' : S)
    (mk mk' : Option Coords → Option Coords → Doc → Lasso S)
    (hmk : ∀ st nd v, (mk st nd v).st = st ∧ (mk st nd v).nd = nd ∧ (mk st nd v).values = v)
    (hmk' : ∀ st nd v, (mk' st nd v).st = st ∧ (mk' st nd v).nd = nd ∧ (mk' st nd v).values = v)
    (hread : ∀ st nd, (∃ v v', A.readRect s st nd = .ok v ∧ A.readRect s' (turnCoords st) (nd.map turnCoords) = .ok v' ∧
        TurnedValues v v') ∨
      ∃ e, A.readRect s st nd = .error e ∧ A.readRect s' (turnCoords st) (nd.map turnCoords) = .error e)
    (rect : Except PyErr (Coords × Option Coords)) :
    TurnedLassos (plainOutcome A noEmpty lone s mk rect) (plainOutcome A noEmpty lone s' mk' (turnOutcome rect)) := by
  unfold plainOutcome
  cases rect with
  | ok p =>
    obtain ⟨st, nd⟩ := p
    simp only [turnOutcome]
    rcases hread st nd with ⟨v, v', h1, h2, h3⟩ | ⟨e, h1, h2⟩
    · rw [h1, h2]
      refine .values _ _ v v' (hmk _ _ _).2.2 (hmk' _ _ _).2.2 h3 ?_ ?_
      · rw [(hmk _ _ _).1, (hmk' _ _ _).1]; rfl
      · rw [(hmk _ _ _).2.1, (hmk' _ _ _).2.1]
    · rw [h1, h2]; exact .error e
  | error e =>
    cases e
    case emptyCapture =>
      cases noEmpty
      · refine .values _ _ (.table []) (.table []) (hmk _ _ _).2.2 (hmk' _ _ _).2.2
          (.table _ _ (fun _ _ => rfl) (by simp) (by simp)) ?_ ?_
        · rw [(hmk _ _ _).1, (hmk' _ _ _).1]; rfl
        · rw [(hmk _ _ _).2.1, (hmk' _ _ _).2.1]; rfl
      · exact .error _
    all_goals exact .error _

private theorem turned_lasso {S : Type} (R R' : Ranger S) (A : SheetApi S) (jsonLoads : Str → Option Doc) (u : Str) (r r' : RefText)
    (items items' : List ExpItem) (sheet0 sheet0' : Option S) (base : Option Coords) (s s' : S) (hopts : R'.baseOpts = R.baseOpts)
    (hu : '#' ∉ u) (hr : r.Ok ∧ r.filt = none ∧ r.text ≠ [] ∧ NoCurly (u ++ r.text) ∧ r.Expands items)
    (hr' : r'.Ok ∧ r'.filt = none ∧ r'.text ≠ [] ∧ NoCurly (u ++ r'.text) ∧ r'.Expands items')
    (hg : R.fetch (if u = [] then none else some u) r.sheetName sheet0 = .ok s)
    (hg' : R'.fetch (if u = [] then none else some u) r'.sheetName sheet0' = .ok s')
    (h1 : TurnedEdge r.first r'.first) (h2 : TurnedSecond r.second r'.second)
    (h3 : items'.map ExpItem.meaning = (items.map ExpItem.meaning).map turnGroup)
    (hstates : A.states s' = (A.states s).map turnSheet)
    (hmargins : A.margins s' = (A.margins s).map (fun p => (turnCoords p.1, turnCoords p.2)))
    (hread : ∀ st nd, (∃ v v', A.readRect s st nd = .ok v ∧ A.readRect s' (turnCoords st) (nd.map turnCoords) = .ok v' ∧
        TurnedValues v v') ∨
      ∃ e, A.readRect s st nd = .error e ∧ A.readRect s' (turnCoords st) (nd.map turnCoords) = .error e) :
    TurnedLassos (R.doLasso A jsonLoads (u ++ '#' :: r.text) { sheet := sheet0, baseCoords := base })
      (R'.doLasso A jsonLoads (u ++ '#' :: r'.text) { sheet := sheet0', baseCoords := base.map turnCoords }) := by
  obtain ⟨p1, p2, p3, p4, p5⟩ := hr
  obtain ⟨q1, q2, q3, q4, q5⟩ := hr'
  obtain ⟨mk, hmk, e1⟩ := doLasso_plain R A jsonLoads u r items sheet0 base s hu p4 p1 p2 p3 p5 hg
  obtain ⟨mk', hmk', e2⟩ := doLasso_plain R' A jsonLoads u r' items' sheet0' (base.map turnCoords) s' hu q4 q1 q2 q3 q5 hg'
  have hlone : r'.second.isNone = r.second.isNone := by
    have key : ∀ a b, TurnedSecond a b → b.isNone = a.isNone := by intro a b h; cases h <;> rfl
    exact key _ _ h2
  have hrect : rectOn A s' r'.first r'.second (items'.map ExpItem.meaning) (base.map turnCoords) =
      turnOutcome (rectOn A s r.first r.second (items.map ExpItem.meaning) base) := by
    unfold rectOn
    rw [hstates, hmargins, h3]
    cases A.states s with
    | error e => rfl
    | ok m =>
      cases A.margins s with
      | error e => rfl
      | ok mg => exact C140_turned m mg.1 mg.2 _ _ _ _ _ base h1 h2
  rw [e1, e2, hlone, hrect, hopts]
  exact turned_outcome A _ _ s s' mk mk' hmk hmk' hread _

/-- A table made of the elements of a function over rows and columns, and the table over columns and rows. -/
private theorem turned_table {α β : Type} (rows : List α) (cols : List β) (f : α → β → Doc) (f' : β → α → Doc)
    (h : ∀ a b, f' b a = f a b) :
    TurnedValues (.table (rows.map (fun a => cols.map (f a)))) (.table (cols.map (fun b => rows.map (f' b)))) := by
  refine .table _ _ ?_ ?_ ?_
  · intro i j
    unfold tableAt
    simp only [List.getElem?_map]
    cases hj : cols[j]? with
    | none =>
      cases rows[i]? with
      | none => rfl
      | some a => simp only [Option.map_none, Option.bind_none, Option.map_some, Option.bind_some, List.getElem?_map, hj]
    | some b =>
      cases hi : rows[i]? with
      | none => simp only [Option.map_none, Option.bind_none, Option.map_some, Option.bind_some, List.getElem?_map, hi]
      | some a => simp only [Option.map_some, Option.bind_some, List.getElem?_map, hi, hj, h]
  · simp only [List.mem_map, List.length_map]
    rintro row ⟨a, _, rfl⟩
    exact List.length_map _
  · simp only [List.mem_map, List.length_map]
    rintro row ⟨a, _, rfl⟩
    exact List.length_map _

/-- C140. Reading a rectangle of a turned array gives the values turned. -/
theorem C140_values (g g' : Grid) (h : TurnedArray g g') (st : Coords) (nd : Option Coords) :
    (∃ v v', g.readRect st nd = .ok v ∧ g'.readRect (turnCoords st) (nd.map turnCoords) = .ok v' ∧ TurnedValues v v') ∨
      ∃ e, g.readRect st nd = .error e ∧ g'.readRect (turnCoords st) (nd.map turnCoords) = .error e := by
  unfold Grid.readRect
  rw [h.rows, h.cols]
  by_cases h0 : g.rows = 0 ∨ g.cols = 0
  · rw [if_pos h0, if_pos h0.symm]
    exact .inr ⟨_, rfl, rfl⟩
  · rw [if_neg h0, if_neg (fun c => h0 c.symm)]
    cases nd with
    | none =>
      simp only [Option.map_none, turnCoords]
      cases seqIndex g.rows st.row with
      | none => cases seqIndex g.cols st.col <;> exact .inr ⟨_, rfl, rfl⟩
      | some i =>
        cases seqIndex g.cols st.col with
        | none => exact .inr ⟨_, rfl, rfl⟩
        | some j => exact .inl ⟨_, _, rfl, rfl, by rw [h.val]; exact .scalar _⟩
    | some q =>
      simp only [Option.map_some, turnCoords]
      exact .inl ⟨_, _, rfl, rfl, turned_table _ _ g.val g'.val h.val⟩

/-- C140. So does reading a rectangle of a turned sheet of an Excel file. -/
theorem C140_excel_values (dateOf : Nat → Doc) (nan : Doc) (g g' : XlGrid) (h : TurnedExcel g g') (st : Coords) (nd : Option Coords) :
    (∃ v v', g.readRect dateOf nan st nd = .ok v ∧ g'.readRect dateOf nan (turnCoords st) (nd.map turnCoords) = .ok v' ∧
        TurnedValues v v') ∨
      ∃ e, g.readRect dateOf nan st nd = .error e ∧ g'.readRect dateOf nan (turnCoords st) (nd.map turnCoords) = .error e := by
  unfold XlGrid.readRect
  rw [h.rows, h.cols]
  cases nd with
  | none =>
    simp only [Option.map_none, turnCoords]
    cases seqIndex g.rows st.row with
    | none => cases seqIndex g.cols st.col <;> exact .inr ⟨_, rfl, rfl⟩
    | some i =>
      cases seqIndex g.cols st.col with
      | none => exact .inr ⟨_, rfl, rfl⟩
      | some j => exact .inl ⟨_, _, rfl, rfl, by rw [h.cell]; exact .scalar _⟩
  | some q =>
    simp only [Option.map_some, turnCoords]
    refine .inl ⟨_, _, rfl, rfl, turned_table _ _ (g.elem dateOf nan) (g'.elem dateOf nan) ?_⟩
    intro a b
    unfold XlGrid.elem
    rw [h.rows, h.cols]
    cases seqIndex g.rows a with
    | none => cases seqIndex g.cols b <;> rfl
    | some i =>
      cases seqIndex g.cols b with
      | none => rfl
      | some j => simp only [XlGrid.states, h.cell]; rfl

/-- C140. Lassoing from an array and from the same turned over, with references that are turned of each other
(of any form, without filters), relatively to any base cell: values and rectangle are turned, or both fail with
the same error. -/
theorem C140_lasso (R R' : Ranger Grid) (jsonLoads : Str → Option Doc) (u : Str) (r r' : RefText)
    (items items' : List ExpItem) (sheet0 sheet0' : Option Grid) (base : Option Coords) (g g' : Grid) (hg : TurnedArray g g')
    (hopts : R'.baseOpts = R.baseOpts) (hu : '#' ∉ u)
    (hr : r.Ok ∧ r.filt = none ∧ r.text ≠ [] ∧ NoCurly (u ++ r.text) ∧ r.Expands items)
    (hr' : r'.Ok ∧ r'.filt = none ∧ r'.text ≠ [] ∧ NoCurly (u ++ r'.text) ∧ r'.Expands items')
    (hf : R.fetch (if u = [] then none else some u) r.sheetName sheet0 = .ok g)
    (hf' : R'.fetch (if u = [] then none else some u) r'.sheetName sheet0' = .ok g')
    (h1 : TurnedEdge r.first r'.first) (h2 : TurnedSecond r.second r'.second)
    (h3 : items'.map ExpItem.meaning = (items.map ExpItem.meaning).map turnGroup) :
    TurnedLassos (R.doLasso arrayApi jsonLoads (u ++ '#' :: r.text) { sheet := sheet0, baseCoords := base })
      (R'.doLasso arrayApi jsonLoads (u ++ '#' :: r'.text) { sheet := sheet0', baseCoords := base.map turnCoords }) := by
  have hs : g'.states = g.states.map turnSheet := by
    unfold Grid.states
    rw [hg.rows, hg.cols]
    by_cases h0 : g.rows = 0 ∨ g.cols = 0
    · rw [if_pos h0, if_pos h0.symm]; rfl
    · rw [if_neg h0, if_neg (fun c => h0 c.symm)]
      simp only [Except.map, turnSheet, hg.val]
  refine turned_lasso R R' arrayApi jsonLoads u r r' items items' sheet0 sheet0' base g g' hopts hu hr hr' hf hf' h1 h2 h3 hs ?_
    (C140_values g g' hg)
  simp only [arrayApi, hs]
  cases g.states with
  | error e => rfl
  | ok m => simp only [Except.map, getMargins, Option.getD_none, C140_margins]

/-- C140. The same for the sheets of Excel files. -/
theorem C140_excel_lasso (dateOf : Nat → Doc) (nan : Doc) (R R' : Ranger XlGrid) (jsonLoads : Str → Option Doc) (u : Str)
    (r r' : RefText) (items items' : List ExpItem) (sheet0 sheet0' : Option XlGrid) (base : Option Coords) (g g' : XlGrid)
    (hg : TurnedExcel g g') (hopts : R'.baseOpts = R.baseOpts) (hu : '#' ∉ u)
    (hr : r.Ok ∧ r.filt = none ∧ r.text ≠ [] ∧ NoCurly (u ++ r.text) ∧ r.Expands items)
    (hr' : r'.Ok ∧ r'.filt = none ∧ r'.text ≠ [] ∧ NoCurly (u ++ r'.text) ∧ r'.Expands items')
    (hf : R.fetch (if u = [] then none else some u) r.sheetName sheet0 = .ok g)
    (hf' : R'.fetch (if u = [] then none else some u) r'.sheetName sheet0' = .ok g')
    (h1 : TurnedEdge r.first r'.first) (h2 : TurnedSecond r.second r'.second)
    (h3 : items'.map ExpItem.meaning = (items.map ExpItem.meaning).map turnGroup) :
    TurnedLassos (R.doLasso (xlrdApi dateOf nan) jsonLoads (u ++ '#' :: r.text) { sheet := sheet0, baseCoords := base })
      (R'.doLasso (xlrdApi dateOf nan) jsonLoads (u ++ '#' :: r'.text)
        { sheet := sheet0', baseCoords := base.map turnCoords }) := by
  have hs : g'.states = turnSheet g.states := by
    unfold XlGrid.states turnSheet
    rw [hg.rows, hg.cols]
    simp only [hg.cell]
  refine turned_lasso R R' (xlrdApi dateOf nan) jsonLoads u r r' items items' sheet0 sheet0' base g g' hopts hu hr hr' hf hf' h1 h2 h3
    ?_ ?_ (C140_excel_values dateOf nan g g' hg)
  · simp only [xlrdApi, hs, Except.map]
  · simp only [xlrdApi, hs, XlGrid.dnMargin, hg.rows, hg.cols]
    by_cases h0 : g.rows = 0 ∨ g.cols = 0
    · rw [if_pos h0, if_pos h0.symm]; rfl
    · rw [if_neg h0, if_neg (fun c => h0 c.symm)]
      simp only [Except.map, getMargins, Option.getD_none, Option.getD_some, C140_margins]
      rfl

/-- An array of two rows and three columns, and the same turned. -/
private def wide : Grid := ⟨2, 3, fun i j => .int (10 * i + j)⟩
private def tall : Grid := ⟨3, 2, fun i j => .int (10 * j + i)⟩

private theorem wide_tall : TurnedArray wide tall := ⟨rfl, rfl, fun _ _ => rfl⟩

/-- The references `A2:..(R):U1` and `B1:..(D):L1`. -/
private def wideRef : RefText := ⟨[], none, some ⟨.a1 "A".toList "2".toList, none⟩,
  some (some ⟨.a1 ".".toList ".".toList, some ("R".toList, none)⟩, some "U1".toList), none⟩
private def tallRef : RefText := ⟨[], none, some ⟨.a1 "B".toList "1".toList, none⟩,
  some (some ⟨.a1 ".".toList ".".toList, some ("D".toList, none)⟩, some "L1".toList), none⟩

private theorem wideRef_ok : wideRef.Ok := by
  refine ⟨by simp [Spaces, wideRef], trivial, ?_, ?_, ?_, trivial, by simp [wideRef]⟩
  · intro e he; cases he
    exact ⟨⟨.inl ⟨by decide, by decide⟩, .inl ⟨'2', [], rfl, by decide, by decide, by simp⟩⟩, trivial⟩
  · intro e ex he; cases he
    exact ⟨⟨.inr (.inr (.inr ⟨rfl, rfl⟩)), .inr (.inr (.inr ⟨rfl, rfl⟩))⟩, by decide, .inl rfl⟩
  · intro nd ex he; cases he
    exact ⟨by decide, by decide⟩

private theorem tallRef_ok : tallRef.Ok := by
  refine ⟨by simp [Spaces, tallRef], trivial, ?_, ?_, ?_, trivial, by simp [tallRef]⟩
  · intro e he; cases he
    exact ⟨⟨.inl ⟨by decide, by decide⟩, .inl ⟨'1', [], rfl, by decide, by decide, by simp⟩⟩, trivial⟩
  · intro e ex he; cases he
    exact ⟨⟨.inr (.inr (.inr ⟨rfl, rfl⟩)), .inr (.inr (.inr ⟨rfl, rfl⟩))⟩, by decide, .inl rfl⟩
  · intro nd ex he; cases he
    exact ⟨by decide, by decide⟩

private theorem counted_ok (c : Char) (h : (letterDir c).isSome) : ∀ it ∈ [ExpItem.counted c "1".toList], it.Ok := by
  intro it hit
  simp only [List.mem_cons, List.not_mem_nil, or_false] at hit
  subst hit
  exact ⟨h, by decide, by decide⟩

/-- Both lassos, from the two arrays. -/
example (jsonLoads : Str → Option Doc) : TurnedLassos
    (Ranger.doLasso ⟨fun _ _ _ => .ok wide, [], fun _ => none⟩ arrayApi jsonLoads "#A2:..(R):U1".toList {})
    (Ranger.doLasso ⟨fun _ _ _ => .ok tall, [], fun _ => none⟩ arrayApi jsonLoads "#B1:..(D):L1".toList {}) :=
  C140_lasso ⟨fun _ _ _ => .ok wide, [], fun _ => none⟩ ⟨fun _ _ _ => .ok tall, [], fun _ => none⟩ jsonLoads [] wideRef tallRef
    [.counted 'U' "1".toList] [.counted 'L' "1".toList] none none none wide tall wide_tall rfl (by decide)
    ⟨wideRef_ok, rfl, by decide, by unfold NoCurly; decide, counted_ok _ rfl, trivial, rfl⟩
    ⟨tallRef_ok, rfl, by decide, by unfold NoCurly; decide, counted_ok _ rfl, trivial, rfl⟩
    rfl rfl
    ⟨⟨.letters _ _ (by decide) (by decide) (by decide +kernel), .letters _ _ (by decide) (by decide) (by decide +kernel)⟩, rfl, rfl⟩
    (.some _ _ ⟨⟨.dot, .dot⟩, rfl, rfl⟩) rfl

/-- What they read: all of the arrays. -/
example : wide.readRect ⟨0, 0⟩ (some ⟨1, 2⟩) = .ok (.table [[.int 0, .int 1, .int 2], [.int 10, .int 11, .int 12]]) ∧
    tall.readRect ⟨0, 0⟩ (some ⟨2, 1⟩) = .ok (.table [[.int 0, .int 10], [.int 1, .int 11], [.int 2, .int 12]]) := ⟨rfl, rfl⟩

end Props
