import Verif.Lemmas.RecurringDesk
/-
C150. Following references that are found in cells does not depend on what was fetched before.
-/
namespace Props
open Py Model Spec Lemmas

section
variable {W : Surroundings}

/-- C150, in part: a reference is lassoed on a factory that was used before as it is when sheets are opened anew each time, also with the
filters that run others and follow the references found in cells, which may have filters and be followed again: the same lasso, value or
error. Missing: references, given or found, to a sheet of the workbook at hand by its number, see `C150_number_refuted`. -/
theorem C150_same_partial (hW : ProperBooks W) (U : RunSetup) (U' : Setup BookSheet) (hU : SameSetup W U U') (n : Nat) (xlref : Str)
    (given : List SheetObj) (ctx : Lasso SheetObj) (ctx' : Lasso BookSheet) (hctx : SameLasso given ctx ctx')
    (hby : ∀ p, parseXlref U.jsonLoads xlref = .ok p → overlay p.urlFile ctx'.urlFile = none →
      ∀ url i t, ctx'.sheet = some (url, i) → overlay p.frag.shName ctx'.shName = some t → ByName W url t) :
    EndsAs W given (U.doLasso n xlref ctx) (U'.doLasso n xlref ctx') := by
  obtain ⟨hR, hf⟩ := ranger_safe hW hU n
  have h5 := doLasso_safe hW hf hR hU.api hU.cells xlref hctx (by
    intro m hm hu u i t hs ht
    unfold Ranger.parseMerge at hm
    simp only at hm
    cases hp : parseXlref U.jsonLoads xlref with
    | error e => rw [hp] at hm; cases e <;> cases hm
    | ok p =>
      rw [hp] at hm
      simp only at hm
      split at hm
      · cases hm
      · cases hm
        exact hby p hp hu u i t hs ht)
  unfold RunSetup.doLasso Setup.doLasso
  rw [hU.jsonLoads]
  intro order ho D given0 hg hD
  obtain ⟨given1, h1, h2, h3⟩ := h5 order ho D given0 hg hD
  refine ⟨given1, h1, h2, ?_⟩
  revert h3
  generalize (Run.onDesk W order _ D).2 = x
  generalize Ranger.doLasso _ _ _ _ _ = r
  intro h3
  cases h3 with
  | lasso l l' h _ => exact .lasso _ _ h
  | other d _ => exact .other _
  | error e => exact .error _

/-- C150, in part: what `lasso()` returns, or the error that it raises, does not depend on what was done with the factory before, also if it
follows the references found in cells. Missing: references to sheets by number, see `C150_number_refuted`. -/
theorem C150_history_partial (hW : ProperBooks W) (U : RunSetup) (U' : Setup BookSheet) (hU : SameSetup W U U') (n : Nat) (xlref : Str)
    (hb : U.baseOpts ≠ []) (ctx : Lasso SheetObj) (hctx : ctx.sheet = none) (order order2 : List SKey → List SKey)
    (ho : IsOrder order) (ho2 : IsOrder order2) (D D2 : Desk) (given given2 : List SheetObj) (hD : Serving W D given)
    (hD2 : Serving W D2 given2) :
    (D.lasso W order (U.ranger n).filters U.api U.jsonLoads xlref (some U.baseOpts) none false ctx).2 =
      (D2.lasso W order2 (U.ranger n).filters U.api U.jsonLoads xlref (some U.baseOpts) none false ctx).2 := by
  have hrel : SameLasso [] ctx (onSheet ctx none) := by
    refine ⟨rfl, ?_⟩
    rw [hctx]
    exact .none
  have key := C150_same_partial hW U U' hU n xlref [] ctx (onSheet ctx none) hrel (fun p _ _ url i t h => nomatch h)
  have hmk : makeDefaultRanger (U.ranger n).filters (some U.baseOpts) none = U.ranger n := by
    have h1 : (U.ranger n).baseOpts = U.baseOpts := by cases n <;> rfl
    unfold makeDefaultRanger
    cases h : U.baseOpts with
    | nil => exact absurd h hb
    | cons o os =>
      simp only [Option.getD_none]
      rw [← h, ← h1]
  obtain ⟨g1, -, -, h1⟩ := key order ho D given (fun s hs => by cases hs) hD
  obtain ⟨g2, -, -, h2⟩ := key order2 ho2 D2 given2 (fun s hs => by cases hs) hD2
  unfold Desk.lasso
  simp only [hmk]
  unfold RunSetup.doLasso at h1 h2
  revert h1 h2
  generalize Run.onDesk W order _ D = q1
  generalize Run.onDesk W order2 _ D2 = q2
  generalize U'.doLasso n xlref (onSheet ctx none) = r
  intro h1 h2
  obtain ⟨E1, q1⟩ := q1
  obtain ⟨E2, q2⟩ := q2
  simp only at h1 h2 ⊢
  cases h1 with
  | lasso l l' h =>
    cases h2 with
    | lasso l2 l2' h' =>
      have : l.values = l2.values := by rw [h.1, h'.1]; rfl
      simp only [lassoReturn, this, Bool.false_eq_true, if_false]
  | other d => cases h2; rfl
  | error e => cases h2; rfl

/-- A text that is no number names a sheet by its name. -/
theorem byName_text {t : Str} (h : pyInt t = none) (url : Str) : ByName W url t := by
  intro names i hn hi
  unfold listSheetNames at hn
  unfold openSheetOf at hi
  cases hu : urlAndBackend W.ok W.cwd W.plugins url with
  | error e => rw [hu] at hn; cases hn
  | ok q =>
    obtain ⟨u, p⟩ := q
    rw [hu] at hn hi
    simp only at hn hi
    rw [hn] at hi
    simp only [openSheetBy, h] at hi
    unfold sheetByName at hi
    cases hf : names.findIdx? (· == t) with
    | none => rw [hf] at hi; cases hi
    | some j =>
      rw [hf] at hi
      cases hi
      obtain ⟨hlt, hp, -⟩ := List.findIdx?_eq_some_iff_getElem.1 hf
      rw [List.getElem?_eq_getElem hlt, eq_of_beq hp]

/-- A filter of one's own that works on the values only. -/
theorem sameKind_values {J : Str → Option Doc} (g : Doc → List Doc → List (Str × Doc) → Except PyErr Doc)
    (hg : ∀ d args kwds v, NoNumbers W J d → g d args kwds = .ok v → NoNumbers W J v) :
    SameFilterKind W J (.own (fun l args kwds => .done ((g l.values args kwds).map (fun v => .lasso { l with values := v }))))
      (.own (fun l args kwds => (g l.values args kwds).map (fun v => .lasso { l with values := v }))) := by
  refine .own _ _ ?_
  intro given l l' hl hv args kwds
  apply safe_done
  have h2 : l.values = l'.values := by rw [hl.1]; rfl
  simp only [h2]
  cases h : g l'.values args kwds with
  | error e => exact .error _
  | ok v =>
    refine .lasso _ _ ⟨?_, hl.2⟩ (hg _ _ _ _ hv h)
    conv => lhs; rw [hl.1]
    rfl

end

/-! ### A workbook whose cells refer to others -/

/-- In all cells of a sheet there is the same text: in sheet "A" a reference to sheet "B", where there is a text that is none. -/
private def refCells : SheetApi BookSheet where
  states _ := .ok ⟨2, 2, fun _ _ => true⟩
  margins _ := .ok (⟨0, 0⟩, ⟨1, 1⟩)
  readRect s _ _ := .ok (.scalar (.str (if s.2 = 0 then "#B!A1".toList else "end".toList)))

private def refCellsObj : SheetApi SheetObj where
  states _ := .ok ⟨2, 2, fun _ _ => true⟩
  margins _ := .ok (⟨0, 0⟩, ⟨1, 1⟩)
  readRect s _ _ := .ok (.scalar (.str (if s.number = 0 then "#B!A1".toList else "end".toList)))

private theorem sameRefCells : SameApi refCellsObj refCells := by
  refine ⟨fun _ _ _ _ => rfl, fun _ _ _ _ => rfl, ?_⟩
  rintro s url i ⟨-, name, h⟩
  funext st nd
  simp only [refCellsObj, refCells, SheetObj.number, h, Int.toNat_natCast]

/-- All calls are this one. -/
private def recurseCall (_ : Str) : Option Doc := some (.list [.str "recurse".toList])

private def Ux : RunSetup where
  baseOpts := defaultOpts none
  filters n := if n = "recurse".toList then some (.recurse, true) else if n = "pipe".toList then some (.pipe, true)
    else if n = "len".toList then some (.own (fun l _ _ => .done (.ok (.lasso { l with values := .int 3 }))), true) else none
  pandas := true
  api := refCellsObj
  jsonLoads := recurseCall

private def Ux' : Setup BookSheet where
  fetch := openAnew Wx
  baseOpts := defaultOpts none
  filters n := if n = "recurse".toList then some (.recurse, true) else if n = "pipe".toList then some (.pipe, true)
    else if n = "len".toList then some (.own (fun l _ _ => .ok (.lasso { l with values := .int 3 })), true) else none
  pandas := true
  api := refCells
  jsonLoads := recurseCall

private theorem noNumber_of {W : Surroundings} {J : Str → Option Doc} {t : Str}
    (h : (match parseXlref J t with
      | .ok p => match p.frag.shName with | some n => (pyInt n).isNone | none => true
      | .error _ => true) = true) : NoNumber W J t := by
  intro p hp _ n hn url
  rw [hp] at h
  simp only [hn] at h
  exact byName_text (by revert h; cases pyInt n <;> simp) url

/-- Rangers as asked for. -/
private theorem sameUx : SameSetup Wx Ux Ux' := by
  refine ⟨rfl, rfl, rfl, rfl, sameRefCells, ?_, ?_⟩
  · intro n
    simp only [Ux, Ux']
    split
    · exact .inr ⟨_, _, _, rfl, rfl, .recurse⟩
    · split
      · exact .inr ⟨_, _, _, rfl, rfl, .pipe⟩
      · split
        · exact .inr ⟨_, _, _, rfl, rfl, sameKind_values (fun _ _ _ => .ok (.int 3)) (by
            intro d args kwds v _ h t ht
            cases h
            cases ht)⟩
        · exact .inl ⟨rfl, rfl⟩
  · intro s st nd v h t ht
    cases h
    cases ht
    split
    · exact noNumber_of (by decide +kernel)
    · exact noNumber_of (by decide +kernel)

/-- The value returned, if it is a text. -/
private def textEnd : Except PyErr (FRes SheetObj) → Option Str
  | .ok (.other (.str t)) => some t
  | _ => none

/-- A call that follows a reference, on a new factory and on a used one. -/
example : textEnd (Desk.new.lasso Wx id (Ux.ranger 5).filters Ux.api Ux.jsonLoads "a.xls#A!A1:[\"recurse\"]".toList (some Ux.baseOpts) none false
      {}).2 = some "end".toList ∧
    textEnd (D2.lasso Wx id (Ux.ranger 5).filters Ux.api Ux.jsonLoads "a.xls#A!A1:[\"recurse\"]".toList (some Ux.baseOpts) none false {}).2 =
      some "end".toList := by
  decide +kernel

example : Ux.baseOpts ≠ [] := by decide

/-- In the cells of all sheets there are a reference to the first sheet of the workbook and one to the sheet with number 0, with no workbook. A
cell by itself has no reference. -/
private def numCellsObj : SheetApi SheetObj where
  states _ := .ok ⟨2, 2, fun _ _ => true⟩
  margins _ := .ok (⟨0, 0⟩, ⟨1, 1⟩)
  readRect _ _ nd := .ok (if nd.isSome then .table [[.str "a.xls#A1".toList, .str "#0!A1".toList]] else .scalar (.str "end".toList))

private def numCells : SheetApi BookSheet where
  states _ := .ok ⟨2, 2, fun _ _ => true⟩
  margins _ := .ok (⟨0, 0⟩, ⟨1, 1⟩)
  readRect _ _ nd := .ok (if nd.isSome then .table [[.str "a.xls#A1".toList, .str "#0!A1".toList]] else .scalar (.str "end".toList))

private def Un : RunSetup := { Ux with api := numCellsObj }

private def theRef : Str := "a.xls#A!A1:B1:[\"recurse\"]".toList

private theorem newEnd : (Desk.new.lasso Wx id (Un.ranger 5).filters Un.api Un.jsonLoads theRef (some Un.baseOpts) none false {}).2 =
    .error .valueError := by
  have h : (match (Desk.new.lasso Wx id (Un.ranger 5).filters Un.api Un.jsonLoads theRef (some Un.baseOpts) none false {}).2 with
      | .error .valueError => true | _ => false) = true := by decide +kernel
  revert h
  generalize (Desk.new.lasso Wx id (Un.ranger 5).filters Un.api Un.jsonLoads theRef (some Un.baseOpts) none false {}).2 = r
  intro h
  split at h
  · rfl
  · cases h

private theorem usedEnd : (D2.lasso Wx id (Un.ranger 5).filters Un.api Un.jsonLoads theRef (some Un.baseOpts) none false {}).2 =
    .ok (.other (.list [.list [.str "end".toList, .str "end".toList]])) := by
  have h : (match (D2.lasso Wx id (Un.ranger 5).filters Un.api Un.jsonLoads theRef (some Un.baseOpts) none false {}).2 with
      | .ok (.other (.list [.list [.str t, .str u]])) => t == "end".toList && u == "end".toList | _ => false) = true := by decide +kernel
  revert h
  generalize (D2.lasso Wx id (Un.ranger 5).filters Un.api Un.jsonLoads theRef (some Un.baseOpts) none false {}).2 = r
  intro h
  split at h
  · simp only [Bool.and_eq_true] at h
    rw [eq_of_beq h.1, eq_of_beq h.2]
  · cases h

/-- C150. The same call of `lasso()`, with no sheet in the context, returns values or fails depending on what was fetched before: of two
references in the cells the first one, to the workbook without a sheet, closes the sheet at hand if the first sheet of the workbook was not
fetched before in this way, and then the second one, by number, cannot be followed. -/
theorem C150_number_refuted : ∃ (W : Surroundings) (U : RunSetup) (A' : SheetApi BookSheet) (D : Desk) (given : List SheetObj) (n : Nat)
    (xlref : Str), ProperBooks W ∧ SameApi U.api A' ∧ U.filters "recurse".toList = some (.recurse, true) ∧ Serving W D given ∧ U.baseOpts ≠ [] ∧
    (Desk.new.lasso W id (U.ranger n).filters U.api U.jsonLoads xlref (some U.baseOpts) none false {}).2 = .error .valueError ∧
    (D.lasso W id (U.ranger n).filters U.api U.jsonLoads xlref (some U.baseOpts) none false {}).2 =
      .ok (.other (.list [.list [.str "end".toList, .str "end".toList]])) :=
  ⟨Wx, Un, numCells, D2, [sA', sA], 5, theRef, properWx, ⟨fun _ _ _ _ => rfl, fun _ _ _ _ => rfl, fun _ _ _ _ => rfl⟩, rfl, sv2, by decide,
    newEnd, usedEnd⟩

end Props
