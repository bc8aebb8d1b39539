import Verif.Spec.LassoDesk
import Verif.Props.FactoryBooks
/-
C135. What a reference captures does not depend on what was captured before with the same factory.
-/
namespace Props
open Py Model Spec Lemmas

section
variable {W : Surroundings}

/-- Fetching a sheet, whatever was fetched before, is opening it anew. -/
theorem fetch_anew (hW : ProperBooks W) {D : Desk} {given : List SheetObj} (hD : Serving W D given) {order : List SKey → List SKey}
    (ho : IsOrder order) (wb sh : Option Str) {b : Option SheetObj} {b' : Option BookSheet} (hb : SameSheet given b b')
    (hby : wb = none → ∀ u i t, b' = some (u, i) → sh = some t → ByName W u t) :
    ∃ given1, (∀ s ∈ given, s ∈ given1) ∧ Serving W (D.fetch W order wb (shIdOf sh) b).1 given1 ∧
      ((∃ e, (D.fetch W order wb (shIdOf sh) b).2 = .error e ∧ openAnew W wb sh b' = .error e) ∨
        ∃ s url i, (D.fetch W order wb (shIdOf sh) b).2 = .ok s ∧ openAnew W wb sh b' = .ok (url, i) ∧ s ∈ given1 ∧ IsSheet s url i) := by
  have hbg : ∀ x, b = some x → x ∈ given := by
    intro x hx
    cases hb with
    | none => cases hx
    | some s url i h1 h2 => cases hx; exact h1
  have hs := Serving.fetch order wb (shIdOf sh) b hD ho hbg
  refine ⟨_, ?_, hs, ?_⟩
  · intro s hs
    split
    · exact List.mem_cons_of_mem _ hs
    · exact hs
  have hI := serving_inv hW hD
  cases hr : (D.fetch W order wb (shIdOf sh) b).2 with
  | error e =>
    left
    refine ⟨e, rfl, ?_⟩
    cases wb with
    | some w => exact (C134_workbook hW hD order ho w (shIdOf sh) b e).1 hr
    | none =>
      cases hb with
      | none =>
        rw [(fetch_nothing hI order (shIdOf sh)).2.1] at hr
        cases hr
        rfl
      | some s url i h1 h2 =>
        cases sh with
        | none =>
          have := (fetch_sibling hI ho h1 .none).2.1 rfl
          rw [show shIdOf none = .none from rfl, this] at hr
          cases hr
        | some t =>
          have hw : s.wb = url := h2.1
          cases ho2 : openSheetOf W.ok W.cwd W.plugins url (.text t) with
          | error e' =>
            have := (C134_sibling_partial hW hD order ho (.text t) s h1).2 e' (by simp) (by rw [hw]; exact ho2)
            rw [show shIdOf (some t) = .text t from rfl, this] at hr
            cases hr
            exact ho2
          | ok p =>
            exfalso
            obtain ⟨names, ib, bk, hB, -⟩ := hI.good s h1
            rw [hw] at hB
            have hl := list_url hB
            have h3 := ho2
            rw [open_url hB] at h3
            cases h4 : openSheetBy names (.text t) with
            | error e' => rw [h4] at h3; cases h3
            | ok j =>
              rw [h4] at h3
              have e : p = (url, j) := by injection h3 with h3; exact h3.symm
              subst e
              have hn := hby rfl url i t rfl rfl names j hl ho2
              have hj := openSheetBy_lt h4
              obtain ⟨s', hs', -⟩ := C134_sibling_named hW hD order ho s h1 names (by rw [hw]; exact hl) j hj (.text t)
                (.inl (by rw [List.getElem?_eq_getElem hj] at hn; injection hn with hn; rw [hn]))
              rw [show shIdOf (some t) = .text t from rfl, hs'] at hr
              cases hr
  | ok s =>
    right
    have hsame := C134_same hW hD order ho wb (shIdOf sh) b hbg s hr
    cases wb with
    | some w =>
      obtain ⟨i, h1, h2⟩ := hsame
      exact ⟨s, s.wb, i, rfl, h1, by simp, h2⟩
    | none =>
      cases hb with
      | none => exact hsame.elim
      | some b0 url i h1 h2 =>
        rcases hsame with ⟨h3, h4⟩ | ⟨h3, h4, j, h5, h6⟩
        · subst h4
          cases sh with
          | some t => cases h3
          | none => exact ⟨s, url, i, rfl, rfl, by simp, h2⟩
        · cases sh with
          | none => exact absurd rfl h3
          | some t =>
            have hw : b0.wb = url := h2.1
            rw [hw] at h5
            exact ⟨s, s.wb, j, rfl, h5, by simp, h6⟩

theorem onDesk_andThen {α β : Type} (order : List SKey → List SKey) (p : Run α) (g : Except PyErr α → Run β) :
    ∀ D, (p.andThen g).onDesk W order D = (g (p.onDesk W order D).2).onDesk W order (p.onDesk W order D).1 := by
  induction p with
  | done r => intro D; rfl
  | fetch wb sh b k ih => intro D; exact ih _ _
  | add s ws ss k ih =>
    intro D
    simp only [Run.andThen, Run.onDesk]
    cases D.fac.add order s ws ss with
    | error e => exact ih _ _
    | ok f => exact ih _ _

theorem sheet_mono {g g' : List SheetObj} (h : ∀ s ∈ g, s ∈ g') {b : Option SheetObj} {b' : Option BookSheet} (hb : SameSheet g b b') :
    SameSheet g' b b' := by
  cases hb with
  | none => exact .none
  | some s url i h1 h2 => exact .some s url i (h s h1) h2

theorem lasso_mono {g g' : List SheetObj} (h : ∀ s ∈ g, s ∈ g') {l : Lasso SheetObj} {l' : Lasso BookSheet} (hl : SameLasso g l l') :
    SameLasso g' l l' := ⟨hl.1, sheet_mono h hl.2⟩

/-- The forms of the ranger. -/
private theorem makeCall_ends (R : RunRanger) (R' : Ranger BookSheet) 
    (hf : ∀ n, (R.filters n = none ∧ R'.filters n = none) ∨ ∃ f f', R.filters n = some f ∧ R'.filters n = some f' ∧ SameFilter W f f')
    {given : List SheetObj} {l : Lasso SheetObj} {l' : Lasso BookSheet} (hl : SameLasso given l l') (func : Str) (args : List Doc)
    (kwds : List (Str × Doc)) : EndsAs W given (R.makeCall l func args kwds) (R'.makeCall (.lasso l') func args kwds) := by
  intro order ho D given0 hg hD
  have hopts : l.opts = l'.opts := by rw [hl.1]; rfl
  unfold RunRanger.makeCall Ranger.makeCall
  simp only [hopts]
  cases l'.opts with
  | none => exact ⟨given0, fun _ h => h, hD, .error _⟩
  | some opts =>
    simp only
    rcases hf func with ⟨h1, h2⟩ | ⟨f, f', h1, h2, h3⟩
    · simp only [h1, h2]
      refine ⟨given0, fun _ h => h, hD, ?_⟩
      show SameEnd given0 (if _ then _ else _) _
      split
      · exact .lasso _ _ (lasso_mono hg hl)
      · exact .error _
    · simp only [h1, h2]
      rw [onDesk_andThen]
      obtain ⟨given1, k1, k2, k3⟩ := h3.func given l l' hl args (ddel kwds "lax".toList) order ho D given0 hg hD
      refine ⟨given1, k1, k2, ?_⟩
      revert k3
      generalize (f.func l args (ddel kwds "lax".toList)).onDesk W order D = q
      generalize f'.func l' args (ddel kwds "lax".toList) = r'
      intro k3
      obtain ⟨D1, r⟩ := q
      simp only [Run.onDesk, h3.desc]
      simp only at k3
      cases k3 with
      | lasso a a' ha => exact .lasso _ _ ha
      | other d =>
        simp only
        split
        · exact .error _
        · split
          · exact .other _
          · exact .error _
      | error e =>
        simp only
        split
        · exact .error _
        · split
          · exact .lasso _ _ (lasso_mono (fun s hs => k1 s (hg s hs)) hl)
          · exact .error _

private theorem runFilters_ends (R : RunRanger) (R' : Ranger BookSheet) 
    (hf : ∀ n, (R.filters n = none ∧ R'.filters n = none) ∨ ∃ f f', R.filters n = some f ∧ R'.filters n = some f' ∧ SameFilter W f f')
    {given : List SheetObj} {l : Lasso SheetObj} {l' : Lasso BookSheet} (hl : SameLasso given l l') :
    EndsAs W given (R.runFilters l) (R'.runFilters l') := by
  intro order ho D given0 hg hD
  have hc : l.callSpec = l'.callSpec := by rw [hl.1]; rfl
  unfold RunRanger.runFilters Ranger.runFilters
  rw [hc]
  cases l'.callSpec with
  | none => exact ⟨given0, fun _ h => h, hD, .lasso _ _ (lasso_mono hg hl)⟩
  | some c =>
    simp only
    rw [onDesk_andThen]
    obtain ⟨given1, k1, k2, k3⟩ := makeCall_ends R R' hf hl c.func c.args c.kwds order ho D given0 hg hD
    refine ⟨given1, k1, k2, ?_⟩
    revert k3
    generalize (R.makeCall l c.func c.args c.kwds).onDesk W order D = q
    generalize R'.makeCall (.lasso l') c.func c.args c.kwds = r'
    intro k3
    obtain ⟨D1, r⟩ := q
    simp only at k3
    cases k3 with
    | lasso a a' ha => exact .lasso _ _ ha
    | other d => exact .other _
    | error e => exact .error _

/-- C135, in part: a reference is lassoed on a factory that was used before as it is when sheets are opened anew each time: the same lasso or
error, whatever was fetched before, with any filters of which that is true. Missing: a sheet of the workbook of the sheet in the context that
is named by its number, see `C135_number_refuted`. -/
theorem C135_same_partial (hW : ProperBooks W) (R : RunRanger) (filters : Str → Option (FRec BookSheet))
    (hf : ∀ n, (R.filters n = none ∧ filters n = none) ∨ ∃ f f', R.filters n = some f ∧ filters n = some f' ∧ SameFilter W f f')
    (A : SheetApi SheetObj) (A' : SheetApi BookSheet) (hA : SameApi A A') (jsonLoads : Str → Option Doc) (xlref : Str)
    (given : List SheetObj) (ctx : Lasso SheetObj) (ctx' : Lasso BookSheet) (hctx : SameLasso given ctx ctx')
    (hby : ∀ l, (Ranger.mk (openAnew W) R.baseOpts filters).parseMerge jsonLoads xlref ctx' = .ok l → l.urlFile = none →
      ∀ u i t, l.sheet = some (u, i) → l.shName = some t → ByName W u t) :
    EndsAs W given (R.doLasso A jsonLoads xlref ctx) ((Ranger.mk (openAnew W) R.baseOpts filters).doLasso A' jsonLoads xlref ctx') := by
  intro order ho D given0 hg hD
  have hpm : (∃ e, (Ranger.mk (S := SheetObj) (fun _ _ _ => .error .valueError) R.baseOpts (fun _ => none)).parseMerge jsonLoads xlref ctx = .error e ∧
        (Ranger.mk (openAnew W) R.baseOpts filters).parseMerge jsonLoads xlref ctx' = .error e) ∨
      ∃ l l', (Ranger.mk (S := SheetObj) (fun _ _ _ => .error .valueError) R.baseOpts (fun _ => none)).parseMerge jsonLoads xlref ctx = .ok l ∧
        (Ranger.mk (openAnew W) R.baseOpts filters).parseMerge jsonLoads xlref ctx' = .ok l' ∧ SameLasso given l l' := by
    obtain ⟨h1, h2⟩ := hctx
    unfold Ranger.parseMerge
    cases parseXlref jsonLoads xlref with
    | error e =>
      left
      cases e <;> exact ⟨_, rfl, rfl⟩
    | ok p =>
      simp only
      split
      · exact .inl ⟨_, rfl, rfl⟩
      · right
        refine ⟨_, _, rfl, rfl, ?_, h2⟩
        rw [h1]
        rfl
  unfold RunRanger.doLasso Ranger.doLasso
  simp only
  rcases hpm with ⟨e, h1, h2⟩ | ⟨l, l', h1, h2, hl⟩
  · simp only [h1, h2]
    exact ⟨given0, fun _ h => h, hD, .error _⟩
  · have hby' := hby l' h2
    simp only [h1, h2]
    obtain ⟨hl1, hl2⟩ := hl
    generalize l.sheet = b at hl1 hl2
    subst hl1
    obtain ⟨given1, k1, k2, k3⟩ := fetch_anew hW hD ho l'.urlFile l'.shName (sheet_mono hg hl2) (fun h u i t h3 h4 => hby' h u i t h3 h4)
    simp only [Run.onDesk, onSheet]
    rcases k3 with ⟨e, h3, h4⟩ | ⟨s, url, i, h3, h4, h5, h6⟩
    · simp only [h3, h4]
      exact ⟨given1, k1, k2, .error _⟩
    · simp only [h3, h4]
      have hrr : ∀ l : Lasso SheetObj, resolveRect A l s = resolveRect A' (onSheet l (some (url, i))) (url, i) := by
        intro l
        unfold resolveRect
        rw [hA.states s url i h6, hA.margins s url i h6]
        rfl
      rw [hrr]
      simp only [onSheet]
      cases resolveRect A' { l' with sheet := some (url, i) } (url, i) with
      | error e => exact ⟨given1, k1, k2, .error _⟩
      | ok o =>
        cases o with
        | none =>
          obtain ⟨given2, j1, j2, j3⟩ := runFilters_ends (W := W) R (Ranger.mk (openAnew W) R.baseOpts filters) hf
            (l := onSheet { l' with st := none, nd := none, values := .list [] } (some s))
            (l' := { l' with sheet := some (url, i), st := none, nd := none, values := .list [] })
            (given := given1) ⟨rfl, .some s url i h5 h6⟩ order ho _ given1 (fun _ h => h) k2
          exact ⟨given2, fun s hs => j1 s (k1 s hs), j2, j3⟩
        | some p =>
          obtain ⟨st, nd⟩ := p
          simp only [hA.readRect s url i h6]
          cases A'.readRect (url, i) st nd with
          | error e => exact ⟨given1, k1, k2, .error _⟩
          | ok v =>
            obtain ⟨given2, j1, j2, j3⟩ := runFilters_ends (W := W) R (Ranger.mk (openAnew W) R.baseOpts filters) hf
              (l := onSheet { l' with st := some st, nd := nd, values := v.toDoc } (some s))
              (l' := { l' with sheet := some (url, i), st := some st, nd := nd, values := v.toDoc })
              (given := given1) ⟨rfl, .some s url i h5 h6⟩ order ho _ given1 (fun _ h => h) k2
            exact ⟨given2, fun s hs => j1 s (k1 s hs), j2, j3⟩

/-- C135. What `lasso()` returns, or the error that it raises, does not depend on what was done with the factory before, if no sheet is given in
the context. -/
theorem C135_history (hW : ProperBooks W) (installed : Str → Option RunFilter) (available : Option (Str → Option RunFilter))
    (filters : Str → Option (FRec BookSheet))
    (hf : ∀ n, (available.getD installed n = none ∧ filters n = none) ∨
      ∃ f f', available.getD installed n = some f ∧ filters n = some f' ∧ SameFilter W f f')
    (A : SheetApi SheetObj) (A' : SheetApi BookSheet) (hA : SameApi A A') (jsonLoads : Str → Option Doc) (xlref : Str)
    (baseOpts : Option (List (Str × Doc))) (ctx : Lasso SheetObj) (hctx : ctx.sheet = none) (order order2 : List SKey → List SKey)
    (ho : IsOrder order) (ho2 : IsOrder order2) (D D2 : Desk) (given given2 : List SheetObj) (hD : Serving W D given)
    (hD2 : Serving W D2 given2) :
    (D.lasso W order installed A jsonLoads xlref baseOpts available false ctx).2 =
      (D2.lasso W order2 installed A jsonLoads xlref baseOpts available false ctx).2 := by
  have hrel : SameLasso [] ctx (onSheet ctx none) := by
    refine ⟨rfl, ?_⟩
    rw [hctx]
    exact .none
  have key := C135_same_partial hW (makeDefaultRanger installed (match baseOpts with
    | none => some (defaultOpts none)
    | some o => some o) available) filters hf A A' hA jsonLoads xlref [] ctx (onSheet ctx none) hrel (by
      intro l hl _ u i t hs
      unfold Ranger.parseMerge at hl
      simp only at hl
      split at hl
      · cases hl
      · cases hl
      · split at hl
        · cases hl
        · cases hl
          cases hs)
  obtain ⟨g1, -, -, h1⟩ := key order ho D given (fun s hs => by cases hs) hD
  obtain ⟨g2, -, -, h2⟩ := key order2 ho2 D2 given2 (fun s hs => by cases hs) hD2
  unfold Desk.lasso
  simp only
  revert h1 h2
  generalize Run.onDesk W order _ D = q1
  generalize Run.onDesk W order2 _ D2 = q2
  generalize Ranger.doLasso _ A' jsonLoads xlref (onSheet ctx none) = r
  intro h1 h2
  obtain ⟨E1, q1⟩ := q1
  obtain ⟨E2, q2⟩ := q2
  simp only at h1 h2 ⊢
  cases h1 with
  | lasso l l' h =>
    cases h2 with
    | lasso l2 l2' h' =>
      have : l.values = l2.values := by rw [h.1, h'.1]; rfl
      simp only [lassoReturn, this, Bool.false_eq_true, if_false]
  | other d => cases h2; rfl
  | error e => cases h2; rfl

end

/-! ### A workbook -/

/-- The cells of sheet objects are those of their sheets: here, the number of the sheet in all cells. -/
private def cellsOfSheet : SheetApi BookSheet where
  states _ := .ok ⟨2, 2, fun _ _ => true⟩
  margins _ := .ok (⟨0, 0⟩, ⟨1, 1⟩)
  readRect s _ _ := .ok (.scalar (.int s.2))

private def cellsOfObj : SheetApi SheetObj where
  states _ := .ok ⟨2, 2, fun _ _ => true⟩
  margins _ := .ok (⟨0, 0⟩, ⟨1, 1⟩)
  readRect s _ _ := .ok (.scalar (.int s.number))

private theorem sameCells : SameApi cellsOfObj cellsOfSheet := by
  refine ⟨fun _ _ _ _ => rfl, fun _ _ _ _ => rfl, ?_⟩
  rintro s url i ⟨-, name, h⟩
  funext st nd
  simp only [cellsOfObj, cellsOfSheet, SheetObj.number, h, Int.toNat_natCast]

/-- A filter that takes its value from sheet "B" of the workbook, in both forms. -/
private def fromB : RunFilter where
  func l _ _ := .fetch (some "a.xls".toList) (shIdOf (some "B".toList)) l.sheet (fun r => match r with
    | .error e => .done (.error e)
    | .ok s => .done ((cellsOfObj.readRect s ⟨0, 0⟩ none).map (fun v => .lasso { l with sheet := some s, values := v.toDoc })))
  desc := true

private def fromB' : FRec BookSheet where
  func l _ _ := match openAnew Wx (some "a.xls".toList) (some "B".toList) l.sheet with
    | .error e => .error e
    | .ok s => (cellsOfSheet.readRect s ⟨0, 0⟩ none).map (fun v => .lasso { l with sheet := some s, values := v.toDoc })
  desc := true

private theorem sameFromB : SameFilter Wx fromB fromB' := by
  refine ⟨rfl, ?_⟩
  intro given l l' hl args kwds order ho D given0 hg hD
  obtain ⟨given1, k1, k2, k3⟩ := fetch_anew properWx hD ho (some "a.xls".toList) (some "B".toList) (sheet_mono hg hl.2) (fun h => nomatch h)
  simp only [fromB, fromB', Run.onDesk]
  rcases k3 with ⟨e, h3, h4⟩ | ⟨s, url, i, h3, h4, h5, h6⟩
  · simp only [h3, h4]
    exact ⟨given1, k1, k2, .error _⟩
  · simp only [h3, h4, sameCells.readRect s url i h6]
    refine ⟨given1, k1, k2, .lasso _ _ ⟨?_, .some s url i h5 h6⟩⟩
    conv => lhs; rw [hl.1]
    rfl

private def withB (n : Str) : Option RunFilter := if n = "b".toList then some fromB else none
private def withB' (n : Str) : Option (FRec BookSheet) := if n = "b".toList then some fromB' else none

/-- Filters as asked for. -/
example : ∀ n, (withB n = none ∧ withB' n = none) ∨ ∃ f f', withB n = some f ∧ withB' n = some f' ∧ SameFilter Wx f f' := by
  intro n
  unfold withB withB'
  split
  · exact .inr ⟨_, _, rfl, rfl, sameFromB⟩
  · exact .inl ⟨rfl, rfl⟩

/-- The value returned, if it is a number. -/
private def numberEnd : Except PyErr (FRes SheetObj) → Option Int
  | .ok (.other (.int i)) => some i
  | _ => none

/-- A call with the filter, on a new factory and on a used one. -/
example : numberEnd (Desk.new.lasso Wx id withB cellsOfObj (fun _ => some (.list [.str ['b']])) "a.xls#A!A1:[\"b\"]".toList none none false {}).2 = some 1 ∧
    numberEnd (D2.lasso Wx id withB cellsOfObj (fun _ => some (.list [.str ['b']])) "a.xls#A!A1:[\"b\"]".toList none none false {}).2 = some 1 := by
  decide +kernel

/-- A sheet named by its name, in the workbook of the sheet in the context. -/
example : SameLasso [sA', sA] { sheet := some sA } { sheet := some ("file:///w/a.xls".toList, 0) } ∧ ByName Wx "file:///w/a.xls".toList "B".toList ∧
    numberEnd (D2.lasso Wx id (fun _ => none) cellsOfObj (fun _ => none) "#B!A1".toList none none false { sheet := some sA }).2 = some 1 := by
  refine ⟨⟨rfl, .some _ _ _ (by simp) ⟨rfl, _, rfl⟩⟩, ?_, by decide +kernel⟩
  intro names i hn hi
  have e1 : listSheetNames Wx.ok Wx.cwd Wx.plugins "file:///w/a.xls".toList = .ok ["A".toList, "B".toList] := by rfl
  have e2 : openSheetOf Wx.ok Wx.cwd Wx.plugins "file:///w/a.xls".toList (.text "B".toList) = .ok ("file:///w/a.xls".toList, 1) := by rfl
  rw [e1] at hn
  rw [e2] at hi
  injection hn with hn
  injection hi with hi
  have hi : 1 = i := congrArg Prod.snd hi
  subst hn hi
  rfl

private theorem end1 : (D1.lasso Wx id (fun _ => none) cellsOfObj (fun _ => none) "#0!A1".toList none none false { sheet := some sA }).2 =
    .ok (.other (.int 0)) := by
  have h : numberEnd (D1.lasso Wx id (fun _ => none) cellsOfObj (fun _ => none) "#0!A1".toList none none false { sheet := some sA }).2 = some 0 := by
    decide +kernel
  revert h
  generalize (D1.lasso Wx id (fun _ => none) cellsOfObj (fun _ => none) "#0!A1".toList none none false { sheet := some sA }).2 = r
  intro h
  unfold numberEnd at h
  split at h
  · cases h; rfl
  · cases h

private theorem end2 : (D2.lasso Wx id (fun _ => none) cellsOfObj (fun _ => none) "#0!A1".toList none none false { sheet := some sA }).2 =
    .error .valueError := by
  have h : (match (D2.lasso Wx id (fun _ => none) cellsOfObj (fun _ => none) "#0!A1".toList none none false { sheet := some sA }).2 with
      | .error .valueError => true | _ => false) = true := by decide +kernel
  revert h
  generalize (D2.lasso Wx id (fun _ => none) cellsOfObj (fun _ => none) "#0!A1".toList none none false { sheet := some sA }).2 = r
  intro h
  split at h
  · rfl
  · cases h

/-- C135. With the same sheet in the context and the same reference, which names the sheet by its number, `lasso()` returns a value or fails
depending on what was fetched before. -/
theorem C135_number_refuted : ∃ (W : Surroundings) (A : SheetApi SheetObj) (A' : SheetApi BookSheet) (D D' : Desk) (given given' : List SheetObj)
    (s : SheetObj) (xlref : Str), ProperBooks W ∧ SameApi A A' ∧ Serving W D given ∧ Serving W D' given' ∧ s ∈ given ∧ s ∈ given' ∧
    (D.lasso W id (fun _ => none) A (fun _ => none) xlref none none false { sheet := some s }).2 = .ok (.other (.int 0)) ∧
    (D'.lasso W id (fun _ => none) A (fun _ => none) xlref none none false { sheet := some s }).2 = .error .valueError :=
  ⟨Wx, cellsOfObj, cellsOfSheet, D1, D2, [sA], [sA', sA], sA, "#0!A1".toList, properWx, sameCells, sv1, sv2, by simp, by simp, end1, end2⟩

end Props
