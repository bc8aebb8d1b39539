import Verif.Spec.SheetNaming
import Verif.Props.SheetNames
import Verif.Props.LassoDesk
import Verif.Props.PlainLasso
/-
C160: a sheet is captured alike, however it is named.
-/
namespace Props
open Py Model Spec

variable {W : Surroundings}

private theorem first_at {names : List Str} (hn : names.Nodup) {i : Nat} {t : Str} (h : names[i]? = some t) :
    ∃ b a, names = b ++ t :: a ∧ t ∉ b ∧ b.length = i := by
  obtain ⟨hi, rfl⟩ := List.getElem?_eq_some_iff.1 h
  have e : names = names.take i ++ names[i] :: names.drop (i + 1) := by
    rw [List.getElem_cons_drop, List.take_append_drop]
  refine ⟨_, _, e, ?_, by rw [List.length_take]; omega⟩
  intro hm
  rw [e] at hn
  exact (List.nodup_append.1 hn).2.2 _ hm _ (List.mem_cons_self ..) rfl

private theorem opens_at {names : List Str} (hn : names.Nodup) {i : Nat} {id : Option Str} (h : Designates names i id) :
    openSheetBy names (shIdOf id) = .ok i := by
  cases h with
  | name t ht =>
    obtain ⟨b, a, rfl, hb, rfl⟩ := first_at hn ht
    exact C64_name b a t hb
  | number t n hi hp hni ht =>
    have := (C64_text_index names t ht).1 n hp
    simp only [shIdOf]
    rw [this]
    exact ((C64_index names n).2.1 i).2 ⟨hi, hni⟩
  | first hi hne =>
    subst hi
    simp only [shIdOf]
    rw [(C64_index names 0).1]
    exact ((C64_index names 0).2.1 0).2 ⟨List.length_pos_iff.2 hne, .inl rfl⟩

/-- C160. Two ways of naming a workbook by the same URL and one of its sheets open the same sheet of it. -/
theorem C160_opened (w w' : Str) (hurl : path2url W.ok W.cwd w = path2url W.ok W.cwd w') (names : List Str) (hn : names.Nodup)
    (hl : listSheetNames W.ok W.cwd W.plugins w = .ok names) (i : Nat) (id id' : Option Str)
    (h : Designates names i id) (h' : Designates names i id') :
    ∃ url, openSheetOf W.ok W.cwd W.plugins w (shIdOf id) = .ok (url, i) ∧
      openSheetOf W.ok W.cwd W.plugins w' (shIdOf id') = .ok (url, i) := by
  have hub : urlAndBackend W.ok W.cwd W.plugins w' = urlAndBackend W.ok W.cwd W.plugins w := by
    unfold urlAndBackend; rw [hurl]
  unfold listSheetNames at hl
  cases e : urlAndBackend W.ok W.cwd W.plugins w with
  | error x => rw [e] at hl; cases hl
  | ok q =>
    obtain ⟨url, p⟩ := q
    rw [e] at hl
    simp only at hl
    refine ⟨url, ?_, ?_⟩
    · simp only [openSheetOf, e, hl, opens_at hn h]
    · simp only [openSheetOf, hub, e, hl, opens_at hn h']

private theorem parse_plain {S : Type} (R : Ranger S) (jsonLoads : Str → Option Doc) (u : Str) (r : RefText)
    (hu : '#' ∉ u) (hpl : NoCurly (u ++ r.text)) (h : r.Ok) (hf : r.filt = none) (hne : r.text ≠ []) :
    ∃ l, R.parseMerge jsonLoads (u ++ '#' :: r.text) {} = .ok l ∧ l.callSpec = none ∧ l.sheet = none ∧
      l.urlFile = (if u = [] then none else some u) ∧ l.shName = r.sheetName := by
  have hpr : NoCurly r.text := ⟨fun e => hpl.1 (by simp [e]), fun e => hpl.2 (by simp [e])⟩
  have hpu : NoCurly u := ⟨fun e => hpl.1 (by simp [e]), fun e => hpl.2 (by simp [e])⟩
  have hfrag := C41_round_trip jsonLoads r h hf
  have hparse := C76_parts jsonLoads u r.text hu hne _ (by rw [straight_plain hpr]; exact hfrag)
  rw [straight_plain hpu] at hparse
  have ho : ∀ x : Option Str, overlay x none = x := by intro x; cases x <;> rfl
  unfold Ranger.parseMerge
  rw [hparse]
  simp only [Option.isSome_none, Bool.false_eq_true, if_false, ho]
  exact ⟨_, rfl, rfl, rfl, rfl, rfl⟩

private theorem no_filters (R : RunRanger) (A : SheetApi SheetObj) (jsonLoads : Str → Option Doc) (x : Str) (l : Lasso SheetObj)
    (h : (Ranger.mk (S := SheetObj) (fun _ _ _ => .error .valueError) R.baseOpts (fun _ => none)).parseMerge jsonLoads x {} = .ok l)
    (hc : l.callSpec = none) :
    R.doLasso A jsonLoads x {} = RunRanger.doLasso { R with filters := fun _ => none } A jsonLoads x {} := by
  unfold RunRanger.doLasso
  simp only [h]
  congr 1
  funext r
  cases r with
  | error e => rfl
  | ok s =>
    simp only
    cases resolveRect A { l with sheet := some s } s with
    | error e => rfl
    | ok o =>
      cases o with
      | none => simp only [RunRanger.runFilters, hc]
      | some p =>
        obtain ⟨st, nd⟩ := p
        simp only
        cases A.readRect s st nd with
        | error e => rfl
        | ok v => simp only [RunRanger.runFilters, hc]

private theorem pure_same (baseOpts : List (Str × Doc)) (A : SheetApi BookSheet) (jsonLoads : Str → Option Doc) (w w' : Str) (r r' : RefText)
    (items : List ExpItem) (hs : SameButSheet r r' items) (hw : w ≠ []) (hw' : w' ≠ []) (hu : '#' ∉ w) (hu' : '#' ∉ w')
    (hr : r.Ok ∧ r.text ≠ [] ∧ NoCurly (w ++ r.text)) (hr' : r'.Ok ∧ r'.text ≠ [] ∧ NoCurly (w' ++ r'.text)) (b : BookSheet)
    (ho : openSheetOf W.ok W.cwd W.plugins w (shIdOf r.sheetName) = .ok b)
    (ho' : openSheetOf W.ok W.cwd W.plugins w' (shIdOf r'.sheetName) = .ok b) :
    (∃ e, (Ranger.mk (openAnew W) baseOpts (fun _ => none)).doLasso A jsonLoads (w ++ '#' :: r.text) {} = .error e ∧
      (Ranger.mk (openAnew W) baseOpts (fun _ => none)).doLasso A jsonLoads (w' ++ '#' :: r'.text) {} = .error e) ∨
    ∃ l l', (Ranger.mk (openAnew W) baseOpts (fun _ => none)).doLasso A jsonLoads (w ++ '#' :: r.text) {} = .ok (.lasso l) ∧
      (Ranger.mk (openAnew W) baseOpts (fun _ => none)).doLasso A jsonLoads (w' ++ '#' :: r'.text) {} = .ok (.lasso l') ∧
      l.values = l'.values ∧ l.st = l'.st ∧ l.nd = l'.nd := by
  obtain ⟨mk, hmk, e⟩ := doLasso_plain (Ranger.mk (openAnew W) baseOpts (fun _ => none)) A jsonLoads w r items none none b hu hr.2.2 hr.1 hs.filt
    hr.2.1 hs.exp (by rw [if_neg hw]; exact ho)
  obtain ⟨mk', hmk', e'⟩ := doLasso_plain (Ranger.mk (openAnew W) baseOpts (fun _ => none)) A jsonLoads w' r' items none none b hu' hr'.2.2 hr'.1 hs.filt'
    hr'.2.1 hs.exp' (by rw [if_neg hw']; exact ho')
  rw [hs.first, hs.second] at e'
  have e2 : (Ranger.mk (openAnew W) baseOpts (fun _ => none)).doLasso A jsonLoads (w ++ '#' :: r.text) {} = _ := e
  have e2' : (Ranger.mk (openAnew W) baseOpts (fun _ => none)).doLasso A jsonLoads (w' ++ '#' :: r'.text) {} = _ := e'
  rw [e2, e2']
  unfold plainOutcome
  cases rectOn A b r.first r.second (items.map ExpItem.meaning) none with
  | ok q =>
    obtain ⟨st, nd⟩ := q
    simp only
    cases A.readRect b st nd with
    | error x => exact .inl ⟨x, rfl, rfl⟩
    | ok v =>
      refine .inr ⟨_, _, rfl, rfl, ?_, ?_, ?_⟩
      · rw [(hmk _ _ _).2.2, (hmk' _ _ _).2.2]
      · rw [(hmk _ _ _).1, (hmk' _ _ _).1]
      · rw [(hmk _ _ _).2.1, (hmk' _ _ _).2.1]
  | error x =>
    by_cases hxe : x = .emptyCapture
    · subst hxe
      simp only
      split
      · exact .inl ⟨_, rfl, rfl⟩
      · refine .inr ⟨_, _, rfl, rfl, ?_, ?_, ?_⟩
        · rw [(hmk _ _ _).2.2, (hmk' _ _ _).2.2]
        · rw [(hmk _ _ _).1, (hmk' _ _ _).1]
        · rw [(hmk _ _ _).2.1, (hmk' _ _ _).2.1]
    · refine .inl ⟨if r.second.isNone then .typeError else .valueError, ?_, ?_⟩ <;> (cases x <;> first | rfl | exact absurd rfl hxe)

private theorem ends_plain (hW : ProperBooks W) (R : RunRanger) (A : SheetApi SheetObj) (A' : SheetApi BookSheet) (hA : SameApi A A')
    (jsonLoads : Str → Option Doc) (w : Str) (r : RefText) (hu : '#' ∉ w) (hw : w ≠ []) (hr : r.Ok ∧ r.text ≠ [] ∧ NoCurly (w ++ r.text))
    (hf : r.filt = none) : EndsAs W [] (R.doLasso A jsonLoads (w ++ '#' :: r.text) {})
      ((Ranger.mk (openAnew W) R.baseOpts (fun _ => none)).doLasso A' jsonLoads (w ++ '#' :: r.text) {}) := by
  obtain ⟨l, hl, hc, -, -⟩ := parse_plain (Ranger.mk (S := SheetObj) (fun _ _ _ => .error .valueError) R.baseOpts (fun _ => none)) jsonLoads w r hu
    hr.2.2 hr.1 hf hr.2.1
  rw [no_filters R A jsonLoads _ l hl hc]
  refine C135_same_partial hW { R with filters := fun _ => none } (fun _ => none) (fun n => .inl ⟨rfl, rfl⟩) A A' hA jsonLoads _ [] {} {}
    ⟨rfl, .none⟩ ?_
  intro l' hl' hn
  obtain ⟨l2, hl2, -, -, hurl, -⟩ := parse_plain (Ranger.mk (openAnew W) R.baseOpts (fun _ => none)) jsonLoads w r hu
    hr.2.2 hr.1 hf hr.2.1
  have : l2 = l' := Except.ok.inj (hl2.symm.trans hl')
  subst this
  rw [hurl, if_neg hw] at hn
  cases hn

/-- C160. References without filters that name the same sheet of the same workbook, in whichever way, and are else the same,
are lassoed alike: `lasso()` returns the same value, or the same rectangle and value in the lasso, or raises the same error,
whatever was fetched from the factories before. -/
theorem C160_alike (hW : ProperBooks W) (installed : Str → Option RunFilter) (available : Option (Str → Option RunFilter))
    (A : SheetApi SheetObj) (A' : SheetApi BookSheet) (hA : SameApi A A') (jsonLoads : Str → Option Doc)
    (baseOpts : Option (List (Str × Doc))) (w w' : Str) (hw : w ≠ []) (hw' : w' ≠ []) (hu : '#' ∉ w) (hu' : '#' ∉ w')
    (hurl : path2url W.ok W.cwd w = path2url W.ok W.cwd w') (names : List Str) (hn : names.Nodup)
    (hl : listSheetNames W.ok W.cwd W.plugins w = .ok names) (i : Nat) (r r' : RefText) (items : List ExpItem) (hs : SameButSheet r r' items)
    (h : Designates names i r.sheetName) (h' : Designates names i r'.sheetName)
    (hr : r.Ok ∧ r.text ≠ [] ∧ NoCurly (w ++ r.text)) (hr' : r'.Ok ∧ r'.text ≠ [] ∧ NoCurly (w' ++ r'.text))
    (order order2 : List SKey → List SKey) (ho : IsOrder order) (ho2 : IsOrder order2) (D D2 : Desk) (given given2 : List SheetObj)
    (hD : Serving W D given) (hD2 : Serving W D2 given2) :
    (D.lasso W order installed A jsonLoads (w ++ '#' :: r.text) baseOpts available false {}).2 =
      (D2.lasso W order2 installed A jsonLoads (w' ++ '#' :: r'.text) baseOpts available false {}).2 ∧
    ((∃ e, (D.lasso W order installed A jsonLoads (w ++ '#' :: r.text) baseOpts available true {}).2 = .error e ∧
      (D2.lasso W order2 installed A jsonLoads (w' ++ '#' :: r'.text) baseOpts available true {}).2 = .error e) ∨
    ∃ l l', (D.lasso W order installed A jsonLoads (w ++ '#' :: r.text) baseOpts available true {}).2 = .ok (.lasso l) ∧
      (D2.lasso W order2 installed A jsonLoads (w' ++ '#' :: r'.text) baseOpts available true {}).2 = .ok (.lasso l') ∧
      l.st = l'.st ∧ l.nd = l'.nd ∧ l.values = l'.values) := by
  obtain ⟨url, o1, o2⟩ := C160_opened w w' hurl names hn hl i _ _ h h'
  obtain ⟨R, hR⟩ : ∃ R : RunRanger, ∀ (D : Desk) (order : List SKey → List SKey) (x : Str) (b : Bool),
      (D.lasso W order installed A jsonLoads x baseOpts available b {}).2 = (match ((R.doLasso A jsonLoads x {}).onDesk W order D).2 with
        | .error e => .error e
        | .ok l => lassoReturn b l) := ⟨_, fun _ _ _ _ => rfl⟩
  obtain ⟨g1, -, -, k1⟩ := ends_plain hW R A A' hA jsonLoads w r hu hw hr hs.filt order ho D given (fun s hs => by cases hs) hD
  obtain ⟨g2, -, -, k2⟩ := ends_plain hW R A A' hA jsonLoads w' r' hu' hw' hr' hs.filt' order2 ho2 D2 given2 (fun s hs => by cases hs) hD2
  have hp := pure_same R.baseOpts A' jsonLoads w w' r r' items hs hw hw' hu hu' hr hr' (url, i) o1 o2
  rw [hR, hR, hR, hR]
  revert k1 k2 hp
  generalize Run.onDesk W order _ D = q1
  generalize Run.onDesk W order2 _ D2 = q2
  generalize Ranger.doLasso _ A' jsonLoads (w ++ '#' :: r.text) {} = p1
  generalize Ranger.doLasso _ A' jsonLoads (w' ++ '#' :: r'.text) {} = p2
  intro k1 k2 hp
  obtain ⟨E1, q1⟩ := q1
  obtain ⟨E2, q2⟩ := q2
  simp only at k1 k2 ⊢
  rcases hp with ⟨e, rfl, rfl⟩ | ⟨l, l', rfl, rfl, e1, e2, e3⟩
  · cases k1; cases k2
    exact ⟨rfl, .inl ⟨_, rfl, rfl⟩⟩
  · cases k1 with
    | lasso a _ ha =>
      cases k2 with
      | lasso b _ hb =>
        have v1 : a.values = l.values := by rw [ha.1]; rfl
        have v2 : b.values = l'.values := by rw [hb.1]; rfl
        have s1 : a.st = l.st := by rw [ha.1]; rfl
        have s2 : b.st = l'.st := by rw [hb.1]; rfl
        have n1 : a.nd = l.nd := by rw [ha.1]; rfl
        have n2 : b.nd = l'.nd := by rw [hb.1]; rfl
        have hv : a.values = b.values := by rw [v1, v2, e1]
        refine ⟨by simp only [lassoReturn, hv, Bool.false_eq_true, if_false], .inr ⟨a, b, rfl, rfl, by rw [s1, s2, e2], by rw [n1, n2, e3], hv⟩⟩

/-! ### A workbook of two sheets -/

/-- `#A!` and `#:` capture the same. -/
example : SameButSheet ⟨[], some "A".toList, none, none, none⟩ ⟨[], none, none, some (none, none), none⟩ [] ∧
    (⟨[], some "A".toList, none, none, none⟩ : RefText).text = "A!".toList ∧
    (⟨[], none, none, some (none, none), none⟩ : RefText).text = ":".toList := ⟨⟨rfl, rfl, rfl, rfl, rfl, rfl⟩, rfl, rfl⟩

private def byName : RefText := ⟨[], some "B".toList, some ⟨.a1 "A".toList "2".toList, none⟩, none, none⟩
private def byNumber : RefText := ⟨[], some "1".toList, some ⟨.a1 "A".toList "2".toList, none⟩, none, none⟩

example : byName.text = "B!A2".toList ∧ byNumber.text = "1!A2".toList := ⟨rfl, rfl⟩

example : SameButSheet byName byNumber [] ∧ Designates ["A".toList, "B".toList] 1 byName.sheetName ∧
    Designates ["A".toList, "B".toList] 1 byNumber.sheetName ∧ Designates ["A".toList, "B".toList] 0 none ∧
    Designates ["A".toList, "B".toList] 1 (some "-1".toList) :=
  ⟨⟨rfl, rfl, rfl, rfl, rfl, rfl⟩, .name _ rfl, .number _ 1 (by decide) rfl (.inl rfl) (by decide), .first rfl (by decide),
    .number _ (-1) (by decide) rfl (.inr rfl) (by decide)⟩

example : path2url Wx.ok Wx.cwd "a.xls".toList = path2url Wx.ok Wx.cwd "./a.xls".toList ∧
    path2url Wx.ok Wx.cwd "a.xls".toList = path2url Wx.ok Wx.cwd "file:///w/a.xls".toList ∧
    listSheetNames Wx.ok Wx.cwd Wx.plugins "a.xls".toList = .ok ["A".toList, "B".toList] := ⟨by rfl, by rfl, by rfl⟩

private def numbersOfSheet : SheetApi BookSheet where
  states _ := .ok ⟨2, 2, fun _ _ => true⟩
  margins _ := .ok (⟨0, 0⟩, ⟨1, 1⟩)
  readRect s _ _ := .ok (.scalar (.int s.2))

private def numbersOfObj : SheetApi SheetObj where
  states _ := .ok ⟨2, 2, fun _ _ => true⟩
  margins _ := .ok (⟨0, 0⟩, ⟨1, 1⟩)
  readRect s _ _ := .ok (.scalar (.int s.number))

private theorem refs_ok : (byName.Ok ∧ byName.text ≠ [] ∧ NoCurly ("a.xls".toList ++ byName.text)) ∧
    (byNumber.Ok ∧ byNumber.text ≠ [] ∧ NoCurly ("./a.xls".toList ++ byNumber.text)) := by
  have hc : CellText.Ok false (.a1 "A".toList "2".toList) := ⟨.inl ⟨by decide, by decide⟩, .inl ⟨'2', [], rfl, by decide, by decide, by simp⟩⟩
  refine ⟨⟨⟨by simp [Spaces, byName], ?_, (by intro e he; cases he; exact ⟨hc, trivial⟩), (by intro e ex he; cases he), (by intro nd ex he; cases he),
    trivial, by simp [byName]⟩, by decide, by unfold NoCurly; decide⟩, ⟨⟨by simp [Spaces, byNumber], ?_, (by intro e he; cases he; exact ⟨hc, trivial⟩),
    (by intro e ex he; cases he), (by intro nd ex he; cases he), trivial, by simp [byNumber]⟩, by decide, by unfold NoCurly; decide⟩⟩
  · exact ⟨by decide, by intro x hx; cases hx; decide⟩
  · exact ⟨by decide, by intro x hx; cases hx; decide⟩

/-- A new factory, and one from which a sheet was fetched before. -/
example : (Desk.new.lasso Wx id (fun _ => none) numbersOfObj (fun _ => none) "a.xls#B!A2".toList none none false {}).2 =
    (D1.lasso Wx id (fun _ => none) numbersOfObj (fun _ => none) "./a.xls#1!A2".toList none none false {}).2 :=
  (C160_alike properWx (fun _ => none) none numbersOfObj numbersOfSheet ⟨fun _ _ _ _ => rfl, fun _ _ _ _ => rfl, by
      rintro s url i ⟨-, name, h⟩
      funext st nd
      simp only [numbersOfObj, numbersOfSheet, SheetObj.number, h, Int.toNat_natCast]⟩
    (fun _ => none) none "a.xls".toList "./a.xls".toList (by decide) (by decide) (by decide) (by decide) (by rfl)
    ["A".toList, "B".toList] (by decide) (by rfl) 1 byName byNumber [] ⟨rfl, rfl, rfl, rfl, rfl, rfl⟩ (.name _ rfl)
    (.number _ 1 (by decide) rfl (.inl rfl) (by decide)) refs_ok.1 refs_ok.2 id id idOrder idOrder Desk.new D1 [] [sA] .new sv1).1

end Props
