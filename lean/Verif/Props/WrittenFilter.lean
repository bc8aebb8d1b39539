import Verif.Spec.WrittenFilter
import Verif.Model.RedimArgs
import Verif.Props.Reference
import Verif.Props.Filters
import Verif.Props.Redim
import Verif.Props.FilterArgs
import Verif.Props.ParseSound
import Verif.Lemmas.DocEq
/-
C156: filters written after references.
-/
namespace Props
open Py Model Spec Lemmas

/-- What comes of a call is what the call comes to, with `ValueError` for whatever it raises. -/
theorem comes_makeCall {S : Type} (R : Ranger S) (l : Lasso S) (o : Opts) (ho : l.opts = some o) (f : Str) (a : List Doc)
    (k : List (Str × Doc)) : Comes R o l f a k (match R.makeCall (.lasso l) f a k with | .error _ => .error .valueError | .ok r => .ok r) := by
  simp only [Ranger.makeCall, ho]
  have hw : ddel k "lax".toList = withoutLax k := rfl
  have hl := lax_iff o k
  have hv := opts_get_truthy o "verbose".toList
  cases hf : R.filters f with
  | none =>
    by_cases h : Lax o k
    · simp only [hl.2 h, if_true]; exact .absentLax hf h
    · simp only [Bool.eq_false_iff.2 (fun e => h (hl.1 e)), Bool.false_eq_true, if_false]; exact .absent hf h
  | some rec =>
    simp only [hw]
    have hnv : ¬ (Verbose o ∧ rec.desc = false) → ((o.get "verbose".toList (.bool false)).truthy && !rec.desc) = false := by
      intro h
      rw [Bool.and_eq_false_iff, Bool.eq_false_iff]
      by_cases hv' : Verbose o
      · right
        cases hd : rec.desc with
        | true => rfl
        | false => exact absurd ⟨hv', hd⟩ h
      · exact .inl (fun e => hv' (hv.1 e))
    have hyv : Verbose o ∧ rec.desc = false → ((o.get "verbose".toList (.bool false)).truthy && !rec.desc) = true := by
      rintro ⟨h1, h2⟩
      rw [hv.2 h1, h2]; rfl
    cases hr : rec.func l a (withoutLax k) with
    | error e =>
      by_cases hvb : Verbose o ∧ rec.desc = false
      · simp only [hyv hvb, if_true]; exact .failed rec hf (by rw [hr]; exact fun _ h => nomatch h) (.inr hvb)
      · simp only [hnv hvb, Bool.false_eq_true, if_false]
        by_cases h : Lax o k
        · simp only [hl.2 h, if_true]; exact .failedLax rec e hf hr h hvb
        · simp only [Bool.eq_false_iff.2 (fun e => h (hl.1 e)), Bool.false_eq_true, if_false]
          exact .failed rec hf (by rw [hr]; exact fun _ h => nomatch h) (.inl h)
    | ok x =>
      cases x with
      | lasso l' => exact .done rec l' hf hr
      | other d =>
        by_cases hvb : Verbose o ∧ rec.desc = false
        · simp only [hyv hvb, if_true]; exact .failed rec hf (by rw [hr]; exact fun _ h => nomatch h) (.inr hvb)
        · simp only [hnv hvb, Bool.false_eq_true, if_false]
          by_cases h : Lax o k
          · simp only [hl.2 h, if_true]; exact .otherLax rec d hf hr h hvb
          · simp only [Bool.eq_false_iff.2 (fun e => h (hl.1 e)), Bool.false_eq_true, if_false]
            exact .failed rec hf (by rw [hr]; exact fun _ h => nomatch h) (.inl h)

private theorem comes_runFilters {S : Type} (R : Ranger S) (l : Lasso S) (o : Opts) (ho : l.opts = some o) (f : Str) (a : List Doc)
    (k : List (Str × Doc)) (hc : l.callSpec = some ⟨f, a, k⟩) : Comes R o l f a k (R.runFilters l) := by
  have h := comes_makeCall R l o ho f a k
  unfold Ranger.runFilters
  rw [hc]
  cases hm : R.makeCall (.lasso l) f a k with
  | error e => simp only [hm] at h ⊢; exact h
  | ok r => simp only [hm] at h ⊢; exact h

section
variable {S : Type} (R : Ranger S) (A : SheetApi S) (jsonLoads : Str → Option Doc) (u : Str) (r : RefText)
  (items : List ExpItem) (sheet0 : Option S) (base : Option Coords) (s : S) (m : Mat) (up dn : Coords) (ws js : Str) (d : Doc)
  (o : Option (List (Str × Doc)))

private theorem parsed (hu : '#' ∉ u) (hpl : NoCurly (u ++ r.text)) (h : r.Ok) (hf : r.filt = some (ws, js)) (hd : jsonLoads js = some d)
    (cs : Option (Str × List Doc × List (Str × Doc))) (hform : FilterForm d o cs) :
    parseXlref jsonLoads (u ++ '#' :: r.text) = .ok ⟨if u = [] then none else some u,
      ⟨r.sheetName, (edgesOf r.st r.range).1, (edgesOf r.st r.range).2, r.range.bind (·.2), o, cs.map (fun p => ⟨p.1, p.2.1, p.2.2⟩)⟩,
      straight (u ++ '#' :: r.text), none⟩ := by
  have hpr : NoCurly r.text := ⟨fun e => hpl.1 (by simp [e]), fun e => hpl.2 (by simp [e])⟩
  have hpu : NoCurly u := ⟨fun e => hpl.1 (by simp [e]), fun e => hpl.2 (by simp [e])⟩
  have hne : r.text ≠ [] := by
    unfold RefText.text
    rw [hf]
    simp [filtText]
  have hfrag := C41_round_trip_filters jsonLoads r h ws js hf d hd o cs hform
  have hparse := C76_parts jsonLoads u r.text hu hne _ (by rw [straight_plain hpr]; exact hfrag)
  rw [straight_plain hpu] at hparse
  exact hparse

/-- C156. A filter written after a reference is called once, with the arguments written, on what the reference captures without it (see
`C86_captures`): the sheet, rectangle and values, under the options written, or else those of the ranger; what comes of it is what the call comes to. An empty
capture is an empty list for the filter. If nothing can be captured, no filter is called.
Missing for the full property: lax calls of filters that change values in place before they fail, which are taken here to leave them as they were,
see `C154_cells` and `C154_refuted`. -/
theorem C156_called_partial (hu : '#' ∉ u) (hpl : NoCurly (u ++ r.text)) (h : r.Ok) (hf : r.filt = some (ws, js)) (hd : jsonLoads js = some d)
    (f : Str) (a : List Doc) (k : List (Str × Doc)) (hform : FilterForm d o (some (f, a, k)))
    (hx : r.Expands items) (hfetch : R.fetch (if u = [] then none else some u) r.sheetName sheet0 = .ok s)
    (hstates : A.states s = .ok m) (hmargins : A.margins s = .ok (up, dn)) :
    (∀ st nd v, resolveCaptureRect m up dn r.first r.second (items.map ExpItem.meaning) base = .ok (st, nd) → A.readRect s st nd = .ok v →
      ∃ l, CapturedAs l s (some st) nd v.toDoc base [o.getD R.baseOpts] ∧ Comes R [o.getD R.baseOpts] l f a k
        (R.doLasso A jsonLoads (u ++ '#' :: r.text) { sheet := sheet0, baseCoords := base })) ∧
    (resolveCaptureRect m up dn r.first r.second (items.map ExpItem.meaning) base = .error .emptyCapture →
      dget (o.getD R.baseOpts) "no_empty".toList = none →
      ∃ l, CapturedAs l s none none (.list []) base [o.getD R.baseOpts] ∧ Comes R [o.getD R.baseOpts] l f a k
        (R.doLasso A jsonLoads (u ++ '#' :: r.text) { sheet := sheet0, baseCoords := base })) ∧
    (∀ e, resolveCaptureRect m up dn r.first r.second (items.map ExpItem.meaning) base = .error e → e ≠ .emptyCapture →
      R.doLasso A jsonLoads (u ++ '#' :: r.text) { sheet := sheet0, baseCoords := base } =
        .error (if r.st.isSome && r.range.isNone then .typeError else .valueError)) := by
  have hparse := parsed jsonLoads u r ws js d o hu hpl h hf hd _ hform
  have hres := resolveText_meant h hx m (up, dn) base
  have ho : ∀ x : Option Str, overlay x none = x := by intro x; cases x <;> rfl
  have ho2 : ∀ x : Option TEdge, overlay x none = x := by intro x; cases x <;> rfl
  have ho4 : ∀ x : Option CallSpec, overlay x none = x := by intro x; cases x <;> rfl
  have ho3 : overlay (o.map (fun o => [o])) (some [R.baseOpts]) = some [o.getD R.baseOpts] := by cases o <;> rfl
  unfold Ranger.doLasso Ranger.parseMerge
  rw [hparse]
  simp only [Option.isSome_none, Bool.false_eq_true, if_false, ho, ho2, ho3, hfetch, resolveRect, hstates, hmargins, hres, Option.map_some, ho4]
  refine ⟨?_, ?_, ?_⟩
  · intro st nd v h1 h2
    simp only [h1, h2]
    exact ⟨_, ⟨rfl, rfl, rfl, rfl, rfl, rfl⟩, comes_runFilters R _ _ rfl f a k rfl⟩
  · intro h1 h2
    simp only [h1, Opts.get, List.findSome?_cons, h2, List.findSome?_nil, Option.getD_none, Doc.truthy, Bool.false_eq_true, if_false]
    exact ⟨_, ⟨rfl, rfl, rfl, rfl, rfl, rfl⟩, comes_runFilters R _ _ rfl f a k rfl⟩
  · intro e h1 h2
    simp only [h1, edgesOf_lone]
    by_cases hl : (r.st.isSome && r.range.isNone) = true
    · simp only [hl, if_true]
    · simp only [hl, Bool.false_eq_true, if_false]

/-- C156. Options alone, without a filter, are no call: what is captured is returned, with these options. -/
theorem C156_options_only (hu : '#' ∉ u) (hpl : NoCurly (u ++ r.text)) (h : r.Ok) (hf : r.filt = some (ws, js)) (hd : jsonLoads js = some d)
    (hform : FilterForm d o none)
    (hx : r.Expands items) (hfetch : R.fetch (if u = [] then none else some u) r.sheetName sheet0 = .ok s)
    (hstates : A.states s = .ok m) (hmargins : A.margins s = .ok (up, dn)) (st : Coords) (nd : Option Coords) (v : Captured)
    (hres : resolveCaptureRect m up dn r.first r.second (items.map ExpItem.meaning) base = .ok (st, nd)) (hv : A.readRect s st nd = .ok v) :
    ∃ l, CapturedAs l s (some st) nd v.toDoc base [o.getD R.baseOpts] ∧
      R.doLasso A jsonLoads (u ++ '#' :: r.text) { sheet := sheet0, baseCoords := base } = .ok (.lasso l) := by
  have hparse := parsed jsonLoads u r ws js d o hu hpl h hf hd _ hform
  have hres' := resolveText_meant h hx m (up, dn) base
  have ho : ∀ x : Option Str, overlay x none = x := by intro x; cases x <;> rfl
  have ho2 : ∀ x : Option TEdge, overlay x none = x := by intro x; cases x <;> rfl
  have ho4 : ∀ x : Option CallSpec, overlay x none = x := by intro x; cases x <;> rfl
  have ho3 : overlay (o.map (fun o => [o])) (some [R.baseOpts]) = some [o.getD R.baseOpts] := by cases o <;> rfl
  unfold Ranger.doLasso Ranger.parseMerge
  rw [hparse]
  simp only [Option.isSome_none, Bool.false_eq_true, if_false, ho, ho2, ho3, hfetch, resolveRect, hstates, hmargins, hres', Option.map_none, ho4,
    hres, hv, Ranger.runFilters]
  exact ⟨_, ⟨rfl, rfl, rfl, rfl, rfl, rfl⟩, rfl⟩

/-- C156. A filter text that is not JSON, or JSON of no documented form (nor of a scalar that counts as false, which no text that begins as filters do
is), is refused before anything is captured, whatever the sheet. -/
theorem C156_refused (hu : '#' ∉ u) (hpl : NoCurly (u ++ r.text)) (h : r.Ok) (hf : r.filt = some (ws, js))
    (hbad : ∀ d, jsonLoads js = some d → (∀ o cs, ¬ FilterForm d o cs) ∧ d ≠ .null ∧ d ≠ .bool false ∧ d ≠ .int 0) (ctx : Lasso S) :
    R.doLasso A jsonLoads (u ++ '#' :: r.text) ctx = .error .valueError := by
  have hpr : NoCurly r.text := ⟨fun e => hpl.1 (by simp [e]), fun e => hpl.2 (by simp [e])⟩
  have hne : r.text ≠ [] := by
    unfold RefText.text
    rw [hf]
    simp [filtText]
  have herr : parseFragment jsonLoads r.text = .error .valueError := by
    rw [fragment_of_filters jsonLoads r h, hf]
    simp only [Option.map_some]
    cases hp : parseFilters jsonLoads (some js) with
    | error e => rw [filters_error hp]
    | ok q =>
      obtain ⟨o, cs⟩ := q
      obtain ⟨d, hd, hq⟩ := filters_form hp
      obtain ⟨b1, b2, b3, b4⟩ := hbad d hd
      rcases hq with hq | ⟨hq | hq | hq, _⟩
      · exact absurd hq (b1 _ _)
      · exact absurd hq b2
      · exact absurd hq b3
      · exact absurd hq b4
  have hparse := C76_bad_filters jsonLoads u r.text hu hne .valueError (by rw [straight_plain hpr]; exact herr) (by decide)
  unfold Ranger.doLasso Ranger.parseMerge
  rw [hparse]

end

/-- C156. A call of `redim` that fits its parameters does what is asked, by place or by name, for the shape of the rectangle, and nothing if nothing is. -/
theorem C156_redim {S : Type} (l : Lasso S) (args : List Doc) (kwds : List (Str × Doc)) (hk : (kwds.map Prod.fst).Nodup)
    (hf : Fits redimParams args kwds) (name : Str) (hn : ShapeName l.st l.nd name) (ov : Option Doc) (hs : SaysArg redimParams args kwds name ov)
    (n : Option NDim) (hm : DimMeans ov n) :
    (n = none → redimFunc l args kwds = .ok (.lasso l)) ∧
    (∀ k v, n = some k → redim l.values k = .ok v → redimFunc l args kwds = .ok (.lasso { l with values := v })) ∧
    (∀ k e, n = some k → redim l.values k = .error e → ∃ e', redimFunc l args kwds = .error e') := by
  obtain ⟨arg, hb, harg⟩ : ∃ arg, bindArgs redimNames args kwds = .ok arg ∧ arg name = ov :=
    ⟨_, bindArgs_fits hf, says_value (by decide) hk hf hs⟩
  have hname : redimNames[classifyRect l.st l.nd]? = some name := by
    generalize hst : l.st = st at hn
    generalize hnd : l.nd = nd at hn
    cases hn with
    | scalar st => cases st <;> rfl
    | cell st nd h1 h2 => simp [classifyRect, h1, h2, redimNames]
    | row st nd h1 h2 =>
      have : nd.col - st.col ≠ 0 := by omega
      simp [classifyRect, h1, this, redimNames]
    | col st nd h1 h2 =>
      have : nd.row - st.row ≠ 0 := by omega
      simp [classifyRect, h2, this, redimNames]
    | table st nd h1 h2 =>
      have h3 : nd.row - st.row ≠ 0 := by omega
      have h4 : nd.col - st.col ≠ 0 := by omega
      simp [classifyRect, h3, h4, redimNames]
  unfold redimFunc
  simp only [hb, hname, Option.bind_some, harg]
  have hdo : ∀ d k, ndimArg d = .ok k → (match asarray l.values with
      | .error e => (.error e : Except PyErr (FRes S))
      | .ok _ => match ndimArg d with
        | .error e => .error e
        | .ok n => match redim l.values n with
          | .error e => .error e
          | .ok v => .ok (.lasso { l with values := v })) = match redim l.values k with
          | .error e => .error e
          | .ok v => .ok (.lasso { l with values := v }) := by
    intro d k h
    rw [h]
    cases ha : asarray l.values with
    | ok a => rfl
    | error e => simp [redim, ha]
  cases hm with
  | missing => exact ⟨fun _ => rfl, (fun k v h => nomatch h), (fun k e h => nomatch h)⟩
  | null => exact ⟨fun _ => rfl, (fun k v h => nomatch h), (fun k e h => nomatch h)⟩
  | number k =>
    refine ⟨(fun h => nomatch h), ?_, ?_⟩
    · intro k' v h hr; cases h; exact (hdo (.int k) (.int k) (by simp only [ndimArg, dimArg])).trans (by rw [hr])
    · intro k' v h hr; cases h; exact ⟨v, (hdo (.int k) (.int k) (by simp only [ndimArg, dimArg])).trans (by rw [hr])⟩
  | yes =>
    refine ⟨(fun h => nomatch h), ?_, ?_⟩
    · intro k' v h hr; cases h; exact (hdo (.bool true) (.int 1) (by rfl)).trans (by rw [hr])
    · intro k' v h hr; cases h; exact ⟨v, (hdo (.bool true) (.int 1) (by rfl)).trans (by rw [hr])⟩
  | no =>
    refine ⟨(fun h => nomatch h), ?_, ?_⟩
    · intro k' v h hr; cases h; exact (hdo (.bool false) (.int 0) (by rfl)).trans (by rw [hr])
    · intro k' v h hr; cases h; exact ⟨v, (hdo (.bool false) (.int 0) (by rfl)).trans (by rw [hr])⟩
  | both k t =>
    refine ⟨(fun h => nomatch h), ?_, ?_⟩
    · intro k' v h hr; cases h; exact (hdo (.list [.int k, .bool t]) (.pair (some k) t) (by simp only [ndimArg, dimArg, Doc.truthy])).trans (by rw [hr])
    · intro k' v h hr; cases h; exact ⟨v, (hdo (.list [.int k, .bool t]) (.pair (some k) t) (by simp only [ndimArg, dimArg, Doc.truthy])).trans (by rw [hr])⟩
  | turn t =>
    refine ⟨(fun h => nomatch h), ?_, ?_⟩
    · intro k' v h hr; cases h; exact (hdo (.list [.null, .bool t]) (.pair none t) (by simp only [ndimArg, Doc.truthy])).trans (by rw [hr])
    · intro k' v h hr; cases h; exact ⟨v, (hdo (.list [.null, .bool t]) (.pair none t) (by simp only [ndimArg, Doc.truthy])).trans (by rw [hr])⟩

/-- C156. A call of `redim` that does not fit is refused. -/
theorem C156_redim_refused {S : Type} (l : Lasso S) (args : List Doc) (kwds : List (Str × Doc)) (hf : ¬ Fits redimParams args kwds) :
    redimFunc l args kwds = .error .typeError := by
  have hb : bindArgs redimNames args kwds = .error .typeError := bindArgs_refused hf
  simp [redimFunc, hb]

private theorem isList_leaves {v : Doc} (h : isList v = false) : redim v (.int 0) = .ok v := by
  cases v with
  | list xs => cases h
  | str t => rfl
  | int i => rfl
  | bool b => cases b <;> rfl
  | null => rfl
  | atom t => rfl
  | dict k => rfl

private theorem block_flatten {val : Nat → Nat → Doc} {r1 c1 r2 c2 : Nat} {t : List (List Doc)} (hl : t.length = r2 - r1 + 1)
    (hrow : ∀ row ∈ t, row.length = c2 - c1 + 1)
    (hent : ∀ i j, i ≤ r2 - r1 → j ≤ c2 - c1 → (t[i]?.bind (·[j]?)) = some (val (r1 + i) (c1 + j))) :
    t = (List.range (r2 - r1 + 1)).map (fun i => (List.range (c2 - c1 + 1)).map (fun j => val (r1 + i) (c1 + j))) := by
  apply List.ext_getElem?
  intro i
  by_cases hi : i < r2 - r1 + 1
  · have hit : i < t.length := by omega
    rw [List.getElem?_eq_getElem hit, List.getElem?_map, List.getElem?_range hi, Option.map_some]
    congr 1
    apply List.ext_getElem?
    intro j
    have hlen := hrow t[i] (List.getElem_mem hit)
    by_cases hj : j < c2 - c1 + 1
    · have h := hent i j (by omega) (by omega)
      rw [List.getElem?_eq_getElem hit, Option.bind_some] at h
      rw [h, List.getElem?_map, List.getElem?_range hj, Option.map_some]
    · rw [List.getElem?_eq_none (by omega), List.getElem?_eq_none (by simp; omega)]
  · rw [List.getElem?_eq_none (by omega), List.getElem?_eq_none (by simp; omega)]

/-- C156. With the filter that imitates *xlwings*, after any reference to an array sheet: a single coordinate gives the value there, one row or one column the
list of its values, and other rectangles their rows. Missing for the full property: cells of different kinds, see `C156_xlwings_refuted`. -/
theorem C156_xlwings_partial (R : Ranger Grid) (jsonLoads : Str → Option Doc) (u : Str) (r : RefText) (items : List ExpItem) (sheet0 : Option Grid)
    (base : Option Coords) (g : Grid) (m : Mat) (ws : Str) (desc : Bool)
    (hu : '#' ∉ u) (hpl : NoCurly (u ++ r.text)) (h : r.Ok) (hf : r.filt = some (ws, xlwingsCallSpec))
    (hjson : jsonLoads "[\"redim\", [0, 1, 1, 1, 2]]".toList = some (.list [.str "redim".toList, .list [.int 0, .int 1, .int 1, .int 1, .int 2]]))
    (hx : r.Expands items) (hfetch : R.fetch (if u = [] then none else some u) r.sheetName sheet0 = .ok g) (hm : g.states = .ok m)
    (hred : R.filters "redim".toList = some ⟨redimFunc, desc⟩) :
    (∀ i j : Nat, resolveCaptureRect m (marginCoords m).1 (marginCoords m).2 r.first r.second (items.map ExpItem.meaning) base = .ok (⟨i, j⟩, none) →
      i < g.rows → j < g.cols → isList (g.val i j) = false →
      ∃ l, R.doLasso arrayApi jsonLoads (u ++ '#' :: r.text) { sheet := sheet0, baseCoords := base } = .ok (.lasso l) ∧ l.values = g.val i j) ∧
    (∀ r1 c1 r2 c2 : Nat, resolveCaptureRect m (marginCoords m).1 (marginCoords m).2 r.first r.second (items.map ExpItem.meaning) base =
        .ok (⟨r1, c1⟩, some ⟨r2, c2⟩) → r1 ≤ r2 → r2 < g.rows → c1 ≤ c2 → c2 < g.cols →
      (∀ i j, r1 ≤ i → i ≤ r2 → c1 ≤ j → j ≤ c2 → isList (g.val i j) = false) → Uniform (blockCells g.val r1 c1 r2 c2) →
      ∃ l, R.doLasso arrayApi jsonLoads (u ++ '#' :: r.text) { sheet := sheet0, baseCoords := base } = .ok (.lasso l) ∧
        AsXlwings g.val r1 c1 r2 c2 l.values) := by
  have hform : FilterForm (.list [.str "redim".toList, .list [.int 0, .int 1, .int 1, .int 1, .int 2]]) none
      (some ("redim".toList, [.int 0, .int 1, .int 1, .int 1, .int 2], [])) :=
    .list _ _ _ _ (by simp) (.listArgs _ _ _ (.list _))
  have hmg : arrayApi.margins g = .ok ((marginCoords m).1, (marginCoords m).2) := by simp [arrayApi, hm, getMargins]
  have hcalled := (C156_called_partial R arrayApi jsonLoads u r items sheet0 base g m _ _ ws xlwingsCallSpec _ none hu hpl h hf hjson _ _ _ hform hx hfetch hm
    hmg).1
  have hfit : Fits redimParams [.int 0, .int 1, .int 1, .int 1, .int 2] [] := ⟨by decide, by simp, by simp⟩
  have hdone : ∀ l l' : Lasso Grid, redimFunc l [.int 0, .int 1, .int 1, .int 1, .int 2] [] = .ok (.lasso l') → ∀ o x,
      Comes R o l "redim".toList [.int 0, .int 1, .int 1, .int 1, .int 2] [] x → x = .ok (.lasso l') := by
    intro l l' hl o x hc
    have hw : withoutLax [] = [] := rfl
    cases hc with
    | done rec l'' h1 h2 =>
      rw [hred] at h1; cases h1
      rw [hw] at h2
      have h2 := hl.symm.trans h2; cases h2; rfl
    | absent h1 _ => rw [hred] at h1; cases h1
    | absentLax h1 _ => rw [hred] at h1; cases h1
    | failed rec h1 h2 _ =>
      rw [hred] at h1; cases h1
      exact absurd hl (h2 l')
    | failedLax rec e h1 h2 _ _ =>
      rw [hred] at h1; cases h1
      rw [hw] at h2
      have h2 := hl.symm.trans h2; cases h2
    | otherLax rec e h1 h2 _ _ =>
      rw [hred] at h1; cases h1
      rw [hw] at h2
      have h2 := hl.symm.trans h2; cases h2
  refine ⟨?_, ?_⟩
  · intro i j hres hi hj hleaf
    obtain ⟨l, hc, hcomes⟩ := hcalled _ _ _ hres ((C39_array_cell g i j).1 hi hj)
    have hr := isList_leaves hleaf
    have hv : l.values = g.val i j := hc.values
    have := (C156_redim l _ _ (by simp) hfit "scalar".toList (by rw [hc.nd]; exact .scalar _) (some (.int 0)) (.given _ (.place 0 rfl rfl))
      (some (.int 0)) (.number 0)).2.1 _ (g.val i j) rfl (by rw [hv]; exact hr)
    exact ⟨_, hdone _ _ this _ _ hcomes, rfl⟩
  · intro r1 c1 r2 c2 hres o1 w1 o2 w2 hleaf hun
    obtain ⟨t, ht, hl, hrow, hent⟩ := C39_array_rect g r1 c1 r2 c2 o1 w1 o2 w2
    obtain ⟨l, hc, hcomes⟩ := hcalled _ _ _ hres ht
    have htab := block_flatten hl hrow hent
    have hfl : t.flatten = blockCells g.val r1 c1 r2 c2 := by
      rw [htab, blockCells, List.flatMap]
    have hxl := C54_xlwings_partial l ⟨r1, c1⟩ ⟨r2, c2⟩ hc.st hc.nd t hc.values (r2 - r1) (c2 - c1) (by simp only; omega) (by simp only; omega) hl hrow
      (by
        intro row hr x hx
        rw [htab] at hr
        obtain ⟨i, hi, rfl⟩ := List.mem_map.1 hr
        obtain ⟨j, hj, rfl⟩ := List.mem_map.1 hx
        rw [List.mem_range] at hi hj
        exact hleaf _ _ (by omega) (by omega) (by omega) (by omega)) (by rw [hfl]; exact hun)
    have hredim : redimFunc l [.int 0, .int 1, .int 1, .int 1, .int 2] [] = match xlwings l with
        | .error e => .error e
        | .ok l' => .ok (.lasso l') := by
      obtain ⟨arg, hb, h0, h1, h2, h3, h4⟩ : ∃ arg, bindArgs redimNames [.int 0, .int 1, .int 1, .int 1, .int 2] [] = .ok arg ∧
          arg "scalar".toList = some (.int 0) ∧ arg "cell".toList = some (.int 1) ∧ arg "row".toList = some (.int 1) ∧
          arg "col".toList = some (.int 1) ∧ arg "table".toList = some (.int 2) := ⟨_, bindArgs_fits hfit, rfl, rfl, rfl, rfl, rfl⟩
      unfold redimFunc xlwings redimFilter
      simp only [hb]
      generalize classifyRect l.st l.nd = q
      have hno : ∀ (k : NDim) (e : PyErr), asarray l.values = .error e → redim l.values k = .error e := by
        intro k e ha
        simp [redim, ha]
      have hsplit : ∀ (d : Doc) (k : Int), d = .int k → (match some d with
          | none | some .null => (.ok (.lasso l) : Except PyErr (FRes Grid))
          | some d => match asarray l.values with
            | .error e => .error e
            | .ok _ => match ndimArg d with
              | .error e => .error e
              | .ok n => match redim l.values n with
                | .error e => .error e
                | .ok v => .ok (.lasso { l with values := v })) = match (match redim l.values (.int k) with
              | .error e => (.error e : Except PyErr (Lasso Grid))
              | .ok v => .ok { l with values := v }) with
            | .error e => .error e
            | .ok l' => .ok (.lasso l') := by
        intro d k hd
        subst hd
        simp only [ndimArg, dimArg]
        cases ha : asarray l.values with
        | ok a => simp only; cases redim l.values (.int k) <;> rfl
        | error e => simp [hno (.int k) e ha]
      match q with
      | 0 => simp only [redimNames, List.getElem?_cons_zero, Option.bind_some, h0]; exact hsplit _ 0 rfl
      | 1 => simp only [redimNames, List.getElem?_cons_succ, List.getElem?_cons_zero, Option.bind_some, h1]; exact hsplit _ 1 rfl
      | 2 => simp only [redimNames, List.getElem?_cons_succ, List.getElem?_cons_zero, Option.bind_some, h2]; exact hsplit _ 1 rfl
      | 3 => simp only [redimNames, List.getElem?_cons_succ, List.getElem?_cons_zero, Option.bind_some, h3]; exact hsplit _ 1 rfl
      | 4 => simp only [redimNames, List.getElem?_cons_succ, List.getElem?_cons_zero, Option.bind_some, h4]; exact hsplit _ 2 rfl
      | n + 5 => rfl
    rw [hxl] at hredim
    refine ⟨_, hdone _ _ hredim _ _ hcomes, ?_⟩
    refine ⟨fun e => ?_, fun e => ?_, fun e1 e2 => ?_⟩
    · subst e
      simp only [Nat.sub_self, true_or, if_true]
      rw [htab]
      simp
    · subst e
      simp only [Nat.sub_self, or_true, if_true]
      rw [htab]
      simp
      rw [List.flatten_eq_flatMap, List.flatMap_map]
      induction (List.range (r2 - r1 + 1)) with
      | nil => rfl
      | cons a as ih => simp; exact ih
    · rw [if_neg (by omega)]
      exact ⟨t, rfl, hl, hrow, hent⟩

/-- A row with a number and a text. -/
def mixedRow : Grid := ⟨1, 2, fun _ j => if j = 0 then .int 1 else .str "a".toList⟩

/-- A reader of the call-specification that imitates *xlwings*, and of one that asks a row to be turned. -/
def xlwingsJson : Str → Option Doc := fun t =>
  if t = xlwingsCallSpec then some (.list [.str "redim".toList, .list [.int 0, .int 1, .int 1, .int 1, .int 2]])
  else if t = "{\"func\": \"redim\", \"kwds\": {\"row\": [2, true]}}".toList then
    some (.dict [("func".toList, .str "redim".toList), ("kwds".toList, .dict [("row".toList, .list [.int 2, .bool true])])])
  else none

/-- A ranger with `redim` on one sheet. -/
def redimRanger (g : Grid) : Ranger Grid where
  fetch := fun _ _ _ => .ok g
  baseOpts := []
  filters := fun f => if f = "redim".toList then some ⟨redimFunc, true⟩ else none

/-- C156. The values of a row with a number and a text are not given as they are by the filter that imitates *xlwings*: the number becomes a text. -/
theorem C156_xlwings_refuted : ∃ (g : Grid) (l : Lasso Grid),
    (redimRanger g).doLasso arrayApi xlwingsJson "#A1:B1:[\"redim\", [0, 1, 1, 1, 2]]".toList {} = .ok (.lasso l) ∧
    l.st = some ⟨0, 0⟩ ∧ l.nd = some ⟨0, 1⟩ ∧ ¬ AsXlwings g.val 0 0 0 1 l.values := by
  have hg : (match (redimRanger mixedRow).doLasso arrayApi xlwingsJson "#A1:B1:[\"redim\", [0, 1, 1, 1, 2]]".toList {} with
    | .ok (.lasso l) => decide (l.st = some ⟨0, 0⟩) && decide (l.nd = some ⟨0, 1⟩) && docEq l.values (.list [.str "1".toList, .str "a".toList])
    | _ => false) = true := by decide +kernel
  split at hg
  · rename_i l hl
    simp only [Bool.and_eq_true, decide_eq_true_eq] at hg
    refine ⟨mixedRow, l, hl, hg.1.1, hg.1.2, ?_⟩
    intro h
    have := h.1 rfl
    rw [docEq_sound _ _ hg.2] at this
    simp [mixedRow, List.range, List.range.loop] at this
  · simp at hg

/-- A column of two numbers beside other ones. -/
def twoByTwo : Grid := ⟨2, 2, fun i j => .int (10 * i + j)⟩

/-- `A1:B2` with the filter that imitates *xlwings* after it. -/
def blockRef : RefText :=
  ⟨[], none, some ⟨.a1 "A".toList "1".toList, none⟩, some (some ⟨.a1 "B".toList "2".toList, none⟩, none), some ([], xlwingsCallSpec)⟩

example : blockRef.text = "A1:B2:[\"redim\", [0, 1, 1, 1, 2]]".toList := by decide

example : blockRef.Ok := by
  refine ⟨by simp [Spaces, blockRef], trivial, ?_, ?_, ?_, ?_, ?_⟩
  · intro e he; cases he
    exact ⟨⟨.inl ⟨by decide, by decide⟩, .inl ⟨'1', [], rfl, by decide, by decide, by simp⟩⟩, trivial⟩
  · intro e ex he; cases he
    exact ⟨⟨.inl ⟨by decide, by decide⟩, .inl ⟨'2', [], rfl, by decide, by decide, by simp⟩⟩, trivial⟩
  · intro nd ex he; cases he; trivial
  · exact ⟨by simp [Spaces], _, _, rfl, by decide⟩
  · intro _ ws js he; cases he; decide

example : NoCurly ([] ++ blockRef.text) := by unfold NoCurly; decide

example : blockRef.Expands [] := rfl

example : Uniform (blockCells twoByTwo.val 0 0 1 1) := by
  refine .inr (.inl ?_)
  intro d hd
  simp [blockCells, twoByTwo, List.range, List.range.loop] at hd
  rcases hd with rfl | rfl | rfl | rfl <;> exact ⟨_, rfl⟩

example : ShapeName (some ⟨1, 0⟩) (some ⟨1, 1⟩) "row".toList ∧ DimMeans (some (.list [.int 2, .bool true])) (some (.pair (some 2) true)) ∧
    Fits redimParams [] [("row".toList, .list [.int 2, .bool true])] :=
  ⟨.row _ _ rfl (by decide), .both 2 true, by decide, by decide, by decide⟩

example : gaveValues ((redimRanger twoByTwo).doLasso arrayApi xlwingsJson "#A1:B2:[\"redim\", [0, 1, 1, 1, 2]]".toList {})
    (.list [.list [.int 0, .int 1], .list [.int 10, .int 11]]) = true := by decide +kernel

example : gaveValues ((redimRanger twoByTwo).doLasso arrayApi xlwingsJson "#B1:B2:[\"redim\", [0, 1, 1, 1, 2]]".toList {})
    (.list [.int 1, .int 11]) = true := by decide +kernel

example : gaveValues ((redimRanger twoByTwo).doLasso arrayApi xlwingsJson "#B2:[\"redim\", [0, 1, 1, 1, 2]]".toList {}) (.int 11) = true := by
  decide +kernel

example : gaveValues ((redimRanger twoByTwo).doLasso arrayApi xlwingsJson
    "#A2:B2:{\"func\": \"redim\", \"kwds\": {\"row\": [2, true]}}".toList {}) (.list [.list [.int 10], .list [.int 11]]) = true := by
  decide +kernel

end Props
