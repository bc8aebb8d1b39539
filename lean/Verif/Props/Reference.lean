import Verif.Spec.LassoRun
import Verif.Props.DoLasso
import Verif.Props.WholeRef
import Verif.Props.ExpMoves
import Verif.Spec.Reference
import Verif.Model.LassoRun
/-
Properties C86 and C87: what lassoing a written reference captures, from its text to the values.
-/
namespace Props
open Py Model Spec Lemmas

theorem straight_plain {s : Str} (h : NoCurly s) : straight s = s := by
  unfold NoCurly at h
  induction s with
  | nil => rfl
  | cons c s ih =>
    have h1 : c ≠ '“' := fun e => h.1 (by simp [e])
    have h2 : c ≠ '”' := fun e => h.2 (by simp [e])
    rw [straight, ih ⟨fun e => h.1 (by simp [e]), fun e => h.2 (by simp [e])⟩]
    · exact fun e => h1 e
    · exact fun e => h2 e

theorem dirsOf_moves {s : Str} (h : upper s ∈ allMoves) : dirsOf (upper s) = some (dirsMeant s) := by
  have hup : ∀ c ∈ s, (letterDir c).isSome := by
    intro c hc
    have : upperChar c ∈ upper s := List.mem_map.2 ⟨c, hc, rfl⟩
    have key : ∀ m ∈ allMoves, ∀ c ∈ m, isLURD c = true := by decide
    exact letterDir_of_upper (key _ h _ this)
  unfold dirsMeant
  clear h
  induction s with
  | nil => rfl
  | cons c s ih =>
    obtain ⟨h1, h2, -⟩ := letterDir_up (hup c (by simp))
    have := ih (fun x hx => hup x (by simp [hx]))
    have e := dirsOf_up (ds := [upperChar c]) (by simpa using h1)
    obtain ⟨d, hd⟩ := Option.isSome_iff_exists.1 (hup c (by simp))
    simp only [List.filterMap_cons, List.filterMap_nil, h2, hd, dirsOf] at e
    have hdir : dirOf (upperChar c) = some d := by
      cases hx : dirOf (upperChar c) with
      | none => rw [hx] at e; simp at e
      | some y => rw [hx] at e; simp at e; rw [e]
    unfold upper at this ⊢
    simp only [List.map_cons, dirsOf, hdir, this, List.filterMap_cons, hd]

private theorem toEdge_meant {e : EdgeText} {dot : Bool} (h : e.Ok dot) : (edgeOf e).toEdge = some e.meant := by
  obtain ⟨cell, mov⟩ := e
  have hm := h.2
  cases mov with
  | none => rfl
  | some p =>
    obtain ⟨m, x⟩ := p
    simp only [MovOk] at hm
    simp only [edgeOf, TEdge.toEdge, Option.map_some, dirsOf_moves hm.1, EdgeText.meant, Option.bind_some]
    cases x <;> rfl

private theorem edges_meant {r : RefText} (h : r.Ok) :
    ∃ a, (edgesOf r.st r.range).1 = some a ∧ a.toEdge = some r.first ∧
      (edgesOf r.st r.range).2.map TEdge.toEdge = r.second.map some := by
  have c1 : topLeft.toEdge = some (cornerEdge '^') := rfl
  have c2 : bottomRight.toEdge = some (cornerEdge '_') := rfl
  obtain ⟨lead, sheet, st, range, filt⟩ := r
  have hst := h.st
  have hnd := h.nd
  cases st with
  | none =>
    rcases range with - | ⟨- | b, ex⟩
    · exact ⟨_, rfl, c1, by simp [edgesOf, RefText.second, c2]⟩
    · exact ⟨_, rfl, c1, by simp [edgesOf, RefText.second, c2]⟩
    · exact ⟨_, rfl, c1, by simp [edgesOf, RefText.second, toEdge_meant (hnd b ex rfl)]⟩
  | some a =>
    have ha := toEdge_meant (hst a rfl)
    rcases range with - | ⟨- | b, ex⟩
    · exact ⟨_, rfl, ha, by simp [edgesOf, RefText.second]⟩
    · exact ⟨_, rfl, ha, by simp [edgesOf, RefText.second, c2]⟩
    · exact ⟨_, rfl, ha, by simp [edgesOf, RefText.second, toEdge_meant (hnd b ex rfl)]⟩

/-- Expansions are looked at after the edges, and with the same edges. -/
private theorem resolve_exp (m : Mat) (up dn : Coords) (a : Edge) (b : Option Edge) (base : Option Coords) (gs : List ExpGroup) :
    (match resolveCaptureRect m up dn a b [] base with
      | .error e => .error e
      | .ok _ => resolveCaptureRect m up dn a b gs base) = resolveCaptureRect m up dn a b gs base := by
  unfold resolveCaptureRect
  cases resolveSt m up dn a base with
  | error e => rfl
  | ok st =>
    simp only
    cases b with
    | none => simp
    | some b =>
      simp only
      cases resolveNd m up dn b st with
      | error e => rfl
      | ok nd => simp

theorem resolveText_meant {r : RefText} (h : r.Ok) {items : List ExpItem} (hx : r.Expands items) (m : Mat)
    (mg : Coords × Coords) (base : Option Coords) :
    resolveText m mg (edgesOf r.st r.range).1 (edgesOf r.st r.range).2 (r.range.bind (·.2)) base =
      resolveCaptureRect m mg.1 mg.2 r.first r.second (items.map ExpItem.meaning) base := by
  obtain ⟨a, h1, h2, h3⟩ := edges_meant h
  rw [h1]
  unfold resolveText
  simp only [h2, h3]
  unfold RefText.Expands at hx
  cases hs : r.second with
  | none =>
    simp only [Option.map_none, Option.bind_none]
    cases he : r.range.bind (fun p => p.2) with
    | none =>
      rw [he] at hx
      subst hx
      simp only [List.map_nil]
      cases resolveCaptureRect m mg.1 mg.2 r.first none [] base <;> rfl
    | some x =>
      rw [he] at hx
      obtain ⟨hx1, hx2, hx3⟩ := hx
      have hp := C40_reads items hx1 hx2
      rw [hx3] at hp
      cases x with
      | nil =>
        obtain ⟨nd, ex, hr⟩ : ∃ nd ex, r.range = some (nd, ex) := by
          cases hr : r.range with
          | none => rw [hr] at he; simp at he
          | some p => exact ⟨p.1, p.2, rfl⟩
        have := h.exp nd ex hr
        rw [hr] at he
        simp at he
        rw [he] at this
        exact absurd rfl this.1
      | cons y ys =>
        simp only [hp]
        exact resolve_exp m mg.1 mg.2 r.first none base _
  | some b =>
    simp only [Option.map_some, Option.bind_some, id]
    cases he : r.range.bind (fun p => p.2) with
    | none =>
      rw [he] at hx
      subst hx
      simp only [List.map_nil]
      cases resolveCaptureRect m mg.1 mg.2 r.first (some b) [] base <;> rfl
    | some x =>
      rw [he] at hx
      obtain ⟨hx1, hx2, hx3⟩ := hx
      have hp := C40_reads items hx1 hx2
      rw [hx3] at hp
      cases x with
      | nil =>
        obtain ⟨nd, ex, hr⟩ : ∃ nd ex, r.range = some (nd, ex) := by
          cases hr : r.range with
          | none => rw [hr] at he; simp at he
          | some p => exact ⟨p.1, p.2, rfl⟩
        have := h.exp nd ex hr
        rw [hr] at he
        simp at he
        rw [he] at this
        exact absurd rfl this.1
      | cons y ys =>
        simp only [hp]
        exact resolve_exp m mg.1 mg.2 r.first (some b) base _

theorem edgesOf_lone (st : Option EdgeText) (range : Option (Option EdgeText × Option Str)) :
    ((edgesOf st range).1.isSome && (edgesOf st range).2.isNone) = (st.isSome && range.isNone) := by
  cases st with
  | none => rcases range with _ | ⟨_ | _, _⟩ <;> rfl
  | some a => rcases range with _ | ⟨_ | _, _⟩ <;> rfl

section
variable {S : Type} (R : Ranger S) (A : SheetApi S) (jsonLoads : Str → Option Doc) (u : Str) (r : RefText)
  (items : List ExpItem) (sheet0 : Option S) (base : Option Coords) (s : S) (m : Mat) (up dn : Coords)

/-- C86. Lassoing a written reference without filters, of any form, on any kind of sheet: the sheet is the
one asked from the workbook written (or the one of the context); the captured rectangle is that of the
edges, moves and expansions written (`RefText.first`, `second`, `Expands`; see C33-C37 for what these
capture); and the values are those of the sheet there. -/
theorem C86_captures (hu : '#' ∉ u) (hpl : NoCurly (u ++ r.text)) (h : r.Ok) (hf : r.filt = none) (hne : r.text ≠ [])
    (hx : r.Expands items) (hfetch : R.fetch (if u = [] then none else some u) r.sheetName sheet0 = .ok s)
    (hstates : A.states s = .ok m) (hmargins : A.margins s = .ok (up, dn)) :
    (∀ st nd v, resolveCaptureRect m up dn r.first r.second (items.map ExpItem.meaning) base = .ok (st, nd) →
      A.readRect s st nd = .ok v →
      ∃ l, R.doLasso A jsonLoads (u ++ '#' :: r.text) { sheet := sheet0, baseCoords := base } = .ok (.lasso l) ∧
        l.sheet = some s ∧ l.st = some st ∧ l.nd = nd ∧ l.values = v.toDoc) ∧
    (resolveCaptureRect m up dn r.first r.second (items.map ExpItem.meaning) base = .error .emptyCapture →
      dget R.baseOpts "no_empty".toList = none →
      ∃ l, R.doLasso A jsonLoads (u ++ '#' :: r.text) { sheet := sheet0, baseCoords := base } = .ok (.lasso l) ∧
        l.sheet = some s ∧ l.st = none ∧ l.nd = none ∧ l.values = .list []) ∧
    (∀ e, resolveCaptureRect m up dn r.first r.second (items.map ExpItem.meaning) base = .error e → e ≠ .emptyCapture →
      R.doLasso A jsonLoads (u ++ '#' :: r.text) { sheet := sheet0, baseCoords := base } =
        .error (if r.st.isSome && r.range.isNone then .typeError else .valueError)) := by
  have hpr : NoCurly r.text := ⟨fun e => hpl.1 (by simp [e]), fun e => hpl.2 (by simp [e])⟩
  have hpu : NoCurly u := ⟨fun e => hpl.1 (by simp [e]), fun e => hpl.2 (by simp [e])⟩
  have hfrag := C41_round_trip jsonLoads r h hf
  have hparse := C76_parts jsonLoads u r.text hu hne _ (by rw [straight_plain hpr]; exact hfrag)
  rw [straight_plain hpu] at hparse
  have hres := resolveText_meant h hx m (up, dn) base
  have ho : ∀ x : Option Str, overlay x none = x := by intro x; cases x <;> rfl
  have ho2 : ∀ x : Option TEdge, overlay x none = x := by intro x; cases x <;> rfl
  unfold Ranger.doLasso Ranger.parseMerge
  rw [hparse]
  simp only [Option.isSome_none, Bool.false_eq_true, if_false, ho, ho2, hfetch, resolveRect, hstates, hmargins, hres]
  refine ⟨?_, ?_, ?_⟩
  · intro st nd v h1 h2
    simp only [h1, h2, Ranger.runFilters, overlay]
    exact ⟨_, rfl, rfl, rfl, rfl, rfl⟩
  · intro h1 h2
    simp only [h1, overlay, Option.map_none, Opts.get, List.findSome?_cons, h2, List.findSome?_nil, Option.getD_none, Doc.truthy,
      Bool.false_eq_true, if_false, Ranger.runFilters]
    exact ⟨_, rfl, rfl, rfl, rfl, rfl⟩
  · intro e h1 h2
    simp only [h1, edgesOf_lone]
    by_cases hl : (r.st.isSome && r.range.isNone) = true
    · simp only [hl, if_true]
    · simp only [hl, Bool.false_eq_true, if_false]

end

/-- C86. The same of `lasso()`, with a factory of its own or a given one and whatever else is in it: the
values returned are those of the sheet in the rectangle meant. -/
theorem C86_lasso_call (order : List SKey → List SKey) (o : Openers) (installed : Str → Option RunFilter)
    (A : SheetApi SheetObj) (jsonLoads : Str → Option Doc) (u : Str) (r : RefText) (items : List ExpItem)
    (sheet0 : Option SheetObj) (base : Option Coords) (s : SheetObj) (m : Mat) (up dn : Coords)
    (given : Option Factory) (baseOpts : Option (List (Str × Doc))) (available : Option (Str → Option RunFilter))
    (hu : '#' ∉ u) (hpl : NoCurly (u ++ r.text)) (h : r.Ok) (hf : r.filt = none) (hne : r.text ≠ []) (hx : r.Expands items)
    (hfetch : ((given.getD Factory.new).fetch order o (if u = [] then none else some u) (shIdOf r.sheetName) sheet0).2 = .ok s)
    (hstates : A.states s = .ok m) (hmargins : A.margins s = .ok (up, dn)) (st : Coords) (nd : Option Coords) (v : Captured)
    (hr : resolveCaptureRect m up dn r.first r.second (items.map ExpItem.meaning) base = .ok (st, nd))
    (hv : A.readRect s st nd = .ok v) :
    (lassoCall order o installed A jsonLoads (u ++ '#' :: r.text) given baseOpts available false
      { sheet := sheet0, baseCoords := base }).result = .ok (.other v.toDoc) := by
  have hpr : NoCurly r.text := ⟨fun e => hpl.1 (by simp [e]), fun e => hpl.2 (by simp [e])⟩
  have hpu : NoCurly u := ⟨fun e => hpl.1 (by simp [e]), fun e => hpl.2 (by simp [e])⟩
  have hparse := C76_parts jsonLoads u r.text hu hne _ (by rw [straight_plain hpr]; exact C41_round_trip jsonLoads r h hf)
  rw [straight_plain hpu] at hparse
  have hres := resolveText_meant h hx m (up, dn) base
  have ho : ∀ x : Option Str, overlay x none = x := by intro x; cases x <;> rfl
  have ho2 : ∀ x : Option TEdge, overlay x none = x := by intro x; cases x <;> rfl
  have key : ∀ R : RunRanger, (((R.doLasso A jsonLoads (u ++ '#' :: r.text) { sheet := sheet0, baseCoords := base }).exec order o
      (given.getD Factory.new)).2.2 : Except PyErr (FRes SheetObj)) = .ok (.lasso
        { xlRef := some (straight (u ++ '#' :: r.text)), urlFile := if u = [] then none else some u, shName := r.sheetName,
          stEdge := (edgesOf r.st r.range).1, ndEdge := (edgesOf r.st r.range).2, expMoves := r.range.bind (·.2),
          sheet := some s, opts := some [R.baseOpts], st := some st, nd := nd, values := v.toDoc, baseCoords := base }) := by
    intro R
    unfold RunRanger.doLasso Ranger.parseMerge
    rw [hparse]
    simp only [Option.isSome_none, Bool.false_eq_true, if_false, ho, ho2, Run.exec, hfetch, resolveRect, hstates, hmargins, hres, hr, hv,
      RunRanger.runFilters, Option.map_none]
    simp only [overlay, Run.exec]
  unfold lassoCall
  cases given with
  | none => simp only [key, lassoReturn, Bool.false_eq_true, if_false]
  | some g => simp only [key, lassoReturn, Bool.false_eq_true, if_false]

private theorem exec_makeCall (order : List SKey → List SKey) (o : Openers) (f : Factory) (fetch) (opts : List (Str × Doc))
    (g : Str → Option (FRec SheetObj)) (l : Lasso SheetObj) (n : Str) (args : List Doc) (kwds : List (Str × Doc)) :
    (RunRanger.makeCall ⟨opts, plainFilters g⟩ l n args kwds) =
      .done (Ranger.makeCall ⟨fetch, opts, g⟩ (.lasso l) n args kwds) := by
  unfold RunRanger.makeCall Ranger.makeCall
  simp only
  cases ho : l.opts with
  | none => rfl
  | some os =>
    simp only [plainFilters]
    cases g n with
    | none => rfl
    | some r =>
      simp only [Option.map_some, Run.andThen]
      rcases r.func l args (ddel kwds "lax".toList) with e | ⟨l'⟩ | ⟨d⟩ <;> rfl

private theorem exec_runFilters (order : List SKey → List SKey) (o : Openers) (f : Factory) (fetch) (opts : List (Str × Doc))
    (g : Str → Option (FRec SheetObj)) (l : Lasso SheetObj) :
    ((RunRanger.runFilters ⟨opts, plainFilters g⟩ l).exec order o f).2.2 = Ranger.runFilters ⟨fetch, opts, g⟩ l := by
  unfold RunRanger.runFilters Ranger.runFilters
  cases l.callSpec with
  | none => rfl
  | some c =>
    simp only [exec_makeCall order o f fetch opts g l, Run.andThen, Run.exec]
    cases Ranger.makeCall ⟨fetch, opts, g⟩ (.lasso l) c.func c.args c.kwds <;> rfl

/-- C86. `lasso()` with filters that do not look up sheets: the result is that of a ranger whose sheets are
those that the factory gives, so all that holds of rangers (C47-C50, `C86_captures`) holds of `lasso()`. -/
theorem C86_as_ranger (order : List SKey → List SKey) (o : Openers) (installed : Str → Option RunFilter)
    (A : SheetApi SheetObj) (jsonLoads : Str → Option Doc) (xlref : Str) (given : Option Factory)
    (baseOpts : List (Str × Doc)) (hb : baseOpts ≠ []) (g : Str → Option (FRec SheetObj)) (ret : Bool) (ctx : Lasso SheetObj) :
    (lassoCall order o installed A jsonLoads xlref given (some baseOpts) (some (plainFilters g)) ret ctx).result =
      (Ranger.doLasso ⟨fun wb sh b => ((given.getD Factory.new).fetch order o wb (shIdOf sh) b).2, baseOpts, g⟩
        A jsonLoads xlref ctx).bind (lassoReturn ret) := by
  have hm : makeDefaultRanger installed (some baseOpts) (some (plainFilters g)) = ⟨baseOpts, plainFilters g⟩ := by
    cases baseOpts with
    | nil => exact absurd rfl hb
    | cons a t => rfl
  have key : ((RunRanger.doLasso ⟨baseOpts, plainFilters g⟩ A jsonLoads xlref ctx).exec order o (given.getD Factory.new)).2.2 =
      Ranger.doLasso ⟨fun wb sh b => ((given.getD Factory.new).fetch order o wb (shIdOf sh) b).2, baseOpts, g⟩
        A jsonLoads xlref ctx := by
    unfold RunRanger.doLasso Ranger.doLasso
    simp only [Ranger.parseMerge]
    cases parseXlref jsonLoads xlref with
    | error e => cases e <;> rfl
    | ok p =>
      simp only
      by_cases hc : p.encased.isSome = true
      · simp only [hc, if_true]; rfl
      · simp only [hc, Bool.false_eq_true, if_false, Run.exec]
        generalize ((given.getD Factory.new).fetch order o _ _ _) = q
        obtain ⟨f', r⟩ := q
        cases r with
        | error e => rfl
        | ok sheet =>
          simp only
          generalize resolveRect A _ sheet = rr
          rcases rr with e | _ | ⟨st, nd⟩
          · rfl
          · exact exec_runFilters order o f' _ baseOpts g _
          · simp only
            cases A.readRect sheet st nd with
            | error e => rfl
            | ok v => exact exec_runFilters order o f' _ baseOpts g _
  unfold lassoCall
  simp only [hm, key]
  cases given <;> (simp only [Except.bind]; split <;> simp_all)

/-- C86. What `return_lasso` changes: where the lasso is returned with it, its values are returned without it; what is no lasso, as a filter may
return in a lax call, is returned with it and raises `AttributeError` without; errors are the same. The factory is left the same way. -/
theorem C86_returns (order : List SKey → List SKey) (o : Openers) (installed : Str → Option RunFilter)
    (A : SheetApi SheetObj) (jsonLoads : Str → Option Doc) (xlref : Str) (given : Option Factory) (baseOpts : Option (List (Str × Doc)))
    (available : Option (Str → Option RunFilter)) (ctx : Lasso SheetObj) :
    let whole := lassoCall order o installed A jsonLoads xlref given baseOpts available true ctx
    let values := lassoCall order o installed A jsonLoads xlref given baseOpts available false ctx
    ((∃ e, whole.result = .error e ∧ values.result = .error e) ∨ (∃ l, whole.result = .ok (.lasso l) ∧ values.result = .ok (.other l.values)) ∨
      ∃ d, whole.result = .ok (.other d) ∧ values.result = .error .attributeError) ∧
    whole.factory = values.factory ∧ whole.events = values.events ∧ whole.released = values.released := by
  simp only [lassoCall]
  generalize RunRanger.doLasso _ A jsonLoads xlref ctx = R
  generalize R.exec order o (given.getD Factory.new) = q
  obtain ⟨f', c, r⟩ := q
  cases given <;> rcases r with e | l | d <;> simp [lassoReturn]

/-- `Sales!B1(DR):..(RD):L2u` meets the hypotheses on references. -/
def salesRef : RefText :=
  ⟨[], some "Sales".toList, some ⟨.a1 "B".toList "1".toList, some ("DR".toList, none)⟩,
    some (some ⟨.a1 ".".toList ".".toList, some ("RD".toList, none)⟩, some "L2u".toList), none⟩

example : salesRef.text = "Sales!B1(DR):..(RD):L2u".toList := by decide

example : salesRef.Ok := by
  refine ⟨by simp [Spaces, salesRef], ?_, ?_, ?_, ?_, trivial, by simp [salesRef]⟩
  · exact ⟨by decide, by intro x hx; cases hx; decide⟩
  · intro e he; cases he
    exact ⟨⟨.inl ⟨by decide, by decide⟩, .inl ⟨'1', [], rfl, by decide, by decide, by simp⟩⟩, by decide, .inl rfl⟩
  · intro e ex he; cases he
    exact ⟨⟨.inr (.inr (.inr ⟨rfl, rfl⟩)), .inr (.inr (.inr ⟨rfl, rfl⟩))⟩, by decide, .inl rfl⟩
  · intro nd ex he; cases he
    exact ⟨by decide, by decide⟩

example : NoCurly ("b.xls".toList ++ salesRef.text) := by unfold NoCurly; decide

example : salesRef.Expands [.counted 'L' "2".toList, .run "u".toList] := by
  refine ⟨?_, trivial, rfl⟩
  intro it hit
  simp only [List.mem_cons, List.not_mem_nil, or_false] at hit
  rcases hit with rfl | rfl
  · exact ⟨rfl, by decide, by decide⟩
  · exact ⟨by decide, by decide⟩

example : salesRef.first = ⟨⟨"1".toList, "B".toList⟩, some [.D, .R], none⟩ ∧
    salesRef.second = some ⟨⟨".".toList, ".".toList⟩, some [.R, .D], none⟩ := ⟨rfl, rfl⟩

end Props
