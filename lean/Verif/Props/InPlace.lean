import Verif.Lemmas.InPlace
import Verif.Lemmas.DocEq
import Verif.Lemmas.Elementwise
import Verif.Props.Filters
import Verif.Props.Recurring
/-
C154 what lax element-wise filters that fail leave of the captured values.
-/
namespace Props
open Py Model Spec Lemmas

/-- C154. A filter that does not raise, or that is not called leniently, may change its values in place or not: the outcome of the call is the
same. -/
theorem C154_agrees {S : Type} (R : RangerLeft S) (l : Lasso S) (o : Opts) (ho : l.opts = some o) (func : Str) (args : List Doc)
    (kwds : List (Str × Doc))
    (h : ¬ Lax o kwds ∨ ∀ rec, R.filters func = some rec → ∃ r, (rec.func l args (withoutLax kwds)).2 = .ok r) :
    R.makeCall (.lasso l) func args kwds = R.plain.makeCall (.lasso l) func args kwds := by
  simp only [RangerLeft.makeCall, Ranger.makeCall, ho, RangerLeft.plain]
  cases hr : R.filters func with
  | none => rfl
  | some rec =>
    simp only [Option.map_some]
    have hk : withoutLax kwds = ddel kwds "lax".toList := rfl
    cases hf : rec.func l args (ddel kwds "lax".toList) with
    | mk left r =>
      cases r with
      | ok r => cases r <;> rfl
      | error e =>
        rcases h with h | h
        · have : ((dget kwds "lax".toList).getD (o.get "lax".toList (.bool false))).truthy = false := by
            rw [← lax_iff] at h; simpa using h
          simp only [this]
          split <;> rfl
        · obtain ⟨r, hr'⟩ := h rec hr
          rw [hk, hf] at hr'
          cases hr'

/-- C154. What an element-wise filter returns or raises does not depend on whether it changes the values in place, when the calls of its
sub-filters do not. -/
theorem C154_outcome {S : Type} (R : RangerLeft S) (R' : Ranger S)
    (hR : ∀ l func args kwds, R.makeCall l func args kwds = R'.makeCall l func args kwds) (pandas : Bool) (ef : EFun S) (filters : List Doc)
    (incl excl : Option (List Str)) (depth : Option Int) (l : Lasso S) :
    (R.elementwise pandas ef filters incl excl depth l).2 = (R'.elementwise pandas ef filters incl excl depth l).map .lasso := by
  have hsub : ∀ subs m, R.runSubs subs m = R'.runSubs subs m := by
    intro subs
    induction subs with
    | nil => intro m; rfl
    | cons c cs ih =>
      intro m
      simp only [RangerLeft.runSubs, Ranger.runSubs, hR]
      cases R'.makeCall m c.func c.args c.kwds with
      | error e => rfl
      | ok l' => simp only [ih]; rfl
  have hcall : R.callElement ef l = R'.callElement ef l := by
    funext subs bc x
    simp only [RangerLeft.callElement, Ranger.callElement, hsub]
    rfl
  unfold RangerLeft.elementwise Ranger.elementwise
  cases parseSubs filters with
  | error e => rfl
  | ok subs =>
    simp only [hcall]
    rw [← dive_outcome]
    generalize diveLeft ⟨included incl excl, depth, pandas⟩ (R'.callElement ef l) 0 l.st subs l.values = r
    obtain ⟨v, r⟩ := r
    cases r <;> rfl

/-- C154. The same holds of whole lassos. -/
theorem C154_lasso {S : Type} (R : RangerLeft S) (R' : Ranger S)
    (hR : ∀ l func args kwds, R.makeCall l func args kwds = R'.makeCall l func args kwds) (hf : R.fetch = R'.fetch)
    (hb : R.baseOpts = R'.baseOpts) (A : SheetApi S) (jsonLoads : Str → Option Doc) (xlref : Str) (ctx : Lasso S) :
    R.doLasso A jsonLoads xlref ctx = R'.doLasso A jsonLoads xlref ctx := by
  have hm : R.parseMerge jsonLoads xlref ctx = R'.parseMerge jsonLoads xlref ctx := by
    simp only [RangerLeft.parseMerge, Ranger.parseMerge, RangerLeft.plain, hb]
  have hrun : ∀ l, R.runFilters l = R'.runFilters l := by
    intro l
    simp only [RangerLeft.runFilters, Ranger.runFilters, hR]
    rfl
  simp only [RangerLeft.doLasso, Ranger.doLasso, hm, hf, hrun]
  rfl

/-- C154. Whatever the values are that an element-wise filter without sub-filters goes through: if it ends well, all that it reached was replaced;
if it fails, what it leaves of the values it was given was gone through up to the element that failed, and stayed from there on. -/
theorem C154_values {S : Type} (R : RangerLeft S) (ef : EFun S) (incl excl : Option (List Str)) (l : Lasso S) (v : Doc) :
    (∀ r, R.elementwise true ef [] incl excl (some (-1)) l = (v, .ok r) →
      Done (answerOf ef l) (Selected incl excl) l.st l.values v ∧ r = .lasso { l with values := v }) ∧
    (∀ e, R.elementwise true ef [] incl excl (some (-1)) l = (v, .error e) → Halted (answerOf ef l) (Selected incl excl) l.st l.values v) := by
  have ha : Answering (R.callElement ef l) [] (answerOf ef l) := by
    constructor
    · intro bc d y h
      unfold answerOf at h
      unfold RangerLeft.callElement
      split at h <;> simp_all [RangerLeft.runSubs]
    · intro bc d h
      unfold answerOf at h
      unfold RangerLeft.callElement
      split at h <;> simp_all
    · intro bc d h
      unfold answerOf at h
      unfold RangerLeft.callElement
      split at h <;> simp_all
  have hv := values_left (cfg := ⟨included incl excl, some (-1), true⟩) (sel := Selected incl excl) ha
    (fun n h => by injection h with h; omega) (fun d bc i => by unfold updBase; cases bc <;> rfl) (incl_iff incl excl) 0 l.st l.values
  unfold RangerLeft.elementwise
  simp only [parseSubs]
  generalize diveLeft ⟨included incl excl, some (-1), true⟩ (R.callElement ef l) 0 l.st [] l.values = q at hv
  obtain ⟨w, q⟩ := q
  cases q with
  | ok s' => exact ⟨fun r h => by cases h; exact ⟨(hv.1 _ _ rfl).1, rfl⟩, fun e h => by cases h⟩
  | error e' => exact ⟨fun r h => (by cases h), fun e h => (by cases h; exact hv.2 _ _ rfl)⟩

/-- The element function of `recurse` without sub-filters, on the cells of a table. -/
private theorem recurse_cells {S : Type} (R : RangerLeft S) (lassoRef : Str → Lasso S → Except PyErr (FRes S)) (l : Lasso S) :
    Cellwise (R.callElement (recurseElement lassoRef) l) l.st [] (becomes (fun t => lassoRef t (cellContext l))) .valueError where
  lists xs := by simp [RangerLeft.callElement, recurseElement]
  done c y hs h := by
    cases c with
    | str t =>
      simp only [becomes] at h
      simp only [RangerLeft.callElement, recurseElement]
      simp only [cellContext] at h
      cases hr : lassoRef t { sheet := l.sheet, st := l.st, nd := l.nd, baseCoords := l.st } with
      | ok r =>
        rw [hr] at h
        cases r <;> (simp only [Option.some.injEq] at h; right; simp [RangerLeft.runSubs, h])
      | error e =>
        rw [hr] at h
        cases e <;> simp at h
        left
        exact ⟨rfl, h.symm⟩
    | list _ => exact hs.elim
    | dict _ => exact hs.elim
    | _ => simp only [becomes, Option.some.injEq] at h; left; exact ⟨by simp [RangerLeft.callElement, recurseElement], h.symm⟩
  stops c hs h := by
    cases c with
    | str t =>
      simp only [becomes] at h
      simp only [RangerLeft.callElement, recurseElement]
      simp only [cellContext] at h
      cases hr : lassoRef t { sheet := l.sheet, st := l.st, nd := l.nd, baseCoords := l.st } with
      | ok r => rw [hr] at h; cases r <;> simp at h
      | error e => rw [hr] at h; cases e <;> simp at h ⊢
    | list _ => exact hs.elim
    | dict _ => exact hs.elim
    | _ => simp [becomes] at h

/-- The element function of `pyeval` without sub-filters, on the cells of a table. -/
private theorem pyeval_cells {S : Type} (R : RangerLeft S) (eval : Evaluator S) (all : Bool) (l : Lasso S) :
    Cellwise (R.callElement (pyevalElement eval all) l) l.st [] (evaluates all (fun t => (eval t l l.st).map (fun r => .lasso (evaluated l r))))
      .valueError where
  lists xs := by simp [RangerLeft.callElement, pyevalElement]
  done c y hs h := by
    cases c with
    | str t =>
      simp only [evaluates] at h
      simp only [RangerLeft.callElement, pyevalElement]
      cases hr : eval t l l.st with
      | some r =>
        rw [hr] at h
        simp only [Option.map_some, Option.some.injEq] at h
        right
        simp [RangerLeft.runSubs, h]
      | none =>
        rw [hr] at h
        cases all <;> simp at h
        left
        exact ⟨rfl, h.symm⟩
    | list _ => exact hs.elim
    | dict _ => exact hs.elim
    | _ => simp only [evaluates, Option.some.injEq] at h; left; exact ⟨by simp [RangerLeft.callElement, pyevalElement], h.symm⟩
  stops c hs h := by
    cases c with
    | str t =>
      simp only [evaluates] at h
      simp only [RangerLeft.callElement, pyevalElement]
      cases hr : eval t l l.st with
      | some r => rw [hr] at h; simp at h
      | none => rw [hr] at h; cases all <;> simp at h ⊢
    | list _ => exact hs.elim
    | dict _ => exact hs.elim
    | _ => simp [evaluates] at h

private theorem pandas_stay (bc : Option Coords) (d i : Nat) : updBase true d bc i = bc := by
  unfold updBase; cases bc <;> rfl

private theorem no_depth (n : Nat) : (some (-1) : Option Int) ≠ some (n : Int) := by
  intro h; injection h with h; omega

private theorem table_stops {S : Type} (R : RangerLeft S) (ef : EFun S) (l : Lasso S) (f : Doc → Option Doc)
    (hf : Cellwise (R.callElement ef l) l.st [] f .valueError) (above below : List (List Doc)) (left right : List Doc) (bad : Doc)
    (hv : l.values = tableOf (above ++ (left ++ bad :: right) :: below)) (hs : ∀ r ∈ above ++ [left ++ [bad]], ∀ c ∈ r, OneCell c)
    (ha : ∀ r ∈ above, ∀ c ∈ r, f c ≠ none) (hl : ∀ c ∈ left, f c ≠ none) (hbad : f bad = none) :
    R.elementwise true ef [] none none (some (-1)) l =
      (tableOf (above.map (List.map (fun c => (f c).getD c)) ++ (left.map (fun c => (f c).getD c) ++ bad :: right) :: below),
        .error .valueError) := by
  unfold RangerLeft.elementwise
  simp only [parseSubs, hv, tableOf]
  rw [list_is hf no_depth (pandas_stay _)]
  rw [rows_stop hf no_depth (pandas_stay _) above below left right bad 0
    (fun r hr => hs r (by simp [hr])) (fun r hr c hc => Option.isSome_iff_ne_none.2 (ha r hr c hc))
    (fun c hc => hs (left ++ [bad]) (by simp) c (by simp [hc])) (fun c hc => Option.isSome_iff_ne_none.2 (hl c hc))
    (hs (left ++ [bad]) (by simp) bad (by simp)) hbad]

private theorem table_done {S : Type} (R : RangerLeft S) (ef : EFun S) (l : Lasso S) (f : Doc → Option Doc)
    (hf : Cellwise (R.callElement ef l) l.st [] f .valueError) (rows : List (List Doc))
    (hv : l.values = tableOf rows) (hs : ∀ r ∈ rows, ∀ c ∈ r, OneCell c)
    (ha : ∀ r ∈ rows, ∀ c ∈ r, f c ≠ none) :
    (R.elementwise true ef [] none none (some (-1)) l).2 =
      .ok (.lasso { l with values := tableOf (rows.map (List.map (fun c => (f c).getD c))) }) := by
  unfold RangerLeft.elementwise
  simp only [parseSubs, hv, tableOf]
  rw [list_is hf no_depth (pandas_stay _)]
  rw [rows_done hf no_depth (pandas_stay _) rows 0 hs (fun r hr c hc => Option.isSome_iff_ne_none.2 (ha r hr c hc))]

theorem lax_left {S : Type} (R : RangerLeft S) (l : Lasso S) (o : Opts) (ho : l.opts = some o) (func : Str) (args : List Doc)
    (kwds : List (Str × Doc)) (hlax : Lax o kwds) (rec : FRecLeft S) (hr : R.filters func = some rec) (hd : Verbose o → rec.desc = true)
    (v : Doc) (e : PyErr) (hf : rec.func l args (withoutLax kwds) = (v, .error e)) :
    R.makeCall (.lasso l) func args kwds = .ok (.lasso { l with values := v }) := by
  have hk : rec.func l args (ddel kwds "lax".toList) = (v, .error e) := hf
  simp only [RangerLeft.makeCall, ho, hr, hk, verbose_false hd]
  rw [(lax_iff o kwds).2 hlax]
  rfl

section
variable {S : Type} (U : Setup S) (others : OthersLeave S) (n : Nat) (func : Str) (desc : Bool) (l : Lasso S) (o : Opts)
  (kwds : List (Str × Doc))

/-- C154. A lax call of `recurse` on a table in which a reference cannot be followed returns the table with the references of the cells before
that one, row by row, replaced by the values captured there, and with that cell and all after it as they were captured. -/
theorem C154_cells (hp : U.pandas = true) (hk : U.filters func = some (.recurse, desc)) (ho : l.opts = some o) (hlax : Lax o kwds)
    (hd : Verbose o → desc = true) (hnk : withoutLax kwds = [])
    (above below : List (List Doc)) (left right : List Doc) (bad : Doc)
    (hv : l.values = tableOf (above ++ (left ++ bad :: right) :: below)) (hs : ∀ r ∈ above ++ [left ++ [bad]], ∀ c ∈ r, OneCell c)
    (ref : Str → Except PyErr (FRes S)) (href : ref = fun t => (U.rangerLeft others n).doLasso U.api U.jsonLoads t (cellContext l))
    (ha : ∀ r ∈ above, ∀ c ∈ r, becomes ref c ≠ none) (hl : ∀ c ∈ left, becomes ref c ≠ none) (hbad : becomes ref bad = none) :
    (U.rangerLeft others (n + 1)).makeCall (.lasso l) func [] kwds = .ok (.lasso { l with
      values := tableOf (above.map (List.map (followed ref)) ++ (left.map (followed ref) ++ bad :: right) :: below) }) := by
  subst href
  have hf := table_stops (U.rangerLeft others n) _ l _
    (recurse_cells (U.rangerLeft others n) ((U.rangerLeft others n).doLasso U.api U.jsonLoads) l) above below left right bad hv hs ha hl hbad
  refine lax_left _ l o ho func [] kwds hlax ⟨FilterKind.funcLeft (others func) U.pandas U.api U.jsonLoads (U.rangerLeft others n) .recurse, desc⟩
    (by simp [Setup.rangerLeft, hk]) hd _ .valueError ?_
  rw [hnk]
  have hargs : elementArgs recurseNames [] [] = .ok ⟨[], none, none, some (-1), false⟩ := rfl
  simp only [FilterKind.funcLeft, hargs, hp]
  exact hf

/-- C154. So does a lax call of `pyeval` with `eval_all`, on a table with a text that cannot be evaluated. -/
theorem C154_evaluated (hp : U.pandas = true) (eval : Evaluator S) (hk : U.filters func = some (.pyeval eval, desc)) (ho : l.opts = some o)
    (hlax : Lax o kwds) (hd : Verbose o → desc = true) (hnk : withoutLax kwds = [("eval_all".toList, .bool true)])
    (above below : List (List Doc)) (left right : List Doc) (bad : Doc)
    (hv : l.values = tableOf (above ++ (left ++ bad :: right) :: below)) (hs : ∀ r ∈ above ++ [left ++ [bad]], ∀ c ∈ r, OneCell c)
    (ev : Doc → Option Doc) (hev : ev = evaluates true (fun t => (eval t l l.st).map (fun r => .lasso (evaluated l r))))
    (ha : ∀ r ∈ above, ∀ c ∈ r, ev c ≠ none) (hl : ∀ c ∈ left, ev c ≠ none) (hbad : ev bad = none) :
    (U.rangerLeft others (n + 1)).makeCall (.lasso l) func [] kwds = .ok (.lasso { l with
      values := tableOf (above.map (List.map (fun c => (ev c).getD c)) ++ (left.map (fun c => (ev c).getD c) ++ bad :: right) :: below) }) := by
  subst hev
  have hf := table_stops (U.rangerLeft others n) _ l _ (pyeval_cells (U.rangerLeft others n) eval true l) above below left right bad hv hs ha hl hbad
  refine lax_left _ l o ho func [] kwds hlax
    ⟨FilterKind.funcLeft (others func) U.pandas U.api U.jsonLoads (U.rangerLeft others n) (.pyeval eval), desc⟩
    (by simp [Setup.rangerLeft, hk]) hd _ .valueError ?_
  rw [hnk]
  have hargs : elementArgs pyevalNames [] [("eval_all".toList, .bool true)] = .ok ⟨[], none, none, some (-1), true⟩ := rfl
  simp only [FilterKind.funcLeft, hargs, hp]
  exact hf

/-- C154. A lax call of `recurse` or `pyeval` that is refused before any cell is looked at, for wrong arguments or sub-filters that are no
filters, returns what was captured. -/
theorem C154_refused (kind : FilterKind S) (names : List Str) (hk : U.filters func = some (kind, desc)) (ho : l.opts = some o) (hlax : Lax o kwds)
    (hd : Verbose o → desc = true) (args : List Doc)
    (hkind : kind = .recurse ∧ names = recurseNames ∨ ∃ eval, kind = .pyeval eval ∧ names = pyevalNames)
    (hbad : ∀ a, elementArgs names args (withoutLax kwds) = .ok a → ∃ f ∈ a.filters, ∃ e, parseCallSpec f = .error e) :
    (U.rangerLeft others (n + 1)).makeCall (.lasso l) func args kwds = .ok (.lasso l) := by
  have hsub : ∀ fs : List Doc, (∃ f ∈ fs, ∃ e, parseCallSpec f = .error e) → ∃ e, parseSubs fs = .error e := by
    intro fs
    induction fs with
    | nil => rintro ⟨f, hf, _⟩; cases hf
    | cons g fs ih =>
      rintro ⟨f, hf, e, he⟩
      simp only [parseSubs]
      cases hg : parseCallSpec g with
      | error e' => exact ⟨e', rfl⟩
      | ok c =>
        rcases List.mem_cons.1 hf with rfl | hf
        · rw [hg] at he; cases he
        · obtain ⟨e', h'⟩ := ih ⟨f, hf, e, he⟩
          exact ⟨e', by simp [h']⟩
  have hfails : ∃ e, (FilterKind.funcLeft (others func) U.pandas U.api U.jsonLoads (U.rangerLeft others n) kind) l args (withoutLax kwds) =
      (l.values, .error e) := by
    rcases hkind with ⟨rfl, rfl⟩ | ⟨eval, rfl, rfl⟩
    all_goals
      simp only [FilterKind.funcLeft]
      split
      · exact ⟨_, rfl⟩
      · rename_i a ha
        obtain ⟨e, he⟩ := hsub _ (hbad a ha)
        exact ⟨e, by simp only [RangerLeft.elementwise, he]⟩
  obtain ⟨e, he⟩ := hfails
  exact lax_left _ l o ho func args kwds hlax ⟨FilterKind.funcLeft (others func) U.pandas U.api U.jsonLoads (U.rangerLeft others n) kind, desc⟩
    (by simp [Setup.rangerLeft, hk]) hd _ e he

/-- C154. So does a lax call for which there is no stack left. -/
theorem C154_no_stack (kind : FilterKind S) (hk : U.filters func = some (kind, desc)) (ho : l.opts = some o) (hlax : Lax o kwds)
    (hd : Verbose o → desc = true) (args : List Doc) :
    (U.rangerLeft others 0).makeCall (.lasso l) func args kwds = .ok (.lasso l) :=
  lax_left _ l o ho func args kwds hlax ⟨fun l _ _ => (l.values, .error .recursionError), desc⟩
    (by simp [Setup.rangerLeft, hk]) hd _ .recursionError rfl

/-- C154. When all references can be followed, all are replaced, whatever the leniency. -/
theorem C154_all (hp : U.pandas = true) (hk : U.filters func = some (.recurse, desc)) (ho : l.opts = some o) (hnk : withoutLax kwds = [])
    (rows : List (List Doc)) (hv : l.values = tableOf rows) (hs : ∀ r ∈ rows, ∀ c ∈ r, OneCell c)
    (ref : Str → Except PyErr (FRes S)) (href : ref = fun t => (U.rangerLeft others n).doLasso U.api U.jsonLoads t (cellContext l))
    (ha : ∀ r ∈ rows, ∀ c ∈ r, becomes ref c ≠ none) :
    (U.rangerLeft others (n + 1)).makeCall (.lasso l) func [] kwds =
      .ok (.lasso { l with values := tableOf (rows.map (List.map (followed ref))) }) := by
  subst href
  have hf := table_done (U.rangerLeft others n) _ l _
    (recurse_cells (U.rangerLeft others n) ((U.rangerLeft others n).doLasso U.api U.jsonLoads) l) rows hv hs ha
  have hk' : (U.rangerLeft others (n + 1)).filters func =
      some ⟨FilterKind.funcLeft (others func) U.pandas U.api U.jsonLoads (U.rangerLeft others n) .recurse, desc⟩ := by
    simp [Setup.rangerLeft, hk]
  have hargs : elementArgs recurseNames [] [] = .ok ⟨[], none, none, some (-1), false⟩ := rfl
  have hnk' : ddel kwds "lax".toList = [] := hnk
  simp only [RangerLeft.makeCall, ho, hk', hnk', FilterKind.funcLeft, hargs, hp]
  generalize (U.rangerLeft others n).elementwise true (recurseElement ((U.rangerLeft others n).doLasso U.api U.jsonLoads)) [] none none
    (some (-1)) l = q at hf ⊢
  obtain ⟨v, q⟩ := q
  simp only at hf
  subst hf
  simp only [ho]
  rfl

/-- C154. A lax call of `recurse` that fails at the first reference of the table returns what was captured. Missing for the full property:
failing at a later one, see `C154_refuted`. -/
theorem C154_unchanged_partial (hp : U.pandas = true) (hk : U.filters func = some (.recurse, desc)) (ho : l.opts = some o)
    (hlax : Lax o kwds) (hd : Verbose o → desc = true) (hnk : withoutLax kwds = [])
    (above below : List (List Doc)) (left right : List Doc) (bad : Doc)
    (hv : l.values = tableOf (above ++ (left ++ bad :: right) :: below)) (hs : ∀ r ∈ above ++ [left ++ [bad]], ∀ c ∈ r, OneCell c)
    (ref : Str → Except PyErr (FRes S)) (href : ref = fun t => (U.rangerLeft others n).doLasso U.api U.jsonLoads t (cellContext l))
    (ha : ∀ r ∈ above, ∀ c ∈ r, becomes ref c = some c) (hl : ∀ c ∈ left, becomes ref c = some c) (hbad : becomes ref bad = none) :
    (U.rangerLeft others (n + 1)).makeCall (.lasso l) func [] kwds = .ok (.lasso l) := by
  rw [C154_cells U others n func desc l o kwds hp hk ho hlax hd hnk above below left right bad hv hs ref href
    (fun r hr c hc => by rw [ha r hr c hc]; exact fun h => nomatch h) (fun c hc => by rw [hl c hc]; exact fun h => nomatch h) hbad]
  have e1 : left.map (followed ref) = left := by
    conv => rhs; rw [← List.map_id left]
    exact List.map_congr_left (fun c hc => by simp [followed, hl c hc])
  have e2 : above.map (List.map (followed ref)) = above := by
    conv => rhs; rw [← List.map_id above]
    refine List.map_congr_left (fun r hr => ?_)
    conv => rhs; rw [id, ← List.map_id r]
    exact List.map_congr_left (fun c hc => by simp [followed, ha r hr c hc])
  rw [e1, e2, ← hv]

end

/-- A row with a reference to its third cell, one to a sheet that is not there, and a number. -/
def halfCells : Grid := ⟨1, 3, fun _ j => if j = 0 then .str "#C1".toList else if j = 1 then .str "#Nope!A1".toList else .int 7⟩

/-- The recursive filter on that row, with lax calls. -/
def halfSetup : Setup Unit := { gridSetup halfCells laxJson with
  fetch := fun _ sh _ => if sh.isSome then .error .valueError else .ok () }

/-- Filters that change nothing in place. -/
def keepAll : OthersLeave Unit := fun _ l _ _ => l.values

/-- The lasso for the row, before its filters are run. -/
def halfLasso : Lasso Unit :=
  { sheet := some (), st := some ⟨0, 0⟩, nd := some ⟨0, 2⟩, values := tableOf [[.str "#C1".toList, .str "#Nope!A1".toList, .int 7]],
    opts := some [[("lax".toList, .bool false)]] }

/-- What the cells of the row become. -/
private theorem half_cells : becomes (fun t => (halfSetup.rangerLeft keepAll 0).doLasso halfSetup.api halfSetup.jsonLoads t (cellContext halfLasso))
      (.str "#C1".toList) = some (.int 7) ∧
    becomes (fun t => (halfSetup.rangerLeft keepAll 0).doLasso halfSetup.api halfSetup.jsonLoads t (cellContext halfLasso))
      (.str "#Nope!A1".toList) = none := by
  obtain ⟨m, hm, hv⟩ := gaveValues_sound (r := (halfSetup.rangerLeft keepAll 0).doLasso halfSetup.api halfSetup.jsonLoads "#C1".toList
    (cellContext halfLasso)) (v := .int 7) (by decide +kernel)
  refine ⟨by simp only [becomes, hm, hv], ?_⟩
  have h : (match (halfSetup.rangerLeft keepAll 0).doLasso halfSetup.api halfSetup.jsonLoads "#Nope!A1".toList (cellContext halfLasso) with
    | .error .valueError => true
    | _ => false) = true := by decide +kernel
  simp only [becomes]
  generalize (halfSetup.rangerLeft keepAll 0).doLasso halfSetup.api halfSetup.jsonLoads "#Nope!A1".toList (cellContext halfLasso) = r at h
  split at h
  · rfl
  · simp at h

/-- C154, refuted: a lax call that fails at the second reference of a row returns neither what was captured nor the row with its references
followed, but some of both: the first reference was replaced in the captured values themselves. -/
theorem C154_refuted : ∃ (U : Setup Unit) (others : OthersLeave Unit) (t : Str), ∃ l captured,
    (U.rangerLeft others 1).doLasso U.api U.jsonLoads t {} = .ok (.lasso l) ∧
    (U.ranger 1).doLasso U.api U.jsonLoads t {} = .ok (.lasso captured) ∧
    captured.values = tableOf [[.str "#C1".toList, .str "#Nope!A1".toList]] ∧
    l.values = tableOf [[.int 7, .str "#Nope!A1".toList]] := by
  obtain ⟨l, hl, hlv⟩ := gaveValues_sound (r := (halfSetup.rangerLeft keepAll 1).doLasso halfSetup.api halfSetup.jsonLoads
    "#A1:B1:[\"recurse\", {\"lax\": true}]".toList {}) (v := tableOf [[.int 7, .str "#Nope!A1".toList]]) (by decide +kernel)
  obtain ⟨c, hc, hcv⟩ := gaveValues_sound (r := (halfSetup.ranger 1).doLasso halfSetup.api halfSetup.jsonLoads
    "#A1:B1:[\"recurse\", {\"lax\": true}]".toList {}) (v := tableOf [[.str "#C1".toList, .str "#Nope!A1".toList]]) (by decide +kernel)
  exact ⟨halfSetup, keepAll, _, l, c, hl, hc, hcv, hlv⟩

/-- The hypotheses of `C154_cells` can be met. -/
example : (halfSetup.rangerLeft keepAll 1).makeCall (.lasso halfLasso) "recurse".toList [] [("lax".toList, .bool true)] =
    .ok (.lasso { halfLasso with values := tableOf [[.int 7, .str "#Nope!A1".toList, .int 7]] }) :=
  (C154_cells halfSetup keepAll 0 "recurse".toList true halfLasso [[("lax".toList, .bool false)]] [("lax".toList, .bool true)]
    rfl rfl rfl (.inl ⟨_, rfl, by simp [Truth]⟩) (fun _ => rfl) rfl [] [] [.str "#C1".toList] [.int 7] (.str "#Nope!A1".toList) rfl
    (by simp [OneCell]) _ rfl (by simp)
    (by intro c hc; simp at hc; subst hc; exact fun h => nomatch half_cells.1.symm.trans h) half_cells.2).trans
    (by
      have h1 : followed (fun t => (halfSetup.rangerLeft keepAll 0).doLasso halfSetup.api halfSetup.jsonLoads t (cellContext halfLasso))
          (.str "#C1".toList) = .int 7 := by
        unfold followed
        exact (congrArg (fun o => Option.getD o (.str "#C1".toList)) half_cells.1)
      simp only [List.map_cons, List.map_nil, h1]
      rfl)

/-- So can those of `C154_unchanged_partial`. -/
example : (halfSetup.rangerLeft keepAll 1).makeCall (.lasso { halfLasso with values := tableOf [[.int 7, .str "#Nope!A1".toList], [.str "#C1".toList]] })
      "recurse".toList [] [("lax".toList, .bool true)] =
    .ok (.lasso { halfLasso with values := tableOf [[.int 7, .str "#Nope!A1".toList], [.str "#C1".toList]] }) :=
  C154_unchanged_partial halfSetup keepAll 0 "recurse".toList true _ [[("lax".toList, .bool false)]] [("lax".toList, .bool true)]
    rfl rfl rfl (.inl ⟨_, rfl, by simp [Truth]⟩) (fun _ => rfl) rfl [] [[.str "#C1".toList]] [.int 7] [] (.str "#Nope!A1".toList) rfl
    (by simp [OneCell]) _ rfl (by simp) (by simp [becomes]) half_cells.2

/-- And those of `C154_all`. -/
example : (halfSetup.rangerLeft keepAll 1).makeCall (.lasso { halfLasso with values := tableOf [[.int 1], [.str "#C1".toList]] })
      "recurse".toList [] [] =
    .ok (.lasso { halfLasso with values := tableOf [[.int 1], [.int 7]] }) :=
  (C154_all halfSetup keepAll 0 "recurse".toList true { halfLasso with values := tableOf [[.int 1], [.str "#C1".toList]] }
    [[("lax".toList, .bool false)]] [] rfl rfl rfl rfl [[.int 1], [.str "#C1".toList]] rfl (by simp [OneCell]) _ rfl
    (by
      intro r hr c hc
      simp at hr
      rcases hr with rfl | rfl <;> simp at hc <;> subst hc
      · simp [becomes]
      · exact fun h => nomatch half_cells.1.symm.trans h)).trans
    (by
      have h1 : followed (fun t => (halfSetup.rangerLeft keepAll 0).doLasso halfSetup.api halfSetup.jsonLoads t
        (cellContext { halfLasso with values := tableOf [[.int 1], [.str "#C1".toList]] })) (.str "#C1".toList) = .int 7 := by
        unfold followed
        exact (congrArg (fun o => Option.getD o (.str "#C1".toList)) half_cells.1)
      simp only [List.map_cons, List.map_nil, h1]
      rfl)

/-- An expression that doubles the text, and fails on one. -/
def doubling : Evaluator Unit := fun t _ _ => if t = "no".toList then none else some (.other (.str (t ++ t)))

/-- And those of `C154_evaluated`: `[["a", "no", "b"]]`. -/
example :
    ({ halfSetup with filters := fun _ => some (.pyeval doubling, true) }.rangerLeft keepAll 1).makeCall
      (.lasso { halfLasso with values := tableOf [[.str "a".toList, .str "no".toList, .str "b".toList]] }) "pyeval".toList []
      [("lax".toList, .bool true), ("eval_all".toList, .bool true)] =
    .ok (.lasso { halfLasso with values := tableOf [[.str "aa".toList, .str "no".toList, .str "b".toList]] }) :=
  C154_evaluated { halfSetup with filters := fun _ => some (.pyeval doubling, true) } keepAll 0 "pyeval".toList true
    { halfLasso with values := tableOf [[.str "a".toList, .str "no".toList, .str "b".toList]] }
    [[("lax".toList, .bool false)]] [("lax".toList, .bool true), ("eval_all".toList, .bool true)]
    rfl doubling rfl rfl (.inl ⟨_, rfl, by simp [Truth]⟩) (fun _ => rfl) rfl [] [] [.str "a".toList] [.str "b".toList] (.str "no".toList) rfl
    (by simp [OneCell]) _ rfl (by simp) (by intro c hc; simp at hc; subst hc; exact fun h => nomatch h) rfl

/-- The outcomes of `C154_agrees` and `C154_outcome` can be values. -/
example : gaveValues ((halfSetup.rangerLeft keepAll 1).makeCall (.lasso { halfLasso with values := tableOf [[.str "#C1".toList]] })
    "recurse".toList [] []) (tableOf [[.int 7]]) = true := by decide +kernel

/-- Wrong arguments of `recurse`. -/
example : (halfSetup.rangerLeft keepAll 3).makeCall (.lasso halfLasso) "recurse".toList []
    [("lax".toList, .bool true), ("filters".toList, .list [.int 3])] = .ok (.lasso halfLasso) :=
  C154_refused halfSetup keepAll 2 "recurse".toList true halfLasso [[("lax".toList, .bool false)]] _ .recurse recurseNames rfl rfl
    (.inl ⟨_, rfl, by simp [Truth]⟩) (fun _ => rfl) [] (.inl ⟨rfl, rfl⟩) (fun a ha => by
      have : elementArgs recurseNames [] [("filters".toList, .list [.int 3])] = .ok ⟨[.int 3], none, none, some (-1), false⟩ := rfl
      have := this.symm.trans ha
      cases this
      exact ⟨.int 3, by simp, _, rfl⟩)

/-- Texts become 1, but for one that fails. -/
def onesOrFail : EFun Unit := fun l _ x => match x with
  | .str t => if t = "no".toList then .error .valueError else .ok (true, .other (.int 1))
  | _ => .ok (false, .lasso l)

/-- What is left of a list with a dictionary in it, and of its items. -/
example : Halted (answerOf onesOrFail halfLasso) (Selected none none) none
    (.list [.str "a".toList, .dict [("k".toList, .str "b".toList), ("m".toList, .str "no".toList), ("n".toList, .str "c".toList)], .str "d".toList])
    (.list [.int 1, .dict [("k".toList, .int 1), ("m".toList, .str "no".toList), ("n".toList, .str "c".toList)], .str "d".toList]) := by
  refine Halted.list none [.str "a".toList] _ [.str "d".toList] [.int 1] _ rfl (.cons _ _ _ _ _ (.taken _ _ _ (fun h => h) rfl) (.nil _)) ?_
  exact Halted.dict none [("k".toList, .str "b".toList)] "m".toList _ _ [("k".toList, .int 1)] _
    (.item _ _ _ _ _ ⟨by simp, by simp⟩ (.taken _ _ _ (fun h => h) rfl) .nil) ⟨by simp, by simp⟩ (.here _ _ (fun h => h) rfl)

end Props
