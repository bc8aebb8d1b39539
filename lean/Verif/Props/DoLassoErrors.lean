import Verif.Props.DoLasso
import Verif.Lemmas.Truth
import Verif.Props.Filters
set_option linter.unusedSimpArgs false
/-
C67 what may go wrong with a lasso; C68 references completed by their context.
-/
namespace Props
open Py Model Spec Lemmas

variable {S : Type}

private theorem runFilters_err (R : Ranger S) (l : Lasso S) (e : PyErr) (h : R.runFilters l = .error e) :
    e = .valueError := by
  unfold Ranger.runFilters at h
  split at h
  · simp at h
  · split at h <;> simp at h
    exact h.symm

private theorem parseMerge_err {R : Ranger S} {jl : Str → Option Doc} {t : Str} {ctx : Lasso S} {e : PyErr}
    (h : R.parseMerge jl t ctx = .error e) : (e = .syntaxError ∧ parseXlref jl t = .error .syntaxError) ∨ e = .valueError := by
  unfold Ranger.parseMerge at h
  simp only at h
  split at h
  · rename_i hp; simp at h; exact .inl ⟨h.symm, hp⟩
  · simp at h; exact .inr h.symm
  · split at h <;> simp at h
    exact .inr h.symm

/-- The options of a parsed lasso: those of the reference, or the base ones; and its edges. -/
private theorem parseMerge_opts {R : Ranger S} {jl : Str → Option Doc} {t : Str} {ctx l : Lasso S}
    (h : R.parseMerge jl t ctx = .ok l) : ∃ p, parseXlref jl t = .ok p ∧ l.opts = some [p.frag.opts.getD R.baseOpts] ∧
      l.stEdge = p.frag.stEdge.or ctx.stEdge ∧ l.ndEdge = p.frag.ndEdge.or ctx.ndEdge ∧
      l.urlFile = p.urlFile.or ctx.urlFile ∧ l.shName = p.frag.shName.or ctx.shName ∧ l.sheet = ctx.sheet ∧
      l.expMoves = p.frag.expMoves.or ctx.expMoves ∧ l.baseCoords = ctx.baseCoords := by
  unfold Ranger.parseMerge at h
  simp only at h
  split at h
  · simp at h
  · simp at h
  · rename_i p hp
    split at h
    · simp at h
    · simp only [Except.ok.injEq] at h
      subst h
      refine ⟨p, hp, ?_, ?_, ?_, ?_, ?_, rfl, ?_, rfl⟩
      · cases p.frag.opts <;> rfl
      · cases p.frag.stEdge <;> rfl
      · cases p.frag.ndEdge <;> rfl
      · cases p.urlFile <;> rfl
      · cases p.frag.shName <;> rfl
      · cases p.frag.expMoves <;> rfl

/-- Reading the rectangle that a reference, completed by its context, resolves to, in the sheet that it names, raises `e`. -/
def ReadingRaises (R : Ranger S) (A : SheetApi S) (jsonLoads : Str → Option Doc) (xlref : Str) (ctx : Lasso S) (e : PyErr) : Prop :=
  ∃ p sheet m mg st nd, parseXlref jsonLoads xlref = .ok p ∧
    R.fetch (p.urlFile.or ctx.urlFile) (p.frag.shName.or ctx.shName) ctx.sheet = .ok sheet ∧
    A.states sheet = .ok m ∧ A.margins sheet = .ok mg ∧
    resolveText m mg (p.frag.stEdge.or ctx.stEdge) (p.frag.ndEdge.or ctx.ndEdge) (p.frag.expMoves.or ctx.expMoves)
      ctx.baseCoords = .ok (st, nd) ∧
    A.readRect sheet st nd = .error e

/-- C67. Whatever the sheets, filters and options do, a failing lasso raises `SyntaxError`, only for a text
that is no reference; `EmptyCaptureException`, only if `no_empty` is set; what reading the resolved rectangle of the named sheet
raised; or `ValueError`. What is missing: with a first edge and no second one, in the reference or its context, it may also be a `TypeError`
(see `C67_one_edge_refuted`). -/
theorem C67_errors_partial (R : Ranger S) (A : SheetApi S) (jsonLoads : Str → Option Doc) (xlref : Str) (ctx : Lasso S)
    (e : PyErr) (h : R.doLasso A jsonLoads xlref ctx = .error e) :
    e = .valueError ∨
    (e = .syntaxError ∧ parseXlref jsonLoads xlref = .error .syntaxError) ∨
    (e = .emptyCapture ∧ ∃ p, parseXlref jsonLoads xlref = .ok p ∧
      ∃ d, OptVal [p.frag.opts.getD R.baseOpts] "no_empty".toList d ∧ Truth d) ∨
    ReadingRaises R A jsonLoads xlref ctx e ∨
    (e = .typeError ∧ ∃ p, parseXlref jsonLoads xlref = .ok p ∧
      (p.frag.stEdge.or ctx.stEdge).isSome ∧ p.frag.ndEdge.or ctx.ndEdge = none) := by
  unfold Ranger.doLasso at h
  split at h
  · rename_i e' hp
    simp only [Except.error.injEq] at h; subst h
    rcases parseMerge_err hp with h | h
    · exact .inr (.inl h)
    · exact .inl h
  · rename_i l hp
    obtain ⟨p, hpp, ho, hst, hnd, hurl, hsh, hsheet, hexp, hbase⟩ := parseMerge_opts hp
    split at h
    · simp at h; exact .inl h.symm
    · rename_i sheet hs
      simp only at h
      split at h
      · rename_i e' hr
        simp only [Except.error.injEq] at h; subst h
        unfold resolveRect at hr
        simp only at hr
        split at hr
        · simp at hr
        · rw [ho] at hr
          simp only at hr
          split at hr
          · rename_i hno
            simp only [Except.error.injEq] at hr; subst hr
            refine .inr (.inr (.inl ⟨rfl, p, hpp, ?_⟩))
            cases hg : dget (p.frag.opts.getD R.baseOpts) "no_empty".toList with
            | none => simp only [Opts.get, List.findSome?_cons, hg, List.findSome?_nil, Option.getD_none] at hno; simp [Doc.truthy] at hno
            | some d =>
              simp only [Opts.get, List.findSome?_cons, hg, Option.getD_some] at hno
              exact ⟨d, ⟨[], _, [], rfl, by simp, hg⟩, (Lemmas.truthy_iff d).1 hno⟩
          · simp at hr
        · split at hr
          · rename_i hed
            simp only [Except.error.injEq] at hr
            rw [hst, hnd, Bool.and_eq_true] at hed
            exact .inr (.inr (.inr (.inr ⟨hr.symm, p, hpp, hed.1, by simpa using hed.2⟩)))
          · simp at hr; exact .inl hr.symm
      · exact .inl (runFilters_err _ _ _ h)
      · rename_i st nd hrect
        split at h
        · rename_i e' hr
          simp only [Except.error.injEq] at h; subst h
          rw [hurl, hsh, hsheet] at hs
          unfold resolveRect at hrect
          simp only at hrect
          split at hrect
          · rename_i hres
            cases hm : A.states sheet with
            | error e => rw [hm] at hres; simp at hres
            | ok m =>
              rw [hm] at hres
              cases hg : A.margins sheet with
              | error e => rw [hg] at hres; simp at hres
              | ok mg =>
                rw [hg, hst, hnd, hexp, hbase] at hres
                simp only [Except.ok.injEq, Option.some.injEq] at hrect
                subst hrect
                exact .inr (.inr (.inr (.inl ⟨p, sheet, m, mg, st, nd, hpp, hs, hm, hg, hres, hr⟩)))
          · split at hrect
            · simp at hrect
            · split at hrect <;> simp at hrect
          · split at hrect <;> simp at hrect
        · exact .inl (runFilters_err _ _ _ h)

/-- C67. With two edges, or with none, all errors are the documented ones. -/
theorem C67_two_edges_partial (R : Ranger S) (A : SheetApi S) (jsonLoads : Str → Option Doc) (xlref : Str) (ctx : Lasso S)
    (hnd : ∀ p, parseXlref jsonLoads xlref = .ok p → (p.frag.stEdge.or ctx.stEdge).isSome → (p.frag.ndEdge.or ctx.ndEdge).isSome)
    (e : PyErr) (h : R.doLasso A jsonLoads xlref ctx = .error e) :
    e = .valueError ∨
    (e = .syntaxError ∧ parseXlref jsonLoads xlref = .error .syntaxError) ∨
    (e = .emptyCapture ∧ ∃ p, parseXlref jsonLoads xlref = .ok p ∧
      ∃ d, OptVal [p.frag.opts.getD R.baseOpts] "no_empty".toList d ∧ Truth d) ∨
    ReadingRaises R A jsonLoads xlref ctx e := by
  rcases C67_errors_partial R A jsonLoads xlref ctx e h with h | h | h | h | ⟨_, p, hp, h1, h2⟩
  · exact .inl h
  · exact .inr (.inl h)
  · exact .inr (.inr (.inl h))
  · exact .inr (.inr (.inr h))
  · have := hnd p hp h1
    rw [h2] at this; simp at this

/-- C67. A text that is no reference always raises `SyntaxError`, before any sheet is opened. -/
theorem C67_not_a_reference (R : Ranger S) (A : SheetApi S) (jsonLoads : Str → Option Doc) (xlref : Str)
    (ctx : Lasso S) (h : parseXlref jsonLoads xlref = .error .syntaxError) :
    R.doLasso A jsonLoads xlref ctx = .error .syntaxError := by
  simp [Ranger.doLasso, Ranger.parseMerge, h]

/-- C67. An empty capture is an empty list of values without coordinates, unless `no_empty` is set: then
it is an `EmptyCaptureException`. -/
theorem C67_empty_capture (R : Ranger S) (A : SheetApi S) (jsonLoads : Str → Option Doc) (xlref : Str)
    (base : Option S) (p : XlRef) (hp : parseXlref jsonLoads xlref = .ok p) (henc : p.encased = none)
    (hcall : p.frag.callSpec = none) (sheet : S) (hf : R.fetch p.urlFile p.frag.shName base = .ok sheet)
    (m : Mat) (mg : Coords × Coords) (hs : A.states sheet = .ok m) (hm : A.margins sheet = .ok mg)
    (h : resolveText m mg p.frag.stEdge p.frag.ndEdge p.frag.expMoves none = .error .emptyCapture) :
    ((∃ d, OptVal [p.frag.opts.getD R.baseOpts] "no_empty".toList d ∧ Truth d) →
      R.doLasso A jsonLoads xlref { sheet := base } = .error .emptyCapture) ∧
    ((∀ d, OptVal [p.frag.opts.getD R.baseOpts] "no_empty".toList d → ¬ Truth d) →
      ∃ l, R.doLasso A jsonLoads xlref { sheet := base } = .ok (.lasso l) ∧ l.values = .list [] ∧
        l.st = none ∧ l.nd = none) := by
  have ov : ∀ {α : Type} (x : Option α), overlay x none = x := by intro α x; cases x <;> rfl
  have ho : overlay (p.frag.opts.map (fun o => [o])) (some [R.baseOpts]) = some [p.frag.opts.getD R.baseOpts] := by
    cases p.frag.opts <;> rfl
  have key : ∀ b, (Opts.get [p.frag.opts.getD R.baseOpts] "no_empty".toList (.bool false)).truthy = b →
      R.doLasso A jsonLoads xlref { sheet := base } = if b = true then .error .emptyCapture else
        .ok (.lasso { xlRef := some p.xlRef, urlFile := p.urlFile, shName := p.frag.shName, stEdge := p.frag.stEdge,
                      ndEdge := p.frag.ndEdge, expMoves := p.frag.expMoves, sheet := some sheet,
                      values := .list [], opts := some [p.frag.opts.getD R.baseOpts] }) := by
    intro b hb
    unfold Ranger.doLasso Ranger.parseMerge
    simp only [hp, henc, Option.isSome_none, Bool.false_eq_true, if_false, ov, ho, hf, resolveRect, hs, hm, h, hb,
      hcall]
    cases b <;> simp [Ranger.runFilters]
  constructor
  · rintro ⟨d, ⟨pre, layer, post, h1, h2, h3⟩, hd⟩
    rw [key true, if_pos rfl]
    cases pre with
    | cons a pre => simp at h1
    | nil =>
      simp only [List.nil_append, List.cons.injEq] at h1
      rw [Opts.get, List.findSome?_cons, h1.1, h3]; exact (Lemmas.truthy_iff d).2 hd
  · intro hall
    rw [key false]
    · exact ⟨_, rfl, rfl, rfl, rfl⟩
    · cases hg : dget (p.frag.opts.getD R.baseOpts) "no_empty".toList with
      | none => rw [Opts.get, List.findSome?_cons, hg]; rfl
      | some d =>
        rw [Opts.get, List.findSome?_cons, hg]
        have := hall d ⟨[], _, [], rfl, by simp, hg⟩
        rw [← Lemmas.truthy_iff, Bool.not_eq_true] at this
        exact this

/-- A sheet without any full cell, read with `no_empty` or without. -/
def emptySheetRanger (noEmpty : Bool) : Ranger Grid where
  fetch _ _ s := match s with
    | some s => .ok s
    | none => .error .valueError
  baseOpts := [("no_empty".toList, .bool noEmpty)]
  filters _ := none

example : (emptySheetRanger true).doLasso arrayApi (fun _ => none) "#A1(RD)".toList
    { sheet := some ⟨2, 2, fun _ _ => .null⟩ } = .error .emptyCapture := by rfl
example : ∃ l, (emptySheetRanger false).doLasso arrayApi (fun _ => none) "#A1(RD)".toList
    { sheet := some ⟨2, 2, fun _ _ => .null⟩ } = .ok (.lasso l) ∧ l.values = .list [] := ⟨_, by rfl, by rfl⟩
/-- The hypothesis of `C67_two_edges_partial` holds of references with a colon. -/
example : ∀ p, parseXlref (fun _ => none) "#R.C.:A1".toList = .ok p →
    (p.frag.stEdge.or none).isSome → (p.frag.ndEdge.or none).isSome := by
  intro p hp _
  have : (match parseXlref (fun _ => none) "#R.C.:A1".toList with
    | .ok p => (p.frag.ndEdge.or none).isSome
    | .error _ => false) = true := by decide +kernel
  rw [hp] at this; exact this
example : (emptySheetRanger true).doLasso arrayApi (fun _ => none) "A1(RD)".toList
    { sheet := some ⟨2, 2, fun _ _ => .null⟩ } = .error .syntaxError := by rfl

/-- C67, refuted in part. A reference of one edge, relative to a cell that is not given, raises `TypeError`; while with its second edge written it is a `ValueError`, as the documentation has it. -/
theorem C67_one_edge_refuted :
    (emptySheetRanger true).doLasso arrayApi (fun _ => none) "#R.C.".toList { sheet := some ⟨2, 2, fun _ _ => .null⟩ } =
      .error .typeError ∧
    (emptySheetRanger true).doLasso arrayApi (fun _ => none) "#R.C.:A1".toList { sheet := some ⟨2, 2, fun _ _ => .null⟩ } =
      .error .valueError := ⟨by rfl, by rfl⟩

/-- The lasso a reference and its context make together: a field is the one of the reference if it has it,
else the one of the context. -/
structure Completes (p : XlRef) (ctx l : Lasso S) : Prop where
  url : (∀ u, p.urlFile = some u → l.urlFile = some u) ∧ (p.urlFile = none → l.urlFile = ctx.urlFile)
  sheetName : (∀ u, p.frag.shName = some u → l.shName = some u) ∧ (p.frag.shName = none → l.shName = ctx.shName)
  st : (∀ u, p.frag.stEdge = some u → l.stEdge = some u) ∧ (p.frag.stEdge = none → l.stEdge = ctx.stEdge)
  nd : (∀ u, p.frag.ndEdge = some u → l.ndEdge = some u) ∧ (p.frag.ndEdge = none → l.ndEdge = ctx.ndEdge)
  exp : (∀ u, p.frag.expMoves = some u → l.expMoves = some u) ∧ (p.frag.expMoves = none → l.expMoves = ctx.expMoves)
  call : (∀ u, p.frag.callSpec = some u → l.callSpec = some u) ∧ (p.frag.callSpec = none → l.callSpec = ctx.callSpec)
  sheet : l.sheet = ctx.sheet
  base : l.baseCoords = ctx.baseCoords

/-- C68. Each part of a reference wins over the context, and the context completes the missing parts. -/
theorem C68_context (R : Ranger S) (jsonLoads : Str → Option Doc) (xlref : Str) (ctx : Lasso S) (p : XlRef)
    (hp : parseXlref jsonLoads xlref = .ok p) (henc : p.encased = none) :
    ∃ l, R.parseMerge jsonLoads xlref ctx = .ok l ∧ Completes p ctx l := by
  refine ⟨_, by simp [Ranger.parseMerge, hp, henc]; rfl, ?_⟩
  constructor <;> first | rfl | skip
  all_goals constructor
  all_goals intros; simp_all [overlay]

/-- C68. Without context, lassoing fetches exactly the workbook and the sheet written in the reference. -/
theorem C68_fetches_what_is_written (R : Ranger S) (A : SheetApi S) (jsonLoads : Str → Option Doc) (xlref : Str)
    (p : XlRef) (hp : parseXlref jsonLoads xlref = .ok p) (henc : p.encased = none) (e : PyErr)
    (h : R.fetch p.urlFile p.frag.shName none = .error e) :
    R.doLasso A jsonLoads xlref {} = .error .valueError := by
  have h1 : overlay p.urlFile none = p.urlFile := by cases p.urlFile <;> rfl
  have h2 : overlay p.frag.shName none = p.frag.shName := by cases p.frag.shName <;> rfl
  simp [Ranger.doLasso, Ranger.parseMerge, hp, henc, h1, h2, h]

end Props
