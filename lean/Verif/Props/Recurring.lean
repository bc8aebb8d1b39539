import Verif.Lemmas.MoreStack
import Verif.Props.Recursive
/-
C133: references that lead to references.
-/
namespace Props
open Py Model Spec Lemmas

section
variable {S : Type} (U : Setup S)

/-- C133. If no reference leads to itself, the result of a call, be it a value or an error, does not depend on the recursion limit once it is
large enough, whatever filters are called within one another, and whether they are lax or not. -/
theorem C133_settles (hm : MakeNoReferences U) (hc : NoCycles U) (t : Str) (ctx : Lasso S) : Settles (fun n => U.doLasso n t ctx) :=
  settles_all U hm hc t ctx

/-- C133, partial: where nothing is lax, a call that returns something with some recursion limit returns the same with any greater one, also
if some references lead to themselves. Missing: lax calls, see `C133_lax_refuted`. -/
theorem C133_more_stack_partial (hj : NothingLax U) (ho : KeepOptions U) (t : Str) (ctx : Lasso S) (hctx : ctx.callSpec = none) (n m : Nat)
    (hnm : n ≤ m) (r : FRes S) (h : U.doLasso n t ctx = .ok r) : U.doLasso m t ctx = .ok r := by
  induction hnm with
  | refl => exact h
  | step _ ih => exact ((more_stack U hj ho _).2 t ctx r (fun c hc => by rw [hctx] at hc; cases hc) ih).2

/-- The recursive filter of the reference `t`, which is not lax, looks at the text `t'` in the context `ctx'`. -/
def Follows (t : Str) (ctx : Lasso S) (t' : Str) (ctx' : Lasso S) : Prop :=
  ∃ l c a desc opts p bc, Captures U t ctx l ∧ l.callSpec = some c ∧ U.filters c.func = some (.recurse, desc) ∧ l.opts = some opts ∧
    ((dget c.kwds "lax".toList).getD (opts.get "lax".toList (.bool false))).truthy = false ∧
    elementArgs recurseNames c.args (ddel c.kwds "lax".toList) = .ok a ∧
    LookedAt U.pandas a.incl a.excl a.depth l p (.str t') bc ∧ ctx' = contextAt l bc

private theorem captured_is {t : Str} {ctx l : Lasso S} (h : Captures U t ctx l) (n : Nat) : U.doLasso n t ctx = (U.ranger n).runFilters l := by
  rcases captured U t ctx with ⟨e, -, hno⟩ | ⟨l', p', hc', hl', -⟩
  · exact absurd h (hno l)
  · have := hc'.symm.trans h
    cases this
    exact hl' n

private theorem run_failed (R : Ranger S) {l : Lasso S} {c : CallSpec} {opts : Opts} {i : FRec S} {e : PyErr} (h : l.callSpec = some c)
    (ho : l.opts = some opts) (hi : R.filters c.func = some i)
    (hlax : ((dget c.kwds "lax".toList).getD (opts.get "lax".toList (.bool false))).truthy = false)
    (he : i.func l c.args (ddel c.kwds "lax".toList) = .error e) : R.runFilters l = .error .valueError := by
  have : ∃ e', R.makeCall (.lasso l) c.func c.args c.kwds = .error e' := by
    rw [makeCall_known R ho hi, he]
    unfold afterCall
    simp only [hlax]
    split
    · exact ⟨_, rfl⟩
    · exact ⟨_, rfl⟩
  obtain ⟨e', he'⟩ := this
  unfold Ranger.runFilters
  rw [h]
  simp only [he']

/-- C133. References that lead to themselves, over any number of others, are errors, whatever the recursion limit: they neither run forever nor
are left as they are. -/
theorem C133_cycle (C : Str → Lasso S → Prop) (hC : ∀ t ctx, C t ctx → ∃ t' ctx', Follows U t ctx t' ctx' ∧ C t' ctx') (n : Nat) :
    ∀ t ctx, C t ctx → U.doLasso n t ctx = .error .valueError := by
  induction n with
  | zero =>
    intro t ctx ht
    obtain ⟨t', ctx', ⟨l, c, a, desc, opts, p, bc, hcap, hcs, hf, ho, hlax, -⟩, -⟩ := hC t ctx ht
    rw [captured_is U hcap]
    exact run_failed (U.ranger 0) hcs ho (i := ⟨fun _ _ _ => .error .recursionError, desc⟩) (by rw [filters_zero, hf]; rfl) hlax rfl
  | succ n ih =>
    intro t ctx ht
    obtain ⟨t', ctx', ⟨l, c, a, desc, opts, p, bc, hcap, hcs, hf, ho, hlax, ha, hlook, rfl⟩, ht'⟩ := hC t ctx ht
    obtain ⟨e1, he1⟩ := C74_failures_reported (U.ranger n) U.pandas ((U.ranger n).doLasso U.api U.jsonLoads) a.filters a.incl a.excl
      a.depth l p t' bc hlook .valueError (fun h => nomatch h) (ih t' _ ht')
    rw [captured_is U hcap]
    refine run_failed (U.ranger (n + 1)) hcs ho (i := ⟨FilterKind.func U.pandas U.api U.jsonLoads (U.ranger n) .recurse, desc⟩)
      (by rw [filters_succ, hf]; rfl) hlax (e := e1) ?_
    simp only [FilterKind.func, ha, he1]
    rfl

/-- What is captured is what was read from a sheet, or nothing. -/
private theorem captured_values {t : Str} {ctx l : Lasso S} (h : Captures U t ctx l) :
    l.values = .list [] ∨ ∃ sheet st nd v, U.api.readRect sheet st nd = .ok v ∧ l.values = v.toDoc := by
  have hbare : ∀ l m : Lasso S, Ranger.runFilters
      ⟨U.fetch, U.baseOpts, fun _ => some ⟨fun l _ _ => .ok (.lasso l), true⟩⟩ l = .ok (.lasso m) → m = l := by
    intro l m h
    unfold Ranger.runFilters at h
    cases hc : l.callSpec with
    | none => rw [hc] at h; cases h; rfl
    | some c =>
      rw [hc] at h
      simp only [Ranger.makeCall] at h
      cases ho : l.opts with
      | none => simp [ho] at h
      | some o => simp [ho] at h; exact h.symm
  unfold Captures Ranger.doLasso at h
  split at h
  · cases h
  · split at h
    · cases h
    · simp only at h
      split at h
      · cases h
      · rw [hbare _ _ h]; exact .inl rfl
      · split at h
        · cases h
        · rename_i v hv
          rw [hbare _ _ h]
          exact .inr ⟨_, _, _, v, hv, rfl⟩

end

/-- A sheet of cells that are all there is. -/
def gridApi (g : Grid) : SheetApi Unit where
  states _ := arrayApi.states g
  margins _ := arrayApi.margins g
  readRect _ := arrayApi.readRect g

/-- The recursive filter on one sheet; `json` is what the filters of all references say. -/
def gridSetup (g : Grid) (json : Doc) : Setup Unit where
  fetch _ _ _ := .ok ()
  baseOpts := [("lax".toList, .bool false)]
  filters f := if f = "recurse".toList then some (.recurse, true) else none
  pandas := true
  api := gridApi g
  jsonLoads _ := some json

/-- `["recurse"]` -/
def recurseJson : Doc := .list [.str "recurse".toList]

/-- A reference to a reference to a number. -/
def chainCells : Grid := ⟨2, 2, fun i j =>
  if i = 0 ∧ j = 0 then .str "#B1:[\"recurse\"]".toList else if i = 0 ∧ j = 1 then .str "#A2".toList else .int 5⟩

private theorem grid_makes (g : Grid) (json : Doc) : MakeNoReferences (gridSetup g json) ∧ KeepOptions (gridSetup g json) := by
  constructor <;>
  · intro name i h
    simp only [gridSetup] at h
    split at h <;> cases h
    trivial

/-- The number is found, if there is enough stack. -/
example : (match (gridSetup chainCells recurseJson).doLasso 2 "#A1:[\"recurse\"]".toList {} with
    | .ok (.lasso l) => (match l.values with | .int i => i == 5 | _ => false)
    | _ => false) = true ∧
    (match (gridSetup chainCells recurseJson).doLasso 1 "#A1:[\"recurse\"]".toList {} with
    | .error .valueError => true
    | _ => false) = true := by decide +kernel

/-- Nothing is lax there. -/
example : NothingLax (gridSetup chainCells recurseJson) ∧ KeepOptions (gridSetup chainCells recurseJson) := by
  refine ⟨⟨rfl, fun t d h hl => ?_⟩, (grid_makes _ _).2⟩
  cases h
  cases hl with
  | item _ x hx hl =>
    rcases List.mem_singleton.1 hx with rfl
    cases hl

private def toB1 : Str := "#B1:[\"recurse\"]".toList
private def toA2 : Str := "#A2".toList

private theorem chain_texts {u : Str} (st : Coords) (nd : Option Coords) (v : Captured) (h : chainCells.readRect st nd = .ok v)
    (hu : TextIn u v.toDoc) : u = toB1 ∨ u = toA2 := by
  have hval : ∀ i j, TextIn u (chainCells.val i j) → u = toB1 ∨ u = toA2 := by
    intro i j h
    simp only [chainCells] at h
    split at h
    · cases h; exact .inl rfl
    · split at h
      · cases h; exact .inr rfl
      · cases h
  unfold Grid.readRect at h
  split at h
  · cases h
  · split at h
    · split at h
      · cases h; exact hval _ _ hu
      · cases h
    · cases h
      cases hu with
      | item _ x hx hu =>
        obtain ⟨row, hr, rfl⟩ := List.mem_map.1 hx
        obtain ⟨i, -, rfl⟩ := List.mem_map.1 hr
        cases hu with
        | item _ y hy hu =>
          obtain ⟨j, -, rfl⟩ := List.mem_map.1 hy
          exact hval _ _ hu

set_option maxRecDepth 10000 in
private theorem from_A2 (sheet : Option Unit) (st nd bc : Option Coords) :
    ∃ l, Captures (gridSetup chainCells recurseJson) toA2 (foundIn sheet st nd bc) l ∧ l.values = .int 5 := ⟨_, rfl, rfl⟩

set_option maxRecDepth 10000 in
private theorem from_B1 (sheet : Option Unit) (st nd bc : Option Coords) :
    ∃ l, Captures (gridSetup chainCells recurseJson) toB1 (foundIn sheet st nd bc) l ∧ l.values = .str toA2 := ⟨_, rfl, rfl⟩

private theorem same_capture {U : Setup Unit} {t : Str} {ctx l m : Lasso Unit} (h : Captures U t ctx l) (h' : Captures U t ctx m) : l = m := by
  have := h.symm.trans h'
  cases this
  rfl

/-- In that sheet no reference leads to itself. -/
theorem chain_no_cycles : NoCycles (gridSetup chainCells recurseJson) := by
  refine Subrelation.wf (r := InvImage (· < ·) (fun t : Str => if t = toA2 then 0 else if t = toB1 then 1 else 2)) ?_ (InvImage.wf _ Nat.lt_wfRel.wf)
  rintro u t ⟨sheet, st, nd, bc, l, hc, hu, -⟩
  have hu' : u = toB1 ∨ u = toA2 := by
    rcases captured_values _ hc with h | ⟨_, _, _, v, hv, h⟩
    · rw [h] at hu
      cases hu with
      | item _ x hx => cases hx
    · exact chain_texts _ _ v hv (h ▸ hu)
  have hne : toB1 ≠ toA2 := by decide +kernel
  show (if u = toA2 then 0 else if u = toB1 then 1 else 2) < (if t = toA2 then 0 else if t = toB1 then 1 else 2)
  by_cases h0 : t = toA2
  · subst h0
    obtain ⟨m, hm, hv⟩ := from_A2 sheet st nd bc
    rw [same_capture hc hm, hv] at hu
    cases hu
  · by_cases h1 : t = toB1
    · subst h1
      obtain ⟨m, hm, hv⟩ := from_B1 sheet st nd bc
      rw [same_capture hc hm, hv] at hu
      cases hu
      rw [if_pos rfl, if_neg hne, if_pos rfl]
      decide
    · rw [if_neg h0, if_neg h1]
      rcases hu' with rfl | rfl
      · rw [if_neg hne, if_pos rfl]; decide
      · rw [if_pos rfl]; decide

/-- So its references settle. -/
example (t : Str) (ctx : Lasso Unit) : Settles (fun n => (gridSetup chainCells recurseJson).doLasso n t ctx) :=
  C133_settles _ (grid_makes _ _).1 chain_no_cycles t ctx

/-- Two cells that refer to one another. -/
def ringCells : Grid := ⟨1, 2, fun _ j => if j = 0 then .str "#B1:[\"recurse\"]".toList else .str "#A1:[\"recurse\"]".toList⟩

private def toA1 : Str := "#A1:[\"recurse\"]".toList

set_option maxRecDepth 10000 in
/-- They are errors, with any recursion limit. -/
example (n : Nat) : (gridSetup ringCells recurseJson).doLasso n "#A1:[\"recurse\"]".toList {} = .error .valueError := by
  refine C133_cycle _ (fun t ctx => (t = toA1 ∨ t = toB1) ∧ ∃ sheet st nd bc, ctx = foundIn sheet st nd bc) ?_ n _ _
    ⟨.inl rfl, none, none, none, none, rfl⟩
  rintro t ctx ⟨rfl | rfl, sheet, st, nd, bc, rfl⟩
  · exact ⟨toB1, _, ⟨_, ⟨"recurse".toList, [], []⟩, _, _, _, [], _, rfl, rfl, rfl, rfl, rfl, rfl, .root (by decide), rfl⟩,
      .inr rfl, _, _, _, _, rfl⟩
  · exact ⟨toA1, _, ⟨_, ⟨"recurse".toList, [], []⟩, _, _, _, [], _, rfl, rfl, rfl, rfl, rfl, rfl, .root (by decide), rfl⟩,
      .inl rfl, _, _, _, _, rfl⟩

/-- `["recurse", {"lax": true}]` -/
def laxJson : Doc := .list [.str "recurse".toList, .dict [("lax".toList, .bool true)]]

/-- A reference to the row it is in. -/
def rowRef : Str := "#A1:B1:[\"recurse\", {\"lax\": true}]".toList

/-- A row with a reference to it, and a number. -/
def rowCells : Grid := ⟨1, 2, fun _ j => if j = 0 then .str rowRef else .int 1⟩

/-- The row, in itself so many times. -/
def nested : Nat → Doc
  | 0 => .list [.list [.str rowRef, .int 1]]
  | n + 1 => .list [.list [nested n, .int 1]]

set_option maxRecDepth 10000 in
private theorem row_captured (sheet : Option Unit) (st nd bc : Option Coords) :
    ∃ l, Captures (gridSetup rowCells laxJson) rowRef (foundIn sheet st nd bc) l ∧ l.values = nested 0 ∧
      l.callSpec = some ⟨"recurse".toList, [], [("lax".toList, .bool true)]⟩ ∧ (∃ o, l.opts = some o) ∧
      l.st = some ⟨0, 0⟩ := ⟨_, rfl, rfl, rfl, ⟨_, rfl⟩, rfl⟩

private theorem row_dive (R : Ranger Unit) (l : Lasso Unit) (lassoRef : Str → Lasso Unit → Except PyErr (FRes Unit)) (m : Lasso Unit)
    (hv : l.values = nested 0) (hm : lassoRef rowRef { sheet := l.sheet, st := l.st, nd := l.nd, baseCoords := l.st } = .ok (.lasso m)) :
    R.elementwise true (recurseElement lassoRef) [] none none (some (-1)) l = .ok { l with values := .list [.list [m.values, .int 1]] } := by
  have hb : ∀ d i, updBase true d l.st i = l.st := by
    intro d i
    unfold updBase
    cases l.st <;> rfl
  unfold Ranger.elementwise
  simp [hv, nested, parseSubs, dive, diveList, hb, diveLeaf, Ranger.callElement, recurseElement, hm, Ranger.runSubs]

private theorem row_level (n : Nat) : ∀ sheet st nd bc, ∃ l,
    (gridSetup rowCells laxJson).doLasso n rowRef (foundIn sheet st nd bc) = .ok (.lasso l) ∧ l.values = nested n := by
  induction n with
  | zero =>
    intro sheet st nd bc
    obtain ⟨l, hc, hv, hs, ⟨o, ho⟩, hst⟩ := row_captured sheet st nd bc
    refine ⟨l, ?_, hv⟩
    rw [captured_is _ hc]
    unfold Ranger.runFilters
    rw [hs]
    simp only
    rw [makeCall_known _ ho (i := ⟨fun _ _ _ => .error .recursionError, true⟩) rfl]
    unfold afterCall
    simp [dget, Doc.truthy]
  | succ n ih =>
    intro sheet st nd bc
    obtain ⟨l, hc, hv, hs, ⟨o, ho⟩, hst⟩ := row_captured sheet st nd bc
    rw [captured_is _ hc]
    unfold Ranger.runFilters
    rw [hs]
    simp only
    rw [makeCall_known _ ho (i := ⟨FilterKind.func true (gridApi rowCells) (fun _ => some laxJson) ((gridSetup rowCells laxJson).ranger n) .recurse, true⟩) rfl]
    have hd : ddel [("lax".toList, Doc.bool true)] "lax".toList = [] := rfl
    have ha : elementArgs recurseNames [] [] = .ok ⟨[], none, none, some (-1), false⟩ := rfl
    obtain ⟨m, hm, hmv⟩ := ih l.sheet l.st l.nd l.st
    have := row_dive ((gridSetup rowCells laxJson).ranger n) l
      (Ranger.doLasso ((gridSetup rowCells laxJson).ranger n) (gridApi rowCells) (fun _ => some laxJson)) m hv hm
    refine ⟨{ l with values := nested (n + 1) }, ?_, rfl⟩
    simp only [FilterKind.func, hd, ha, this, hmv, nested]
    rfl

private theorem nested_inj : ∀ n m, nested n = nested m → n = m
  | 0, 0, _ => rfl
  | 0, m + 1, h => by
    have : Doc.str rowRef = nested m := by simp only [nested] at h; injection h with h; injection h with h; injection h with h; injection h
    cases m <;> cases this
  | n + 1, 0, h => by
    have : nested n = Doc.str rowRef := by simp only [nested] at h; injection h with h; injection h with h; injection h with h; injection h
    cases n <;> cases this
  | n + 1, m + 1, h => by
    have : nested n = nested m := by simp only [nested] at h; injection h with h; injection h with h; injection h with h; injection h
    rw [nested_inj n m this]

/-- C133, refuted for lax calls: with a lax reference to its own row the result is a value with any recursion limit, and another one with
each limit. -/
theorem C133_lax_refuted : ∃ (U : Setup Unit) (t : Str), MakeNoReferences U ∧ KeepOptions U ∧
    (∀ n, ∃ l, U.doLasso n t {} = .ok (.lasso l)) ∧
    (∀ n m l l', U.doLasso n t {} = .ok (.lasso l) → U.doLasso m t {} = .ok (.lasso l') → l.values = l'.values → n = m) ∧
    ¬ Settles (fun n => U.doLasso n t {}) := by
  have hinj : ∀ n m l l', (gridSetup rowCells laxJson).doLasso n rowRef {} = .ok (.lasso l) →
      (gridSetup rowCells laxJson).doLasso m rowRef {} = .ok (.lasso l') → l.values = l'.values → n = m := by
    intro n m l l' h h' hv
    obtain ⟨k, hk, hkv⟩ := row_level n none none none none
    obtain ⟨k', hk', hkv'⟩ := row_level m none none none none
    have e := hk.symm.trans h
    have e' := hk'.symm.trans h'
    cases e; cases e'
    rw [hkv, hkv'] at hv
    exact nested_inj n m hv
  have hall : ∀ n, ∃ l, (gridSetup rowCells laxJson).doLasso n rowRef {} = .ok (.lasso l) := fun n =>
    (row_level n none none none none).imp fun _ h => h.1
  refine ⟨gridSetup rowCells laxJson, rowRef, (grid_makes _ _).1, (grid_makes _ _).2, hall, hinj, ?_⟩
  rintro ⟨N, h⟩
  obtain ⟨l, hl⟩ := hall N
  have := hinj (N + 1) N l l ((h (N + 1) (Nat.le_succ N)).trans hl) hl rfl
  omega

end Props
