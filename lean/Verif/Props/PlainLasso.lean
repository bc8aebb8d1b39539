import Verif.Props.Reference
/-
All outcomes of a lasso without filters, for the proofs that compare two of them (C140, C144).
-/
namespace Props
open Py Model Spec

/-- What a lasso without filters comes to, by the rectangle that is resolved. -/
def plainOutcome {S : Type} (A : SheetApi S) (noEmpty lone : Bool) (s : S) (mk : Option Coords → Option Coords → Doc → Lasso S)
    (rect : Except PyErr (Coords × Option Coords)) : Except PyErr (FRes S) :=
  match rect with
  | .ok (st, nd) =>
    match A.readRect s st nd with
    | .error e => .error e
    | .ok v => .ok (.lasso (mk (some st) nd v.toDoc))
  | .error .emptyCapture => if noEmpty then .error .emptyCapture else .ok (.lasso (mk none none (.list [])))
  | .error _ => .error (if lone then .typeError else .valueError)

/-- The rectangle, with what the sheet reports. -/
def rectOn {S : Type} (A : SheetApi S) (s : S) (st : Edge) (nd : Option Edge) (exp : List ExpGroup)
    (base : Option Coords) : Except PyErr (Coords × Option Coords) :=
  match A.states s with
  | .error e => .error e
  | .ok m => match A.margins s with
    | .error e => .error e
    | .ok mg => resolveCaptureRect m mg.1 mg.2 st nd exp base

private theorem second_lone (r : RefText) : r.second.isNone = (r.st.isSome && r.range.isNone) := by
  unfold RefText.second
  rcases r.st with _ | _ <;> rcases r.range with _ | ⟨_ | _, _⟩ <;> rfl

theorem doLasso_plain {S : Type} (R : Ranger S) (A : SheetApi S) (jsonLoads : Str → Option Doc) (u : Str) (r : RefText)
    (items : List ExpItem) (sheet0 : Option S) (base : Option Coords) (s : S)
    (hu : '#' ∉ u) (hpl : NoCurly (u ++ r.text)) (h : r.Ok) (hf : r.filt = none) (hne : r.text ≠ [])
    (hx : r.Expands items) (hfetch : R.fetch (if u = [] then none else some u) r.sheetName sheet0 = .ok s) :
    ∃ mk : Option Coords → Option Coords → Doc → Lasso S,
      (∀ st nd v, (mk st nd v).st = st ∧ (mk st nd v).nd = nd ∧ (mk st nd v).values = v) ∧
      R.doLasso A jsonLoads (u ++ '#' :: r.text) { sheet := sheet0, baseCoords := base } =
        plainOutcome A ((Opts.get [R.baseOpts] "no_empty".toList (.bool false)).truthy) r.second.isNone s mk
          (rectOn A s r.first r.second (items.map ExpItem.meaning) base) := by
  have hpr : NoCurly r.text := ⟨fun e => hpl.1 (by simp [e]), fun e => hpl.2 (by simp [e])⟩
  have hpu : NoCurly u := ⟨fun e => hpl.1 (by simp [e]), fun e => hpl.2 (by simp [e])⟩
  have hfrag := C41_round_trip jsonLoads r h hf
  have hparse := C76_parts jsonLoads u r.text hu hne _ (by rw [straight_plain hpr]; exact hfrag)
  rw [straight_plain hpu] at hparse
  have ho : ∀ x : Option Str, overlay x none = x := by intro x; cases x <;> rfl
  have ho2 : ∀ x : Option TEdge, overlay x none = x := by intro x; cases x <;> rfl
  unfold Ranger.doLasso Ranger.parseMerge
  rw [hparse]
  simp only [Option.isSome_none, Bool.false_eq_true, if_false, ho, ho2, hfetch, resolveRect, edgesOf_lone]
  refine ⟨fun st nd v =>
      { xlRef := some (straight (u ++ '#' :: r.text))
        urlFile := if u = [] then none else some u
        shName := r.sheetName
        stEdge := (edgesOf r.st r.range).1
        ndEdge := (edgesOf r.st r.range).2
        expMoves := r.range.bind (·.2)
        sheet := some s
        opts := some [R.baseOpts]
        st := st
        nd := nd
        values := v
        baseCoords := base },
      fun st nd v => ⟨rfl, rfl, rfl⟩, ?_⟩
  have hrect : (match A.states s with
      | .error e => .error e
      | .ok m => match A.margins s with
        | .error e => .error e
        | .ok mg => resolveText m mg (edgesOf r.st r.range).1 (edgesOf r.st r.range).2 (r.range.bind (·.2)) base :
        Except PyErr (Coords × Option Coords)) =
      rectOn A s r.first r.second (items.map ExpItem.meaning) base := by
    unfold rectOn
    cases A.states s with
    | error e => rfl
    | ok m =>
      cases A.margins s with
      | error e => rfl
      | ok mg => exact resolveText_meant h hx m mg base
  rw [← hrect, second_lone]
  unfold plainOutcome
  have hov : ∀ y : Opts, overlay (Option.map (fun o : List (Str × Doc) => [o]) none) (some y) = some y := fun y => rfl
  simp only [hov]
  generalize (r.st.isSome && r.range.isNone) = lone
  generalize (Opts.get [R.baseOpts] "no_empty".toList (.bool false)).truthy = noEmpty
  cases A.states s with
  | error e => cases lone <;> cases noEmpty <;> cases e <;> rfl
  | ok m =>
    cases A.margins s with
    | error e => cases lone <;> cases noEmpty <;> cases e <;> rfl
    | ok mg =>
      simp only
      cases resolveText m mg (edgesOf r.st r.range).1 (edgesOf r.st r.range).2 (r.range.bind (·.2)) base with
      | error e => cases lone <;> cases noEmpty <;> cases e <;> rfl
      | ok p =>
        obtain ⟨st, nd⟩ := p
        simp only
        cases A.readRect s st nd <;> rfl

end Props
