import Verif.Model.Eval
import Verif.Props.Recursive
/-
C94: the filters that evaluate expressions.
-/
namespace Props
open Py Model Spec

/-- The lasso that an expression gives: one it returns, with the options at hand if it has none; or else the one
at hand with the result as its values. -/
inductive Gives {S : Type} (l : Lasso S) : FRes S → Lasso S → Prop
  | value (d) : Gives l (.other d) { l with values := d }
  | lasso (r o) : r.opts = some o → Gives l (.lasso r) r
  | noOpts (r) : r.opts = none → Gives l (.lasso r) { r with opts := l.opts }

private theorem gives {S : Type} (l : Lasso S) (r : FRes S) : Gives l r (evaluated l r) := by
  cases r with
  | other d => exact .value d
  | lasso r =>
    cases h : r.opts with
    | none => simp only [evaluated, h]; exact .noOpts r h
    | some o => simp only [evaluated, h]; exact .lasso r o h

private theorem gives_unique {S : Type} {l : Lasso S} {r : FRes S} {m : Lasso S} (h : Gives l r m) : m = evaluated l r := by
  cases h with
  | value d => rfl
  | lasso r o h => simp only [evaluated, h]
  | noOpts r h => simp only [evaluated, h]

section
variable {S : Type} (R : Ranger S) (pandas : Bool) (eval : Evaluator S) (filters : List Doc) (evalAll : Bool)
  (incl excl : Option (List Str)) (depth : Option Int) (l l' : Lasso S)

private theorem took_none (bc : Option Coords) (x : Doc) (hx : ∀ t, x = .str t → eval t l bc = none) :
    took (pyevalElement eval evalAll) l bc x = none := by
  cases x with
  | str t =>
    have := hx t rfl
    unfold took pyevalElement
    simp only [this]
    cases evalAll <;> rfl
  | _ => rfl

private theorem looked_eval (p : List VStep) (x : Doc) (bc : Option Coords) :
    Reached (Selected incl excl) depth pandas (took (pyevalElement eval evalAll) l) l.values l.st p x bc ↔
      LookedAt pandas incl excl depth l p x bc := by
  constructor
  · intro h
    induction h with
    | root h => exact .root h
    | key p kvs bc k x _ h1 h2 h3 ih => exact .key p kvs bc k x ih h1 h2 h3
    | idx p xs bc i x _ _ h2 h3 ih => exact .idx p xs bc i x ih rfl h2 h3
  · intro h
    induction h with
    | root h => exact .root h
    | key p kvs bc k x _ h1 h2 h3 ih => exact .key p kvs bc k x ih h1 h2 h3
    | idx p xs bc i x _ _ h2 h3 ih =>
      exact .idx p xs bc i x ih (took_none eval evalAll l bc _ (by intro t e; cases e)) h2 h3

private theorem hands_eval {t : Str} {bc : Option Coords} {r : FRes S} {m : Lasso S} (he : eval t l bc = some r) (hm : Gives l r m) :
    Hands (pyevalElement eval evalAll) l bc (.str t) m := by
  rw [gives_unique hm]
  exact .lasso _ (by simp only [pyevalElement, he])

/-- C94. Every text looked at that can be evaluated is replaced by the values that its result gives, after the
sub-filters.
Missing for the full property: sub-filters with the keyword `lax`, see `C94_lax_refuted`, and `C94_first` for what becomes of them. -/
theorem C94_evaluated_partial (h : R.pyeval pandas eval filters evalAll incl excl depth l = .ok l') (hn : NoLax filters)
    (p : List VStep) (t : Str) (bc : Option Coords) (hr : LookedAt pandas incl excl depth l p (.str t) bc)
    (r : FRes S) (m : Lasso S) (he : eval t l bc = some r) (hm : Gives l r m) :
    ∃ y, valuesAfter R filters m = some y ∧ valAt l'.values p = some y :=
  C53_processed_partial R pandas (pyevalElement eval evalAll) filters incl excl depth l l' h hn p (.str t) bc
    ((looked_eval ..).2 hr) (by simp [isDict]) m (hands_eval eval evalAll l he hm)

/-- C94. With any sub-filters: every text looked at that can be evaluated is replaced by the values that its result gives, after the
sub-filters; the keyword `lax` of the sub-filters is in force for one of these texts and for no other. -/
theorem C94_first (h : R.pyeval pandas eval filters evalAll incl excl depth l = .ok l') (strict : List Doc)
    (hs : SameButLax filters strict) :
    ∃ first : List VStep, ∀ p t bc, LookedAt pandas incl excl depth l p (.str t) bc → ∀ r m, eval t l bc = some r → Gives l r m →
      ∃ y, valuesAfter R (if p = first then filters else strict) m = some y ∧ valAt l'.values p = some y := by
  obtain ⟨first, hf⟩ := C53_first R pandas (pyevalElement eval evalAll) filters incl excl depth l l' h strict hs
  exact ⟨first, fun p t bc hr r m he hm => hf p (.str t) bc ((looked_eval ..).2 hr) (by simp [isDict]) m
    (hands_eval eval evalAll l he hm)⟩

/-- C94. Everything else stays: what is no text, and texts that cannot be evaluated, are unchanged; lists keep
their number of elements and dictionaries their keys. -/
theorem C94_others_kept (h : R.pyeval pandas eval filters evalAll incl excl depth l = .ok l')
    (p : List VStep) (x : Doc) (hx : valAt l.values p = some x)
    (hno : ∀ t bc, x = .str t → LookedAt pandas incl excl depth l p x bc → eval t l bc = none) :
    ∃ y, valAt l'.values p = some y ∧ SameShape x y := by
  refine C53_frame R pandas (pyevalElement eval evalAll) filters incl excl depth l l' h p x hx ?_
  intro q z bc hq hr hz
  have hr' := (looked_eval ..).1 hr
  apply took_none
  rintro t rfl
  obtain ⟨w, rfl⟩ := hq
  have hv : valAt l.values q = some (.str t) := C74_others_kept.reached_valAt hr'
  rw [C74_others_kept.valAt_append, hv] at hx
  cases w with
  | nil =>
    simp [valAt] at hx
    subst hx
    exact hno t bc rfl (by simpa using hr')
  | cons s w => simp [valAt, stepIn] at hx

/-- C94. With `eval_all`, filtering fails when a text looked at cannot be evaluated. -/
theorem C94_eval_all (p : List VStep) (t : Str) (bc : Option Coords)
    (hr : LookedAt pandas incl excl depth l p (.str t) bc) (he : eval t l bc = none) :
    ∃ e, R.pyeval pandas eval filters true incl excl depth l = .error e := by
  cases h : R.pyeval pandas eval filters true incl excl depth l with
  | error e => exact ⟨e, rfl⟩
  | ok l' =>
    obtain ⟨r, hr'⟩ := C53_success R pandas (pyevalElement eval true) filters incl excl depth l l' h p (.str t) bc
      ((looked_eval ..).2 hr) (by simp [isDict])
    simp [pyevalElement, he] at hr'

/-- C94. Without sub-filters, filtering fails only with `eval_all`, with a `ValueError`, and only for a text that
cannot be evaluated. -/
theorem C94_no_other_failure (hk : KeysOk l.values) (e : PyErr)
    (h : R.pyeval pandas eval [] evalAll incl excl depth l = .error e) :
    e = .valueError ∧ evalAll = true ∧
    ∃ p t bc, LookedAt pandas incl excl depth l p (.str t) bc ∧ eval t l bc = none := by
  rcases C53_failure R pandas (pyevalElement eval evalAll) [] incl excl depth l e h [] (fun _ _ => .nil) hk with
    ⟨f, hf, _⟩ | ⟨p, x, bc, hr, hc⟩
  · cases hf
  · have hr' := (looked_eval ..).1 hr
    rcases hc with ⟨rfl, e', he⟩ | ⟨m, fs, hm, hfs, hp⟩
    · refine ⟨rfl, ?_⟩
      cases x with
      | str t =>
        cases hq : eval t l bc with
        | some r => simp [pyevalElement, hq] at he
        | none =>
          cases evalAll with
          | false => simp [pyevalElement, hq] at he
          | true => exact ⟨rfl, p, t, bc, hr', hq⟩
      | _ => simp [pyevalElement] at he
    · exfalso
      have : fs = [] := by rcases hfs with rfl | rfl <;> rfl
      subst this
      rcases hp with hp | ⟨_, d, _, hp⟩ <;> simp [Ranger.pipe] at hp

/-- C94. Only values change. -/
theorem C94_only_values (h : R.pyeval pandas eval filters evalAll incl excl depth l = .ok l') :
    l' = { l with values := l'.values } :=
  C53_only_values R pandas _ filters incl excl depth l l' h

/-- C94. `py` evaluates its expression once on the whole capture: with errors it fails with a `ValueError`, else
it returns the lasso that the result gives. -/
theorem C94_py (expr : Str) :
    (eval expr l none = none → pyFilter eval l expr = .error .valueError) ∧
    (∀ r, eval expr l none = some r → ∃ m, Gives l r m ∧ pyFilter eval l expr = .ok m) := by
  constructor
  · intro h; simp only [pyFilter, h]
  · intro r h; exact ⟨_, gives l r, by simp only [pyFilter, h]⟩

/-- C94. With options at hand, the lasso that goes on to other filters has options. -/
theorem C94_options_kept (expr : Str) (m : Lasso S) (h : pyFilter eval l expr = .ok m) (ho : l.opts.isSome) : m.opts.isSome := by
  unfold pyFilter at h
  cases he : eval expr l none with
  | none => rw [he] at h; cases h
  | some r =>
    rw [he] at h
    cases h
    cases r with
    | other d => exact ho
    | lasso r =>
      cases hr : r.opts with
      | none => simpa only [evaluated, hr] using ho
      | some o => simp only [evaluated, hr, Option.isSome_some]

end

/-- An evaluator that knows one sum and returns one lasso. -/
private def sampleEval : Evaluator Unit := fun t _ _ =>
  if t = "1+1".toList then some (.other (.int 2))
  else if t = "lasso".toList then some (.lasso { values := .list [.int 7] })
  else none

example : sampleRanger.pyeval true sampleEval [] false none none none
    { values := .list [.str "1+1".toList, .str "hello".toList, .int 7, .list [.str "lasso".toList]] } =
    .ok { values := .list [.int 2, .str "hello".toList, .int 7, .list [.list [.int 7]]] } := rfl

example : sampleRanger.pyeval true sampleEval [] true none none none
    { values := .list [.str "1+1".toList, .str "hello".toList] } = .error .valueError := rfl

example : sampleEval "1+1".toList {} none = some (.other (.int 2)) := rfl

/-- C94 fails for sub-filters with the keyword `lax`, which works for the first element only (see
`C53_lax_refuted`). -/
theorem C94_lax_refuted :
    let sub := [Doc.list [.str "fail".toList, .dict [("lax".toList, .bool true)]]]
    sampleRanger.pyeval true sampleEval sub false none none none { values := .list [.str "1+1".toList], opts := some [] } =
      .ok { values := .list [.int 2], opts := some [] } ∧
    sampleRanger.pyeval true sampleEval sub false none none none
      { values := .list [.str "1+1".toList, .str "1+1".toList], opts := some [] } = .error .valueError :=
  ⟨rfl, rfl⟩

end Props
