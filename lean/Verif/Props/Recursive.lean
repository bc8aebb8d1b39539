import Verif.Props.Elementwise
/-
C74: the recursive filter.
-/
namespace Props
open Py Model Spec

section
variable {S : Type} (R : Ranger S) (pandas : Bool) (lassoRef : Str → Lasso S → Except PyErr (FRes S)) (filters : List Doc)
  (incl excl : Option (List Str)) (depth : Option Int) (l l' : Lasso S)

/-- The context in which a text found at position `bc` is looked up: the sheet and the edges of the capture, and
that position as the base of relative coordinates. -/
def contextAt (l : Lasso S) (bc : Option Coords) : Lasso S :=
  { sheet := l.sheet, st := l.st, nd := l.nd, baseCoords := bc }

/-- The elements that the recursive filter looks at: within the depth limit, under selected keys. -/
abbrev LookedAt (l : Lasso S) : List VStep → Doc → Option Coords → Prop :=
  Reached (Selected incl excl) depth pandas (fun _ _ => none) l.values l.st

private theorem took_nontext (bc : Option Coords) (x : Doc) (hx : ∀ t, x ≠ .str t) : took (recurseElement lassoRef) l bc x = none := by
  cases x with
  | str t => exact absurd rfl (hx t)
  | _ => rfl

private theorem looked_iff (p : List VStep) (x : Doc) (bc : Option Coords) :
    Reached (Selected incl excl) depth pandas (took (recurseElement lassoRef) l) l.values l.st p x bc ↔
      LookedAt pandas incl excl depth l p x bc := by
  constructor
  · intro h
    induction h with
    | root h => exact .root h
    | key p kvs bc k x _ h1 h2 h3 ih => exact .key p kvs bc k x ih h1 h2 h3
    | idx p xs bc i x _ _ h2 h3 ih => exact .idx p xs bc i x ih rfl h2 h3
  · intro h
    induction h with
    | root h => exact .root h
    | key p kvs bc k x _ h1 h2 h3 ih => exact .key p kvs bc k x ih h1 h2 h3
    | idx p xs bc i x _ _ h2 h3 ih =>
      exact .idx p xs bc i x ih (took_nontext lassoRef l bc _ (by simp)) h2 h3

private theorem hands_ref {t : Str} {bc : Option Coords} {m : Lasso S} (hm : lassoRef t (contextAt l bc) = .ok (.lasso m)) :
    Hands (recurseElement lassoRef) l bc (.str t) m := by
  have hm' : lassoRef t { sheet := l.sheet, st := l.st, nd := l.nd, baseCoords := bc } = .ok (.lasso m) := hm
  exact .lasso m (by simp only [recurseElement, hm'])

/-- C74. Every text looked at that is a reference is replaced by the values captured there, after the
sub-filters.
Missing for the full property: sub-filters with the keyword `lax`, see `C74_lax_refuted`, and `C74_first` for what becomes of them. -/
theorem C74_references_replaced_partial
    (h : R.elementwise pandas (recurseElement lassoRef) filters incl excl depth l = .ok l') (hn : NoLax filters)
    (p : List VStep) (t : Str) (bc : Option Coords) (hr : LookedAt pandas incl excl depth l p (.str t) bc)
    (m : Lasso S) (hm : lassoRef t (contextAt l bc) = .ok (.lasso m)) :
    ∃ y, valuesAfter R filters m = some y ∧ valAt l'.values p = some y :=
  C53_processed_partial R pandas (recurseElement lassoRef) filters incl excl depth l l' h hn p (.str t) bc
    ((looked_iff _ _ _ _ _ _ p _ bc).2 hr) (by simp [isDict]) m (hands_ref lassoRef l hm)

/-- C74. With any sub-filters: every text looked at that is a reference is replaced by the values captured there, after the
sub-filters; the keyword `lax` of the sub-filters is in force for one of these texts and for no other. -/
theorem C74_first (h : R.elementwise pandas (recurseElement lassoRef) filters incl excl depth l = .ok l')
    (strict : List Doc) (hs : SameButLax filters strict) :
    ∃ first : List VStep, ∀ p t bc, LookedAt pandas incl excl depth l p (.str t) bc → ∀ m,
      lassoRef t (contextAt l bc) = .ok (.lasso m) →
        ∃ y, valuesAfter R (if p = first then filters else strict) m = some y ∧ valAt l'.values p = some y := by
  obtain ⟨first, hf⟩ := C53_first R pandas (recurseElement lassoRef) filters incl excl depth l l' h strict hs
  exact ⟨first, fun p t bc hr m hm => hf p (.str t) bc ((looked_iff _ _ _ _ _ _ p _ bc).2 hr) (by simp [isDict]) m
    (hands_ref lassoRef l hm)⟩

/-- C74. Everything else stays: numbers, nulls and texts that are not references are unchanged, lists keep their
number of elements and dictionaries their keys, unless they were found by a reference. -/
theorem C74_others_kept
    (h : R.elementwise pandas (recurseElement lassoRef) filters incl excl depth l = .ok l')
    (p : List VStep) (x : Doc) (hx : valAt l.values p = some x)
    (hno : ∀ t bc, x = .str t → LookedAt pandas incl excl depth l p x bc →
      lassoRef t (contextAt l bc) = .error .syntaxError) :
    ∃ y, valAt l'.values p = some y ∧ SameShape x y := by
  refine C53_frame R pandas (recurseElement lassoRef) filters incl excl depth l l' h p x hx ?_
  intro q z bc hq hr hz
  have hr' := (looked_iff _ _ _ _ _ _ q z bc).1 hr
  by_cases hz' : ∃ t, z = .str t
  · obtain ⟨t, rfl⟩ := hz'
    obtain ⟨w, rfl⟩ := hq
    have hv : valAt l.values q = some (.str t) := reached_valAt hr'
    rw [valAt_append, hv] at hx
    cases w with
    | nil =>
      simp [valAt] at hx
      subst hx
      have he := hno t bc rfl (by simpa using hr')
      have he' : lassoRef t { sheet := l.sheet, st := l.st, nd := l.nd, baseCoords := bc } = .error .syntaxError := he
      simp only [took, recurseElement, he']
    | cons s w => simp [valAt, stepIn] at hx
  · exact took_nontext lassoRef l bc z (fun t e => hz' ⟨t, e⟩)
where
  valAt_append (d : Doc) (p q : List VStep) : valAt d (p ++ q) = (valAt d p).bind (fun d' => valAt d' q) := by
    induction p generalizing d with
    | nil => rfl
    | cons s p ih =>
      simp only [List.cons_append, valAt]
      cases stepIn d s with
      | none => rfl
      | some d' => exact ih d'
  reached_valAt {sel : Str → Prop} {depth : Option Int} {pandas : Bool} {ask : Option Coords → Doc → Option Doc} {v : Doc}
      {st : Option Coords} {p : List VStep} {x : Doc} {bc : Option Coords} (h : Reached sel depth pandas ask v st p x bc) :
      valAt v p = some x := by
    induction h with
    | root => rfl
    | key p kvs bc k x _ h1 _ _ ih => rw [valAt_append, ih]; simp [valAt, stepIn, h1]
    | idx p xs bc i x _ _ h2 _ ih => rw [valAt_append, ih]; simp [valAt, stepIn, h2]

/-- C74. When a text looked at is a reference that cannot be captured, filtering fails. -/
theorem C74_failures_reported
    (p : List VStep) (t : Str) (bc : Option Coords) (hr : LookedAt pandas incl excl depth l p (.str t) bc)
    (e : PyErr) (he : e ≠ .syntaxError) (hm : lassoRef t (contextAt l bc) = .error e) :
    ∃ e', R.elementwise pandas (recurseElement lassoRef) filters incl excl depth l = .error e' := by
  cases h : R.elementwise pandas (recurseElement lassoRef) filters incl excl depth l with
  | error e' => exact ⟨e', rfl⟩
  | ok l' =>
    obtain ⟨r, hr'⟩ := C53_success R pandas (recurseElement lassoRef) filters incl excl depth l l' h p (.str t) bc
      ((looked_iff _ _ _ _ _ _ p _ bc).2 hr) (by simp [isDict])
    have hm' : lassoRef t { sheet := l.sheet, st := l.st, nd := l.nd, baseCoords := bc } = .error e := hm
    unfold recurseElement at hr'
    simp only [hm'] at hr'
    cases e <;> simp at hr' he

/-- C74. Without sub-filters, filtering fails only with a `ValueError`, and only for a text that is a reference that
cannot be captured. -/
theorem C74_no_other_failure (hk : KeysOk l.values) (e : PyErr)
    (h : R.elementwise pandas (recurseElement lassoRef) [] incl excl depth l = .error e)
    (hl : ∀ t c r, lassoRef t c = .ok r → ∃ m, r = .lasso m) :
    e = .valueError ∧ ∃ p t bc e', LookedAt pandas incl excl depth l p (.str t) bc ∧
      lassoRef t (contextAt l bc) = .error e' ∧ e' ≠ .syntaxError := by
  rcases C53_failure R pandas (recurseElement lassoRef) [] incl excl depth l e h [] (fun _ _ => .nil) hk with
    ⟨f, hf, _⟩ | ⟨p, x, bc, hr, hc⟩
  · cases hf
  · have hr' := (looked_iff _ _ _ _ _ _ p x bc).1 hr
    rcases hc with ⟨rfl, e', he⟩ | ⟨m, fs, hm, hfs, hp⟩
    · refine ⟨rfl, ?_⟩
      cases x with
      | str t =>
        refine ⟨p, t, bc, ?_⟩
        cases hq : lassoRef t (contextAt l bc) with
        | ok r =>
          have hq' : lassoRef t { sheet := l.sheet, st := l.st, nd := l.nd, baseCoords := bc } = .ok r := hq
          simp [recurseElement, hq'] at he
        | error e1 =>
          have hq' : lassoRef t { sheet := l.sheet, st := l.st, nd := l.nd, baseCoords := bc } = .error e1 := hq
          refine ⟨e1, hr', rfl, ?_⟩
          rintro rfl
          simp [recurseElement, hq'] at he
      | _ => simp [recurseElement] at he
    · exfalso
      have : fs = [] := by rcases hfs with rfl | rfl <;> rfl
      subst this
      rcases hp with hp | ⟨_, d, _, hp⟩ <;> simp [Ranger.pipe] at hp

end

/-- A sheet where `#A1` holds 5, `#Z9` fails, and other texts are not references. -/
private def sampleLookup : Str → Lasso Unit → Except PyErr (FRes Unit) := fun t c =>
  if t = "#A1".toList then .ok (.lasso { c with values := .int 5 })
  else if t = "#Z9".toList then .error .emptyCapture
  else .error .syntaxError

/-- The same, with options as `do_lasso` gives. -/
private def sampleLookup' : Str → Lasso Unit → Except PyErr (FRes Unit) := fun t c => sampleLookup t { c with opts := some [] }

example : sampleRanger.elementwise true (recurseElement sampleLookup) [] none none none
    { values := .list [.str "#A1".toList, .str "hello".toList, .int 7] } =
    .ok { values := .list [.int 5, .str "hello".toList, .int 7] } := rfl

example : sampleRanger.elementwise true (recurseElement sampleLookup) [] none none none
    { values := .list [.str "#A1".toList, .str "#Z9".toList] } = .error .valueError := rfl

example : LookedAt true none none none ({ values := .list [.str "#A1".toList] } : Lasso Unit) [.idx 0] (.str "#A1".toList) none :=
  .idx [] [.str "#A1".toList] none 0 _ (.root (by simp)) rfl rfl (by simp)

/-- C74 fails for sub-filters with the keyword `lax`: one failing for every element is forgiven for the first
reference only. -/
theorem C74_lax_refuted :
    let sub := [Doc.list [.str "fail".toList, .dict [("lax".toList, .bool true)]]]
    sampleRanger.elementwise true (recurseElement sampleLookup') sub none none none
      { values := .list [.str "#A1".toList], opts := some [] } = .ok { values := .list [.int 5], opts := some [] } ∧
    sampleRanger.elementwise true (recurseElement sampleLookup') sub none none none
      { values := .list [.str "#A1".toList, .str "#A1".toList], opts := some [] } = .error .valueError :=
  ⟨rfl, rfl⟩

end Props
