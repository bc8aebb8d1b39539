import Verif.Spec.Lasso
import Verif.Lemmas.Truth
/-
C50 filter calls, C51 pipes, C52 options.
-/
namespace Props
open Py Model Spec

private theorem optVal_iff (o : Opts) (k : Str) (v : Doc) :
    OptVal o k v ↔ o.findSome? (fun l => dget l k) = some v := by
  induction o with
  | nil => simp [OptVal]
  | cons a o ih =>
    simp only [List.findSome?_cons]
    cases h : dget a k with
    | some w =>
      simp only
      constructor
      · rintro ⟨pre, layer, post, he, hp, hl⟩
        cases pre with
        | nil => simp at he; rw [he.1, hl] at h; exact h.symm
        | cons b pre => simp at he; have := hp b (by simp); rw [← he.1, h] at this; simp at this
      · intro e; exact ⟨[], a, o, rfl, by simp, by rw [h, e]⟩
    | none =>
      simp only
      rw [← ih]
      constructor
      · rintro ⟨pre, layer, post, he, hp, hl⟩
        cases pre with
        | nil => simp at he; rw [he.1, hl] at h; simp at h
        | cons b pre =>
          simp at he
          exact ⟨pre, layer, post, he.2, fun p hp' => hp p (by simp [hp']), hl⟩
      · rintro ⟨pre, layer, post, he, hp, hl⟩
        refine ⟨a :: pre, layer, post, by simp [he], ?_, hl⟩
        intro p hp'
        rcases List.mem_cons.1 hp' with rfl | hp'
        · exact h
        · exact hp p hp'

theorem opts_get_truthy (o : Opts) (k : Str) :
    (o.get k (.bool false)).truthy = true ↔ ∃ v, OptVal o k v ∧ Truth v := by
  simp only [optVal_iff, Opts.get, ← Lemmas.truthy_iff]
  cases h : o.findSome? (fun l => dget l k) with
  | none => simp [Doc.truthy]
  | some v => simp

theorem lax_iff (o : Opts) (kwds : List (Str × Doc)) :
    ((dget kwds "lax".toList).getD (o.get "lax".toList (.bool false))).truthy = true ↔ Lax o kwds := by
  unfold Lax
  simp only [← Lemmas.truthy_iff]
  cases h : dget kwds "lax".toList with
  | some v => simp only [Option.getD_some, Option.some.injEq]; simp
  | none => simp only [Option.getD_none, opts_get_truthy, ← Lemmas.truthy_iff]; simp

private theorem lax_dec {o : Opts} {kwds : List (Str × Doc)} (h : ¬ Lax o kwds) :
    ((dget kwds "lax".toList).getD (o.get "lax".toList (.bool false))).truthy = false := by
  rw [← lax_iff] at h; simpa using h

theorem verbose_false {o : Opts} {r : Bool} (h : Verbose o → r = true) :
    ((o.get "verbose".toList (.bool false)).truthy && !r) = false := by
  cases hv : (o.get "verbose".toList (.bool false)).truthy with
  | false => rfl
  | true => simp [h ((opts_get_truthy _ _).1 hv)]

/-- C50. A filter that returns a lasso decides the result, whatever the leniency; it never sees the
keyword `lax`. -/
theorem C50_success {S : Type} (R : Ranger S) (l l' : Lasso S) (o : Opts) (ho : l.opts = some o) (func : Str)
    (args : List Doc) (kwds : List (Str × Doc)) (rec : FRec S) (hr : R.filters func = some rec)
    (hf : rec.func l args (withoutLax kwds) = .ok (.lasso l')) :
    R.makeCall (.lasso l) func args kwds = .ok (.lasso l') := by
  have hf' : rec.func l args (ddel kwds "lax".toList) = .ok (.lasso l') := hf
  simp only [Ranger.makeCall, ho, hr, hf']

/-- C50. A strict call returns a lasso, the filter's, or raises `ValueError`. Missing for the full
property: verbose calls of filters that have no description, see `C50_verbose_refuted`. -/
theorem C50_strict_partial {S : Type} (R : Ranger S) (l : Lasso S) (o : Opts) (ho : l.opts = some o)
    (func : Str) (args : List Doc) (kwds : List (Str × Doc)) (hl : ¬ Lax o kwds)
    (hd : Verbose o → ∀ rec, R.filters func = some rec → rec.desc = true) :
    (∃ rec l', R.filters func = some rec ∧ rec.func l args (withoutLax kwds) = .ok (.lasso l') ∧
      R.makeCall (.lasso l) func args kwds = .ok (.lasso l')) ∨
    R.makeCall (.lasso l) func args kwds = .error .valueError := by
  have hl' := lax_dec hl
  cases hr : R.filters func with
  | none => right; simp only [Ranger.makeCall, ho, hr, hl']; rfl
  | some rec =>
    have hv := verbose_false (o := o) (fun h => hd h rec hr)
    have hw : withoutLax kwds = ddel kwds "lax".toList := rfl
    rw [hw]
    cases hf : rec.func l args (ddel kwds "lax".toList) with
    | error e => right; simp only [Ranger.makeCall, ho, hr, hf, hv, hl']; rfl
    | ok r =>
      cases r with
      | lasso l' => left; exact ⟨rec, l', rfl, hf, by simp only [Ranger.makeCall, ho, hr, hf]⟩
      | other d => right; simp only [Ranger.makeCall, ho, hr, hf, hv, hl']; rfl

/-- C50. A lenient call of a filter that raises, or that there is not, returns the lasso unchanged.
Missing for the full property: filters returning something else than a lasso, see
`C50_lax_not_lasso_refuted`, verbose calls, see `C50_verbose_refuted`, and filters that change values in place before they fail, which are taken
here to leave them as they were, see `C154_refuted`. -/
theorem C50_lax_partial {S : Type} (R : Ranger S) (l : Lasso S) (o : Opts) (ho : l.opts = some o)
    (func : Str) (args : List Doc) (kwds : List (Str × Doc)) (hl : Lax o kwds)
    (hd : Verbose o → ∀ rec, R.filters func = some rec → rec.desc = true)
    (hf : ∀ rec, R.filters func = some rec → ∃ e, rec.func l args (withoutLax kwds) = .error e) :
    R.makeCall (.lasso l) func args kwds = .ok (.lasso l) := by
  have hl' := (lax_iff _ _).2 hl
  cases hr : R.filters func with
  | none => simp only [Ranger.makeCall, ho, hr, hl']; rfl
  | some rec =>
    have hv := verbose_false (o := o) (fun h => hd h rec hr)
    obtain ⟨e, he⟩ := hf rec hr
    have he' : rec.func l args (ddel kwds "lax".toList) = .error e := he
    simp only [Ranger.makeCall, ho, hr, he', hv, hl']; rfl

/-- A ranger for the examples: a failing filter, one that returns a number, and one that works. -/
def sampleRanger : Ranger Unit where
  fetch _ _ _ := .ok ()
  baseOpts := []
  filters f := if f = "fail".toList then some ⟨fun _ _ _ => .error .typeError, true⟩
    else if f = "number".toList then some ⟨fun _ _ _ => .ok (.other (.int 1)), true⟩
    else if f = "undocumented".toList then some ⟨fun _ _ _ => .error .typeError, false⟩
    else if f = "set".toList then some ⟨fun l a _ => .ok (.lasso { l with values := .list a }), true⟩
    else none

example : sampleRanger.makeCall (.lasso { opts := some [] }) "fail".toList [] [("lax".toList, .bool true)] =
    .ok (.lasso { opts := some [] }) := rfl
example : sampleRanger.makeCall (.lasso { opts := some [] }) "fail".toList [] [] = .error .valueError := rfl
example : Lax [[("lax".toList, .bool true)]] [] :=
  .inr ⟨rfl, .bool true, ⟨[], _, [], rfl, by simp, rfl⟩, (Lemmas.truthy_iff _).1 rfl⟩

/-- C50, violated: a lenient call may return something that is not a lasso. -/
theorem C50_lax_not_lasso_refuted :
    sampleRanger.makeCall (.lasso { opts := some [[("lax".toList, .bool true)]] }) "number".toList [] [] =
      .ok (.other (.int 1)) := rfl

/-- C50, violated: when verbose, a failing filter without a description makes even a lenient call raise
`TypeError`. -/
theorem C50_verbose_refuted :
    sampleRanger.makeCall
      (.lasso { opts := some [[("lax".toList, .bool true), ("verbose".toList, .bool true)]] })
      "undocumented".toList [] [] = .error .typeError := rfl

/-- One call of a pipe: the filter's text is read as a call-specification, which is called. -/
def callOf {S : Type} (R : Ranger S) (l : FRes S) (f : Doc) : Except PyErr (FRes S) :=
  match parseCallSpec f with
  | .ok c => R.makeCall l c.func c.args c.kwds
  | .error e => .error e

/-- C51. A pipe succeeds exactly when its calls do one after the other, each on the output of the one
before, and returns what the last one does. -/
theorem C51_composition {S : Type} (R : Ranger S) (fs : List Doc) (l l' : FRes S) :
    R.pipe fs l = .ok l' ↔ Runs (callOf R) fs l l' := by
  induction fs generalizing l with
  | nil =>
    constructor
    · intro h; simp [Ranger.pipe] at h; subst h; exact .nil _
    · intro h; cases h; rfl
  | cons f fs ih =>
    constructor
    · intro h
      unfold Ranger.pipe at h
      cases hp : parseCallSpec f with
      | error e => rw [hp] at h; simp at h
      | ok c =>
        rw [hp] at h; simp only at h
        cases hm : R.makeCall l c.func c.args c.kwds with
        | error e => rw [hm] at h; simp at h
        | ok m =>
          rw [hm] at h
          exact .cons _ _ _ m _ (by simp [callOf, hp, hm]) ((ih m).1 h)
    · intro h
      cases h
      rename_i m h1 h2
      unfold callOf at h1
      cases hp : parseCallSpec f with
      | error e => rw [hp] at h1; simp at h1
      | ok c =>
        rw [hp] at h1
        simp only at h1
        unfold Ranger.pipe
        rw [hp]; simp only [h1]
        exact (ih m).2 h2

/-- C51. A pipe of a concatenation is the composition of the pipes. -/
theorem C51_append {S : Type} (R : Ranger S) (fs gs : List Doc) (l : FRes S) :
    R.pipe (fs ++ gs) l = (R.pipe fs l).bind (R.pipe gs) := by
  induction fs generalizing l with
  | nil => rfl
  | cons f fs ih =>
    simp only [List.cons_append, Ranger.pipe]
    cases hp : parseCallSpec f with
    | error e => rfl
    | ok c =>
      simp only
      cases hm : R.makeCall l c.func c.args c.kwds with
      | error e => rfl
      | ok m => exact ih m

/-- C51. The first failing call stops the pipe with its error, whatever follows. -/
theorem C51_failure_stops {S : Type} (R : Ranger S) (fs gs : List Doc) (f : Doc) (l m : FRes S) (e : PyErr)
    (h : Runs (callOf R) fs l m) (hf : callOf R m f = .error e) : R.pipe (fs ++ f :: gs) l = .error e := by
  rw [C51_append, (C51_composition R fs l m).2 h]
  simp only [Except.bind, Ranger.pipe]
  unfold callOf at hf
  cases hp : parseCallSpec f with
  | error e' => rw [hp] at hf; simpa using hf
  | ok c => rw [hp] at hf; simp only at hf ⊢; rw [hf]

example : sampleRanger.pipe [.list [.str "set".toList, .list [.int 1]], .list [.str "set".toList, .list [.int 2]]]
    (.lasso { opts := some [] }) = .ok (.lasso { opts := some [], values := .list [.int 2] }) := rfl

/-- C52. A reference without options leaves the base options in force.
Missing for the full property: references with options, see `C52_override_refuted`. -/
theorem C52_base_partial {S : Type} (R : Ranger S) (jsonLoads : Str → Option Doc) (xlref : Str) (ctx l : Lasso S)
    (h : R.parseMerge jsonLoads xlref ctx = .ok l) (p : XlRef) (hp : parseXlref jsonLoads xlref = .ok p)
    (ho : p.frag.opts = none) (k : Str) (v : Doc) :
    (∃ o, l.opts = some o ∧ OptVal o k v) ↔ dget R.baseOpts k = some v := by
  unfold Ranger.parseMerge at h
  rw [hp] at h
  simp only at h
  split at h
  · simp at h
  · simp only [Except.ok.injEq] at h
    subst h
    simp [ho, overlay, optVal_iff]

/-- C52. The options of a reference that has some are in force, and no others: base options are lost. -/
theorem C52_reference_partial {S : Type} (R : Ranger S) (jsonLoads : Str → Option Doc) (xlref : Str)
    (ctx l : Lasso S) (h : R.parseMerge jsonLoads xlref ctx = .ok l) (p : XlRef)
    (hp : parseXlref jsonLoads xlref = .ok p) (o : List (Str × Doc)) (ho : p.frag.opts = some o) (k : Str) (v : Doc) :
    (∃ o', l.opts = some o' ∧ OptVal o' k v) ↔ dget o k = some v := by
  unfold Ranger.parseMerge at h
  rw [hp] at h
  simp only at h
  split at h
  · simp at h
  · simp only [Except.ok.injEq] at h
    subst h
    simp [ho, overlay, optVal_iff]

/-- A JSON reader for the examples. -/
def sampleJson (t : Str) : Option Doc :=
  if t = "{\"opts\":{\"lax\":true}}".toList then
    some (.dict [("opts".toList, .dict [("lax".toList, .bool true)])])
  else none

/-- C52, violated: a reference with options discards the base options that it does not mention. -/
theorem C52_override_refuted :
    ∃ l, ({ sampleRanger with baseOpts := [("verbose".toList, .bool true)] } : Ranger Unit).parseMerge sampleJson
        "#A1:{\"opts\":{\"lax\":true}}".toList {} = .ok l ∧
      l.opts = some [[("lax".toList, .bool true)]] := by
  refine ⟨_, rfl, rfl⟩

end Props
