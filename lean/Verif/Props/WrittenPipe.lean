import Verif.Spec.WrittenPipe
import Verif.Props.WrittenFilter
import Verif.Props.Recurring
import Verif.Props.InPlace
/-
C158: pipes of filters written after references.
-/
namespace Props
open Py Model Spec Lemmas

/-- What comes of a call is settled. -/
theorem comes_unique {S : Type} {R : Ranger S} {o : Opts} {l : Lasso S} {f : Str} {a : List Doc} {k : List (Str × Doc)}
    {x y : Except PyErr (FRes S)} (hx : Comes R o l f a k x) (hy : Comes R o l f a k y) : x = y := by
  cases hx with
  | done r l1 h1 h2 =>
    cases hy with
    | done r' l2 g1 g2 => cases h1.symm.trans g1; cases h2.symm.trans g2; rfl
    | absent g1 _ => cases h1.symm.trans g1
    | absentLax g1 _ => cases h1.symm.trans g1
    | failed r' g1 g2 _ => cases h1.symm.trans g1; exact absurd h2 (g2 l1)
    | failedLax r' e g1 g2 _ _ => cases h1.symm.trans g1; cases h2.symm.trans g2
    | otherLax r' d g1 g2 _ _ => cases h1.symm.trans g1; cases h2.symm.trans g2
  | absent h1 h2 =>
    cases hy with
    | done r' l2 g1 g2 => cases h1.symm.trans g1
    | absent g1 _ => rfl
    | absentLax g1 g2 => exact absurd g2 h2
    | failed r' g1 g2 _ => rfl
    | failedLax r' e g1 g2 _ _ => cases h1.symm.trans g1
    | otherLax r' d g1 g2 _ _ => cases h1.symm.trans g1
  | absentLax h1 h2 =>
    cases hy with
    | done r' l2 g1 g2 => cases h1.symm.trans g1
    | absent g1 g2 => exact absurd h2 g2
    | absentLax g1 g2 => rfl
    | failed r' g1 g2 _ => cases h1.symm.trans g1
    | failedLax r' e g1 g2 _ _ => rfl
    | otherLax r' d g1 g2 _ _ => cases h1.symm.trans g1
  | failed r h1 h2 h3 =>
    cases hy with
    | done r' l2 g1 g2 => cases h1.symm.trans g1; exact absurd g2 (h2 l2)
    | absent g1 g2 => rfl
    | absentLax g1 g2 => cases h1.symm.trans g1
    | failed r' g1 g2 _ => rfl
    | failedLax r' e g1 g2 g3 g4 => cases h1.symm.trans g1; exact (h3.elim (absurd g3) (absurd · g4))
    | otherLax r' d g1 g2 g3 g4 => cases h1.symm.trans g1; exact (h3.elim (absurd g3) (absurd · g4))
  | failedLax r e h1 h2 h3 h4 =>
    cases hy with
    | done r' l2 g1 g2 => cases h1.symm.trans g1; cases h2.symm.trans g2
    | absent g1 g2 => exact absurd h3 g2
    | absentLax g1 g2 => rfl
    | failed r' g1 g2 g3 => cases h1.symm.trans g1; exact (g3.elim (absurd h3) (absurd · h4))
    | failedLax r' e g1 g2 g3 g4 => rfl
    | otherLax r' d g1 g2 g3 g4 => cases h1.symm.trans g1; cases h2.symm.trans g2
  | otherLax r d h1 h2 h3 h4 =>
    cases hy with
    | done r' l2 g1 g2 => cases h1.symm.trans g1; cases h2.symm.trans g2
    | absent g1 g2 => exact absurd h3 g2
    | absentLax g1 g2 => cases h1.symm.trans g1
    | failed r' g1 g2 g3 => cases h1.symm.trans g1; exact (g3.elim (absurd h3) (absurd · h4))
    | failedLax r' e g1 g2 g3 g4 => cases h1.symm.trans g1; cases h2.symm.trans g2
    | otherLax r' d g1 g2 g3 g4 => cases h1.symm.trans g1; cases h2.symm.trans g2; rfl

/-- C158. What the filters of a pipe come to one after the other is settled by the filters and by what the first is given. -/
theorem C158_settled {S : Type} {R : Ranger S} {ds : List Doc} {l : Lasso S} {x y : Option (FRes S)} (hx : PipeComes R ds l x)
    (hy : PipeComes R ds l y) : x = y := by
  induction hx generalizing y with
  | done l => cases hy; rfl
  | step d ds l l' o f a k out h1 h2 h3 _ ih =>
    have hu : ∀ {f' a' k'}, CallForm d f' a' k' → f = f' ∧ a = a' ∧ k = k' := fun h => C44_unique d _ _ _ _ _ _ h1 h
    cases hy with
    | step _ _ _ l2 o2 f2 a2 k2 _ g1 g2 g3 g4 =>
      obtain ⟨rfl, rfl, rfl⟩ := hu g1
      cases h2.symm.trans g2
      cases comes_unique h3 g3
      exact ih g4
    | unreadable _ _ _ g => exact absurd h1 (g f a k)
    | failed _ _ _ o2 f2 a2 k2 e g1 g2 g3 =>
      obtain ⟨rfl, rfl, rfl⟩ := hu g1
      cases h2.symm.trans g2
      cases comes_unique h3 g3
    | noOptions _ _ _ g => cases h2.symm.trans g
    | noLassoLast _ _ o2 f2 a2 k2 x g1 g2 g3 =>
      obtain ⟨rfl, rfl, rfl⟩ := hu g1
      cases h2.symm.trans g2
      cases comes_unique h3 g3
    | noLasso _ _ _ _ o2 f2 a2 k2 x g1 g2 g3 =>
      obtain ⟨rfl, rfl, rfl⟩ := hu g1
      cases h2.symm.trans g2
      cases comes_unique h3 g3
  | unreadable d ds l h =>
    cases hy with
    | step _ _ _ l2 o2 f2 a2 k2 _ g1 g2 g3 g4 => exact absurd g1 (h _ _ _)
    | noLassoLast _ _ o2 f2 a2 k2 x g1 g2 g3 => exact absurd g1 (h _ _ _)
    | _ => rfl
  | failed d ds l o f a k e h1 h2 h3 =>
    cases hy with
    | step _ _ _ l2 o2 f2 a2 k2 _ g1 g2 g3 g4 =>
      obtain ⟨rfl, rfl, rfl⟩ := C44_unique d _ _ _ _ _ _ h1 g1
      cases h2.symm.trans g2
      cases comes_unique h3 g3
    | noLassoLast _ _ o2 f2 a2 k2 x g1 g2 g3 =>
      obtain ⟨rfl, rfl, rfl⟩ := C44_unique d _ _ _ _ _ _ h1 g1
      cases h2.symm.trans g2
      cases comes_unique h3 g3
    | _ => rfl
  | noOptions d ds l h =>
    cases hy with
    | step _ _ _ l2 o2 f2 a2 k2 _ g1 g2 g3 g4 => cases h.symm.trans g2
    | noLassoLast _ _ o2 f2 a2 k2 x g1 g2 g3 => cases h.symm.trans g2
    | _ => rfl
  | noLassoLast d l o f a k x h1 h2 h3 =>
    have hu : ∀ {f' a' k'}, CallForm d f' a' k' → f = f' ∧ a = a' ∧ k = k' := fun h => C44_unique d _ _ _ _ _ _ h1 h
    cases hy with
    | step _ _ _ l2 o2 f2 a2 k2 _ g1 g2 g3 g4 =>
      obtain ⟨rfl, rfl, rfl⟩ := hu g1
      cases h2.symm.trans g2
      cases comes_unique h3 g3
    | unreadable _ _ _ g => exact absurd h1 (g f a k)
    | failed _ _ _ o2 f2 a2 k2 e g1 g2 g3 =>
      obtain ⟨rfl, rfl, rfl⟩ := hu g1
      cases h2.symm.trans g2
      cases comes_unique h3 g3
    | noOptions _ _ _ g => cases h2.symm.trans g
    | noLassoLast _ _ o2 f2 a2 k2 x g1 g2 g3 =>
      obtain ⟨rfl, rfl, rfl⟩ := hu g1
      cases h2.symm.trans g2
      cases comes_unique h3 g3
      rfl
  | noLasso d e ds l o f a k x h1 h2 h3 =>
    cases hy with
    | step _ _ _ l2 o2 f2 a2 k2 _ g1 g2 g3 g4 =>
      obtain ⟨rfl, rfl, rfl⟩ := C44_unique d _ _ _ _ _ _ h1 g1
      cases h2.symm.trans g2
      cases comes_unique h3 g3
    | _ => rfl

/-- What comes of a pipe, as it runs. -/
theorem pipe_comes {S : Type} (R : Ranger S) : ∀ (ds : List Doc) (l : Lasso S), PipeComes R ds l (R.pipe ds (.lasso l)).toOption
  | [], l => .done l
  | d :: ds, l => by
    simp only [Ranger.pipe]
    cases hp : parseCallSpec d with
    | error e =>
      refine .unreadable d ds l (fun f a k h => ?_)
      have := (C44_accepted_iff d f a k).2 h
      rw [hp] at this; cases this
    | ok c =>
      obtain ⟨f, a, k⟩ := c
      have hform := (C44_accepted_iff d f a k).1 hp
      simp only
      cases ho : l.opts with
      | none =>
        have : R.makeCall (.lasso l) f a k = .error .attributeError := by simp [Ranger.makeCall, ho]
        rw [this]
        exact .noOptions d ds l ho
      | some o =>
        have hc := comes_makeCall R l o ho f a k
        cases hm : R.makeCall (.lasso l) f a k with
        | error e => rw [hm] at hc; exact .failed d ds l o f a k _ hform ho hc
        | ok r =>
          rw [hm] at hc
          cases r with
          | lasso l' => exact .step d ds l l' o f a k _ hform ho hc (pipe_comes R ds l')
          | other x =>
            cases ds with
            | nil => exact .noLassoLast d l o f a k x hform ho hc
            | cons e ds =>
              have : ((R.pipe (e :: ds) (.other x)).toOption) = none := by
                simp only [Ranger.pipe]
                cases parseCallSpec e with
                | error e' => rfl
                | ok c' => rfl
              simp only [this]
              exact .noLasso d e ds l o f a k x hform ho hc

section
variable {S : Type} (U : Setup S) (n : Nat) (u : Str) (r : RefText)
  (items : List ExpItem) (sheet0 : Option S) (base : Option Coords) (s : S) (m : Mat) (up dn : Coords) (ws js : Str) (d : Doc)
  (o : Option (List (Str × Doc)))

private theorem gives {l : Lasso S} {o : Opts} {ds : List Doc} {k : List (Str × Doc)} {x : Except PyErr (FRes S)}
    (hpipe : U.filters "pipe".toList = some (.pipe, true)) (h : Comes (U.ranger (n + 1)) o l "pipe".toList ds k x) :
    ∃ out, PipeComes (U.ranger n) ds l out ∧ PipeGives o l k out x := by
  have hf : (U.ranger (n + 1)).filters "pipe".toList = some ⟨fun l args _ => (U.ranger n).pipe args (.lasso l), true⟩ := by
    rw [filters_succ, hpipe]; rfl
  have hp := pipe_comes (U.ranger n) ds l
  cases h with
  | done rec l' h1 h2 =>
    cases hf.symm.trans h1
    simp only at h2
    rw [h2] at hp
    exact ⟨_, hp, .done l'⟩
  | absent h1 _ => cases hf.symm.trans h1
  | absentLax h1 _ => cases hf.symm.trans h1
  | failed rec h1 h2 h3 =>
    cases hf.symm.trans h1
    simp only at h2 h3
    have h3 : ¬ Lax o k := h3.elim id (fun h => nomatch h.2)
    cases hr : (U.ranger n).pipe ds (.lasso l) with
    | error e => rw [hr] at hp; exact ⟨_, hp, .failed h3⟩
    | ok r =>
      rw [hr] at hp
      cases r with
      | lasso l' => exact absurd hr (h2 l')
      | other x => exact ⟨_, hp, .wrong x h3⟩
  | failedLax rec e h1 h2 h3 _ =>
    cases hf.symm.trans h1
    simp only at h2
    rw [h2] at hp
    exact ⟨_, hp, .failedLax h3⟩
  | otherLax rec x h1 h2 h3 _ =>
    cases hf.symm.trans h1
    simp only at h2
    rw [h2] at hp
    exact ⟨_, hp, .wrongLax x h3⟩

/-- C158. A pipe written after a reference runs its filters, from the first to the last, on what the reference captures without it, and gives what the
last comes to; if one fails, `ValueError`, or, leniently, what was captured. An empty capture is an empty list for the first.
Missing for the full property: lax calls of filters that change values in place before they fail, or before others do, which are taken here to
leave the values as they were; see `C158_lax_left` and `C158_lax_refuted`. -/
theorem C158_written_partial (hu : '#' ∉ u) (hpl : NoCurly (u ++ r.text)) (h : r.Ok) (hf : r.filt = some (ws, js)) (hd : U.jsonLoads js = some d)
    (ds : List Doc) (k : List (Str × Doc)) (hform : FilterForm d o (some ("pipe".toList, ds, k)))
    (hpipe : U.filters "pipe".toList = some (.pipe, true))
    (hx : r.Expands items) (hfetch : U.fetch (if u = [] then none else some u) r.sheetName sheet0 = .ok s)
    (hstates : U.api.states s = .ok m) (hmargins : U.api.margins s = .ok (up, dn)) :
    (∀ st nd v, resolveCaptureRect m up dn r.first r.second (items.map ExpItem.meaning) base = .ok (st, nd) → U.api.readRect s st nd = .ok v →
      ∃ l out, CapturedAs l s (some st) nd v.toDoc base [o.getD U.baseOpts] ∧ PipeComes (U.ranger n) ds l out ∧
        PipeGives [o.getD U.baseOpts] l k out (U.doLasso (n + 1) (u ++ '#' :: r.text) { sheet := sheet0, baseCoords := base })) ∧
    (resolveCaptureRect m up dn r.first r.second (items.map ExpItem.meaning) base = .error .emptyCapture →
      dget (o.getD U.baseOpts) "no_empty".toList = none →
      ∃ l out, CapturedAs l s none none (.list []) base [o.getD U.baseOpts] ∧ PipeComes (U.ranger n) ds l out ∧
        PipeGives [o.getD U.baseOpts] l k out (U.doLasso (n + 1) (u ++ '#' :: r.text) { sheet := sheet0, baseCoords := base })) := by
  have hc := C156_called_partial (U.ranger (n + 1)) U.api U.jsonLoads u r items sheet0 base s m up dn ws js d o hu hpl h hf hd _ _ _ hform hx
    (by rw [ranger_fetch]; exact hfetch) hstates hmargins
  rw [ranger_opts] at hc
  refine ⟨?_, ?_⟩
  · intro st nd v h1 h2
    obtain ⟨l, hl, hcm⟩ := hc.1 st nd v h1 h2
    obtain ⟨out, g1, g2⟩ := gives U n hpipe hcm
    exact ⟨l, out, hl, g1, g2⟩
  · intro h1 h2
    obtain ⟨l, hl, hcm⟩ := hc.2.1 h1 h2
    obtain ⟨out, g1, g2⟩ := gives U n hpipe hcm
    exact ⟨l, out, hl, g1, g2⟩

end

section
variable {S : Type} (U : Setup S)

private theorem comes_iff (R : Ranger S) (ds : List Doc) (l : Lasso S) (x : FRes S) :
    PipeComes R ds l (some x) ↔ R.pipe ds (.lasso l) = .ok x := by
  have hp := pipe_comes R ds l
  constructor
  · intro h
    have := C158_settled hp h
    cases hr : R.pipe ds (.lasso l) with
    | error e => rw [hr] at this; cases this
    | ok r => rw [hr] at this; cases this; rfl
  · intro h
    rw [h] at hp; exact hp

private theorem strict_pipe (hj : NothingLax U) (ho : KeepOptions U) (n : Nat) (ds : List Doc) (l : Lasso S) (r : FRes S)
    (hl : StrictLasso l) (hds : ∀ d ∈ ds, ¬ SaysLax d) (h : (U.ranger n).pipe ds (.lasso l) = .ok r) :
    StrictRes r ∧ (U.ranger (n + 1)).pipe ds (.lasso l) = .ok r :=
  pipe_more (more_stack U hj ho n).1 ds (.lasso l) r hds ⟨l, rfl, hl⟩ h

private theorem nested_call (n : Nat) (hpipe : U.filters "pipe".toList = some (.pipe, true)) {d : Doc} {ds : List Doc} (hd : IsPipe d ds)
    (hs : ¬ SaysLax d) {l : Lasso S} (hl : StrictLasso l) (x : FRes S) :
    (U.ranger (n + 1)).pipe [d] (.lasso l) = .ok x ↔ ∃ l', x = .lasso l' ∧ (U.ranger n).pipe ds (.lasso l) = .ok (.lasso l') := by
  obtain ⟨k, hk⟩ := hd
  have hp := (C44_accepted_iff d _ _ k).2 hk
  have hc := parseCallSpec_strict hs hp
  obtain ⟨o, hlo, hlax⟩ := hl
  have hnl := strict_lax hlax hc
  simp only [Ranger.pipe, hp]
  rw [makeCall_known _ hlo (by rw [filters_succ, hpipe]; rfl)]
  constructor
  · intro h
    cases ha : afterCall l o k true ((U.ranger n).pipe ds (.lasso l)) with
    | error e => simp only [FilterKind.func, ha] at h; cases h
    | ok v =>
      simp only [FilterKind.func, ha] at h
      cases h
      exact afterCall_strict hnl ha
  · rintro ⟨l', rfl, h⟩
    simp only [FilterKind.func, h, afterCall]

/-- C158. Where nothing is lax, a pipe among the filters of a pipe does what its filters do in its place: what the one gives the other gives, with stack
for one more filter within another. -/
theorem C158_nested (hj : NothingLax U) (ho : KeepOptions U) (hpipe : U.filters "pipe".toList = some (.pipe, true)) (n : Nat)
    (before inner after : List Doc) (d : Doc) (hd : IsPipe d inner) (hs : ∀ x ∈ before ++ d :: after, ¬ SaysLax x)
    (l : Lasso S) (o : Opts) (hlo : l.opts = some o) (hlax : ¬ Lax o []) (l' : Lasso S) :
    (PipeComes (U.ranger (n + 1)) (before ++ d :: after) l (some (.lasso l')) →
      PipeComes (U.ranger (n + 1)) (before ++ inner ++ after) l (some (.lasso l'))) ∧
    (PipeComes (U.ranger n) (before ++ inner ++ after) l (some (.lasso l')) →
      PipeComes (U.ranger (n + 1)) (before ++ d :: after) l (some (.lasso l'))) := by
  have hl : StrictLasso l := by
    refine ⟨o, hlo, ?_⟩
    cases ht : (o.get "lax".toList (.bool false)).truthy with
    | false => rfl
    | true => exact absurd ((lax_iff o []).1 ht) hlax
  have hsd : ¬ SaysLax d := hs d (by simp)
  have hsi : ∀ x ∈ inner, ¬ SaysLax x := by
    obtain ⟨k, hk⟩ := hd
    exact (parseCallSpec_strict hsd ((C44_accepted_iff d _ _ k).2 hk)).1
  have hsb : ∀ x ∈ before, ¬ SaysLax x := fun x hx => hs x (by simp [hx])
  have hsa : ∀ x ∈ after, ¬ SaysLax x := fun x hx => hs x (by simp [hx])
  simp only [comes_iff]
  have hcons : before ++ d :: after = before ++ ([d] ++ after) := by simp
  constructor
  · intro h
    rw [hcons, C51_append] at h
    cases h1 : (U.ranger (n + 1)).pipe before (.lasso l) with
    | error e => rw [h1] at h; cases h
    | ok r1 =>
      rw [h1] at h
      obtain ⟨⟨l1, rfl, hl1⟩, -⟩ := strict_pipe U hj ho _ _ _ _ hl hsb h1
      simp only [Except.bind, C51_append] at h
      cases h2 : (U.ranger (n + 1)).pipe [d] (.lasso l1) with
      | error e => rw [h2] at h; cases h
      | ok r2 =>
        rw [h2] at h
        obtain ⟨l2, rfl, h3⟩ := (nested_call U n hpipe hd hsd hl1 r2).1 h2
        have h4 := (strict_pipe U hj ho _ _ _ _ hl1 hsi h3).2
        rw [C51_append, C51_append, h1]
        simp only [Except.bind, h4]
        exact h
  · intro h
    rw [C51_append, C51_append] at h
    cases h1 : (U.ranger n).pipe before (.lasso l) with
    | error e => rw [h1] at h; cases h
    | ok r1 =>
      rw [h1] at h
      obtain ⟨⟨l1, rfl, hl1⟩, h1'⟩ := strict_pipe U hj ho _ _ _ _ hl hsb h1
      simp only [Except.bind] at h
      cases h2 : (U.ranger n).pipe inner (.lasso l1) with
      | error e => rw [h2] at h; cases h
      | ok r2 =>
        rw [h2] at h
        simp only at h
        obtain ⟨⟨l2, rfl, hl2⟩, -⟩ := strict_pipe U hj ho _ _ _ _ hl1 hsi h2
        have h3 := (nested_call U n hpipe hd hsd hl1 (.lasso l2)).2 ⟨l2, rfl, h2⟩
        have h4 := (strict_pipe U hj ho _ _ _ _ hl2 hsa h).2
        rw [hcons, C51_append, h1']
        simp only [Except.bind, C51_append, h3]
        exact h4

end

section
variable {S : Type} (U : Setup S) (others : OthersLeave S) (n : Nat)

private theorem elementwise_mutable (R : RangerLeft S) (pandas : Bool) (ef : EFun S) (hef : ∀ l bc d, d.mutable = true → ∃ r, ef l bc d = .ok (false, r))
    (filters : List Doc) (incl excl : Option (List Str)) (depth : Option Int) (l : Lasso S) (hl : l.values.mutable = true) :
    (R.elementwise pandas ef filters incl excl depth l).1.mutable = true ∧
    ∀ l', (R.elementwise pandas ef filters incl excl depth l).2 = .ok (.lasso l') → l'.values.mutable = true := by
  unfold RangerLeft.elementwise
  cases parseSubs filters with
  | error e => exact ⟨hl, fun l' h => nomatch h⟩
  | ok subs =>
    simp only
    have key : (diveLeft ⟨included incl excl, depth, pandas⟩ (R.callElement ef l) 0 l.st subs l.values).1.mutable = true := by
      cases hv : l.values with
      | dict kvs =>
        unfold diveLeft
        split <;> rfl
      | list xs =>
        unfold diveLeft
        split
        · rfl
        · obtain ⟨r, hr⟩ := hef l l.st (.list xs) rfl
          have : R.callElement ef l subs l.st (.list xs) = .ok (none, subs) := by simp only [RangerLeft.callElement, hr]
          rw [this]
          rfl
      | _ => rw [hv] at hl; cases hl
    generalize diveLeft ⟨included incl excl, depth, pandas⟩ (R.callElement ef l) 0 l.st subs l.values = q at key
    obtain ⟨v, q⟩ := q
    cases q with
    | error e => exact ⟨key, fun l' h => nomatch h⟩
    | ok s => exact ⟨key, fun l' h => by cases h; exact key⟩

private theorem recurse_mutable (lassoRef : Str → Lasso S → Except PyErr (FRes S)) :
    ∀ l bc d, d.mutable = true → ∃ r, recurseElement lassoRef l bc d = .ok (false, r) := by
  intro l bc d hd
  cases d <;> first | (cases hd; done) | exact ⟨_, rfl⟩

private theorem pyeval_mutable (eval : Evaluator S) (all : Bool) :
    ∀ l bc d, d.mutable = true → ∃ r, pyevalElement eval all l bc d = .ok (false, r) := by
  intro l bc d hd
  cases d <;> first | (cases hd; done) | exact ⟨_, rfl⟩

/-- What filters that go through lists and dictionaries leave and return are lists and dictionaries. -/
private theorem through_mutable {f : Str} (hg : GoesThrough U f) {rec : FRecLeft S} (hr : (U.rangerLeft others n).filters f = some rec) (l : Lasso S)
    (hl : l.values.mutable = true) (a : List Doc) (k : List (Str × Doc)) :
    (rec.func l a k).1.mutable = true ∧ ∀ l', (rec.func l a k).2 = .ok (.lasso l') → l'.values.mutable = true := by
  obtain ⟨kind, desc, hk, hkind⟩ := hg
  cases n with
  | zero =>
    simp only [Setup.rangerLeft, hk, Option.map_some] at hr
    cases hr
    exact ⟨hl, fun l' h => nomatch h⟩
  | succ n =>
    simp only [Setup.rangerLeft, hk, Option.map_some] at hr
    cases hr
    rcases hkind with rfl | ⟨eval, rfl⟩
    · simp only [FilterKind.funcLeft]
      split
      · exact ⟨hl, fun l' h => nomatch h⟩
      · exact elementwise_mutable _ _ _ (recurse_mutable _) _ _ _ _ l hl
    · simp only [FilterKind.funcLeft]
      split
      · exact ⟨hl, fun l' h => nomatch h⟩
      · exact elementwise_mutable _ _ _ (pyeval_mutable _ _) _ _ _ _ l hl

private theorem through_is {f : Str} (hg : GoesThrough U f) : U.elementWise f = true := by
  obtain ⟨kind, desc, hk, rfl | ⟨eval, rfl⟩⟩ := hg <;> simp [Setup.elementWise, hk]

/-- A pipe goes on with what its filters made in place. -/
private theorem pipeLeft_made {ds : List Doc} {l l1 : Lasso S} (h : MadeInPlace U (U.rangerLeft others n) ds l l1) (rest : List Doc)
    (hl : l.values.mutable = true) : l1.values.mutable = true ∧ U.pipeLeft others n (ds ++ rest) l = U.pipeLeft others n rest l1 ∧
      (U.rangerLeft others n).pipe (ds ++ rest) (.lasso l) = (U.rangerLeft others n).pipe rest (.lasso l1) := by
  induction h with
  | none l => exact ⟨hl, rfl, rfl⟩
  | next d ds f a k l l1 l2 hform hg hcall _ ih =>
    have hp := (C44_accepted_iff d f a k).2 hform
    obtain ⟨rec, hrec⟩ : ∃ rec, (U.rangerLeft others n).filters f = some rec := by
      obtain ⟨kind, desc, hk, _⟩ := hg
      cases n <;> simp [Setup.rangerLeft, hk]
    have hm := through_mutable U others n hg hrec l hl a (ddel k "lax".toList)
    have hpipe : (U.rangerLeft others n).pipe (d :: ds ++ rest) (.lasso l) = (U.rangerLeft others n).pipe (ds ++ rest) (.lasso l1) := by
      simp only [List.cons_append, RangerLeft.pipe, hp, hcall]
    have hcall' := hcall
    cases hq : rec.func l a (ddel k "lax".toList) with
    | mk left q =>
      rw [hq] at hm
      cases q with
      | error e =>
        have hl1 : l1.values.mutable = true := by
          simp only [RangerLeft.makeCall] at hcall
          cases ho : l.opts with
          | none => rw [ho] at hcall; cases hcall
          | some o =>
            rw [ho] at hcall
            simp only [hrec, hq] at hcall
            split at hcall
            · cases hcall
            · split at hcall
              · cases hcall; exact hm.1
              · cases hcall
        obtain ⟨i1, i2, i3⟩ := ih hl1
        refine ⟨i1, ?_, hpipe.trans i3⟩
        rw [← i2]
        simp only [List.cons_append, Setup.pipeLeft, hp, hrec, hq, hcall']
      | ok r =>
        cases r with
        | other x =>
          simp only [RangerLeft.makeCall] at hcall
          cases ho : l.opts with
          | none => rw [ho] at hcall; cases hcall
          | some o =>
            rw [ho] at hcall
            simp only [hrec, hq] at hcall
            split at hcall
            · cases hcall
            · split at hcall <;> cases hcall
        | lasso l' =>
          have e : l' = l1 := by
            simp only [RangerLeft.makeCall] at hcall
            cases ho : l.opts with
            | none => rw [ho] at hcall; cases hcall
            | some o =>
              rw [ho] at hcall
              simp only [hrec, hq] at hcall
              cases hcall; rfl
          subst e
          obtain ⟨i1, i2, i3⟩ := ih (hm.2 _ rfl)
          refine ⟨i1, ?_, hpipe.trans i3⟩
          rw [← i2]
          simp only [List.cons_append, Setup.pipeLeft, hp, hrec, hq, through_is U hg, hl, Bool.and_self, if_true]

/-- C158. A lax pipe that fails at some filter, after others that go through the values, returns the lasso that it was given with what these
filters made of the values, and, from the failing filter, what it left of them. -/
theorem C158_lax_left (hpipe : U.filters "pipe".toList = some (.pipe, true)) (l : Lasso S) (o : Opts) (ho : l.opts = some o)
    (kwds : List (Str × Doc)) (hlax : Lax o kwds) (hl : (∃ xs, l.values = .list xs) ∨ ∃ kvs, l.values = .dict kvs)
    (before after : List Doc) (bad : Doc) (l1 : Lasso S) (v : Doc) (hb : MadeInPlace U (U.rangerLeft others n) before l l1)
    (hbad : FailsLeaving (U.rangerLeft others n) bad l1 v) :
    (U.rangerPipes others n).makeCall (.lasso l) "pipe".toList (before ++ bad :: after) kwds = .ok (.lasso { l with values := v }) := by
  have hl' : l.values.mutable = true := by
    rcases hl with ⟨xs, h⟩ | ⟨xs, h⟩ <;> rw [h] <;> rfl
  obtain ⟨hm, h1, h2⟩ := pipeLeft_made U others n hb (bad :: after) hl'
  have hfail : U.pipeLeft others n (bad :: after) l1 = v ∧ ∃ e, (U.rangerLeft others n).pipe (bad :: after) (.lasso l1) = .error e := by
    cases hbad with
    | unreadable h =>
      have hp := C44_otherwise_valueError bad h
      simp [Setup.pipeLeft, RangerLeft.pipe, hp]
    | absent f a k o hform hno hlo hs =>
      have hp := (C44_accepted_iff bad f a k).2 hform
      have hs' := Bool.eq_false_iff.2 (fun e => hs ((lax_iff o k).1 e))
      have hc : (U.rangerLeft others n).makeCall (.lasso l1) f a k = .error .valueError := by
        simp only [RangerLeft.makeCall, hlo, hno, hs', Bool.false_eq_true, if_false]
      refine ⟨?_, .valueError, ?_⟩
      · simp only [Setup.pipeLeft, hp, hno, hc]
      · simp only [RangerLeft.pipe, hp, hc]
    | failed f a k o rec v e hform hrec hlo hs hv =>
      have hp := (C44_accepted_iff bad f a k).2 hform
      have hs' := Bool.eq_false_iff.2 (fun e => hs ((lax_iff o k).1 e))
      have hv' : rec.func l1 a (ddel k "lax".toList) = (v, .error e) := hv
      have hc : ∃ e', (U.rangerLeft others n).makeCall (.lasso l1) f a k = .error e' := by
        simp only [RangerLeft.makeCall, hlo, hrec, hv', hs', Bool.false_eq_true, if_false]
        split <;> exact ⟨_, rfl⟩
      obtain ⟨e', hc⟩ := hc
      refine ⟨?_, e', ?_⟩
      · simp only [Setup.pipeLeft, hp, hrec, hv', hc]
      · simp only [RangerLeft.pipe, hp, hc]
  obtain ⟨hv, e, he⟩ := hfail
  refine lax_left _ l o ho "pipe".toList _ kwds hlax
    ⟨fun l args _ => (U.pipeLeft others n args l, (U.rangerLeft others n).pipe args (.lasso l)), true⟩
    (by simp only [Setup.rangerPipes, hpipe]) (fun _ => rfl) v e ?_
  simp only [h1, h2, hv, he]

/-- C158. If in between there was a filter that does not go through the values but returns others, then what those after it did is not seen: the
lax pipe returns the lasso that it was given with the values as that filter left them. -/
theorem C158_lax_detached (hpipe : U.filters "pipe".toList = some (.pipe, true)) (l : Lasso S) (o : Opts) (ho : l.opts = some o)
    (kwds : List (Str × Doc)) (hlax : Lax o kwds) (hl : (∃ xs, l.values = .list xs) ∨ ∃ kvs, l.values = .dict kvs)
    (before after : List Doc) (d : Doc) (l1 l2 : Lasso S) (v : Doc) (hb : MadeInPlace U (U.rangerLeft others n) before l l1)
    (f : Str) (a : List Doc) (k : List (Str × Doc)) (o1 : Opts) (ho1 : l1.opts = some o1) (hform : CallForm d f a k) (hg : ¬ GoesThrough U f)
    (rec : FRecLeft S) (hrec : (U.rangerLeft others n).filters f = some rec) (hd : rec.func l1 a (withoutLax k) = (v, .ok (.lasso l2)))
    (e : PyErr) (hafter : (U.rangerLeft others n).pipe after (.lasso l2) = .error e) :
    (U.rangerPipes others n).makeCall (.lasso l) "pipe".toList (before ++ d :: after) kwds = .ok (.lasso { l with values := v }) := by
  have hl' : l.values.mutable = true := by
    rcases hl with ⟨xs, h⟩ | ⟨xs, h⟩ <;> rw [h] <;> rfl
  obtain ⟨_, h1, h2⟩ := pipeLeft_made U others n hb (d :: after) hl'
  have hp := (C44_accepted_iff d f a k).2 hform
  have hd' : rec.func l1 a (ddel k "lax".toList) = (v, .ok (.lasso l2)) := hd
  have hel : U.elementWise f = false := by
    unfold Setup.elementWise
    split
    · rename_i desc h; exact absurd ⟨_, _, h, .inl rfl⟩ hg
    · rename_i ev desc h; exact absurd ⟨_, _, h, .inr ⟨ev, rfl⟩⟩ hg
    · rfl
  have hv : U.pipeLeft others n (d :: after) l1 = v := by
    simp only [Setup.pipeLeft, hp, hrec, hd', hel, Bool.false_and, Bool.false_eq_true, if_false]
  have hc : (U.rangerLeft others n).makeCall (.lasso l1) f a k = .ok (.lasso l2) := by
    simp only [RangerLeft.makeCall, ho1, hrec, hd']
  have he : (U.rangerLeft others n).pipe (d :: after) (.lasso l1) = .error e := by
    simp only [RangerLeft.pipe, hp, hc, hafter]
  refine lax_left _ l o ho "pipe".toList _ kwds hlax
    ⟨fun l args _ => (U.pipeLeft others n args l, (U.rangerLeft others n).pipe args (.lasso l)), true⟩
    (by simp only [Setup.rangerPipes, hpipe]) (fun _ => rfl) v e ?_
  simp only [h1, h2, hv, he]

end

/-- A row with a reference to its second cell. -/
private def pairCells : Grid := ⟨1, 2, fun _ j => if j = 0 then .str "#B1".toList else .int 7⟩

private def laxPipeJson : Doc :=
  .list [.str "pipe".toList, .list [.str "recurse".toList, .str "none".toList], .dict [("lax".toList, .bool true)]]

private def pairSetup : Setup Unit := { gridSetup pairCells laxPipeJson with
  filters := fun f => if f = "pipe".toList then some (.pipe, true) else if f = "recurse".toList then some (.recurse, true) else none }

/-- C158, refuted for lax pipes: `["pipe", ["recurse", "none"], {"lax": true}]` fails, since there is no filter `none`, but what is returned
leniently is not what was captured: the first filter changed that. -/
theorem C158_lax_refuted : ∃ (U : Setup Unit) (others : OthersLeave Unit) (t : Str), ∃ l captured : Lasso Unit,
    U.filters "none".toList = none ∧ U.jsonLoads "[\"pipe\", [\"recurse\", \"none\"], {\"lax\": true}]".toList = some laxPipeJson ∧
    t = "#A1:B1:[\"pipe\", [\"recurse\", \"none\"], {\"lax\": true}]".toList ∧
    (U.rangerPipes others 1).doLasso U.api U.jsonLoads t {} = .ok (.lasso l) ∧
    (U.ranger 2).doLasso U.api U.jsonLoads t {} = .ok (.lasso captured) ∧
    captured.values = tableOf [[.str "#B1".toList, .int 7]] ∧ l.values = tableOf [[.int 7, .int 7]] := by
  obtain ⟨l, hl, hlv⟩ := gaveValues_sound (r := (pairSetup.rangerPipes keepAll 1).doLasso pairSetup.api pairSetup.jsonLoads
    "#A1:B1:[\"pipe\", [\"recurse\", \"none\"], {\"lax\": true}]".toList {}) (v := tableOf [[.int 7, .int 7]]) (by decide +kernel)
  obtain ⟨c, hc, hcv⟩ := gaveValues_sound (r := (pairSetup.ranger 2).doLasso pairSetup.api pairSetup.jsonLoads
    "#A1:B1:[\"pipe\", [\"recurse\", \"none\"], {\"lax\": true}]".toList {}) (v := tableOf [[.str "#B1".toList, .int 7]]) (by decide +kernel)
  exact ⟨pairSetup, keepAll, _, l, c, rfl, rfl, rfl, hl, hc, hcv, hlv⟩

/-- The hypotheses of `C158_lax_left` can be met. -/
example : ∃ l1, MadeInPlace pairSetup (pairSetup.rangerLeft keepAll 1) [.str "recurse".toList]
      { values := tableOf [[.str "#B1".toList, .int 7]], st := some ⟨0, 0⟩, opts := some [] } l1 ∧ l1.values = tableOf [[.int 7, .int 7]] ∧
    FailsLeaving (pairSetup.rangerLeft keepAll 1) (.int 3) l1 l1.values := by
  obtain ⟨l1, hl, hv⟩ := gaveValues_sound (r := (pairSetup.rangerLeft keepAll 1).makeCall
    (.lasso { values := tableOf [[.str "#B1".toList, .int 7]], st := some ⟨0, 0⟩, opts := some [] }) "recurse".toList [] [])
    (v := tableOf [[.int 7, .int 7]]) (by decide +kernel)
  exact ⟨l1, .next _ _ _ _ _ _ _ _ (.name _) ⟨_, _, rfl, .inl rfl⟩ hl (.none _), hv, .unreadable (fun f a k h => nomatch h)⟩

/-- With a filter that copies. -/
private def copySetup : Setup Unit := { pairSetup with
  filters := fun f => if f = "copy".toList then some (.own (fun l _ _ => .ok (.lasso l)), true) else pairSetup.filters f }

/-- The hypotheses of `C158_lax_detached` can be met: a copy is made, and after `recurse` there is a filter missing. -/
example : ¬ GoesThrough copySetup "copy".toList ∧ ∃ rec, (copySetup.rangerLeft keepAll 1).filters "copy".toList = some rec ∧
    ∀ l : Lasso Unit, rec.func l [] [] = (l.values, .ok (.lasso l)) := by
  refine ⟨?_, _, rfl, fun l => rfl⟩
  rintro ⟨kind, desc, h, rfl | ⟨ev, rfl⟩⟩ <;> cases h

/-- A filter that adds to a number. -/
private def addFilter : FFun Grid := fun l args _ => match l.values, args with
  | .int i, [.int j] => .ok (.lasso { l with values := .int (i + j) })
  | _, _ => .error .typeError

/-- A filter that doubles a number. -/
private def doubleFilter : FFun Grid := fun l _ _ => match l.values with
  | .int i => .ok (.lasso { l with values := .int (2 * i) })
  | _ => .error .typeError

private def addOne : Doc := .list [.str "add".toList, .list [.int 1]]

private def pipeText : Str := "[\"pipe\", [[\"add\", [1]], \"double\"]]".toList
private def nestedText : Str := "[\"pipe\", [[\"add\", [1]], [\"pipe\", [\"double\", [\"add\", [1]]]]]]".toList
private def laxText : Str := "[\"pipe\", [\"double\", \"none\"], {\"lax\": true}]".toList
private def strictText : Str := "[\"pipe\", [\"double\", \"none\"]]".toList

private def innerPipe : Doc := .list [.str "pipe".toList, .list [.str "double".toList, addOne]]

private def pipeJson : Str → Option Doc := fun t =>
  if t = pipeText then some (.list [.str "pipe".toList, .list [addOne, .str "double".toList]])
  else if t = nestedText then some (.list [.str "pipe".toList, .list [addOne, innerPipe]])
  else if t = strictText then some (.list [.str "pipe".toList, .list [.str "double".toList, .str "none".toList]])
  else none

private def pipeSetup (json : Str → Option Doc) : Setup Grid where
  fetch _ _ _ := .ok twoByTwo
  baseOpts := [("lax".toList, .bool false)]
  filters f := if f = "pipe".toList then some (.pipe, true) else if f = "add".toList then some (.own addFilter, true)
    else if f = "double".toList then some (.own doubleFilter, true) else none
  pandas := true
  api := arrayApi
  jsonLoads := json

private def pipeRef : RefText := ⟨[], none, some ⟨.a1 "B".toList "2".toList, none⟩, none, some ([], pipeText)⟩

example : pipeRef.text = "B2:".toList ++ pipeText := by decide

example : pipeRef.Ok := by
  refine ⟨by simp [Spaces, pipeRef], trivial, ?_, ?_, ?_, ?_, ?_⟩
  · intro e he; cases he
    exact ⟨⟨.inl ⟨by decide, by decide⟩, .inl ⟨'2', [], rfl, by decide, by decide, by simp⟩⟩, trivial⟩
  · intro e ex he; cases he
  · intro nd ex he; cases he
  · exact ⟨by simp [Spaces], _, _, rfl, by decide⟩
  · intro _ ws js he; cases he; decide

example : NoCurly ([] ++ pipeRef.text) := by unfold NoCurly; decide

example : FilterForm (.list [.str "pipe".toList, .list [addOne, .str "double".toList]]) none
    (some ("pipe".toList, [addOne, .str "double".toList], [])) := .list _ _ _ _ (by simp) (.listArgs _ _ _ (.list _))

example : (pipeSetup pipeJson).jsonLoads pipeText = some (.list [.str "pipe".toList, .list [addOne, .str "double".toList]]) ∧
    (pipeSetup pipeJson).filters "pipe".toList = some (.pipe, true) := ⟨rfl, rfl⟩

/-- The filters run from the first to the last: a cell of 11 gives 24, and not 23. -/
example : gaveValues ((pipeSetup pipeJson).doLasso 2 ("#B2:".toList ++ pipeText) {}) (.int 24) = true := by decide +kernel

/-- With a pipe in the pipe. -/
example : gaveValues ((pipeSetup pipeJson).doLasso 3 ("#B2:".toList ++ nestedText) {}) (.int 25) = true := by decide +kernel

/-- A filter that does not exist fails the pipe. -/
example : (match (pipeSetup pipeJson).doLasso 2 ("#B2:".toList ++ strictText) {} with
    | .error .valueError => true
    | _ => false) = true := by decide +kernel

/-- Leniently, what was captured is left, and not what the filters before it made. -/
example : gaveValues ((pipeSetup (fun _ => some (.list [.str "pipe".toList, .list [.str "double".toList, .str "none".toList],
    .dict [("lax".toList, .bool true)]]))).doLasso 2 ("#B2:".toList ++ laxText) {}) (.int 11) = true := by decide +kernel

/-- Nothing is lax there, and options are kept. -/
private theorem pipe_strict : NothingLax (pipeSetup pipeJson) ∧ KeepOptions (pipeSetup pipeJson) := by
  have hstr : ∀ s, ¬ SaysLax (.str s) := fun s h => nomatch h
  have hint : ∀ s, ¬ SaysLax (.int s) := fun s h => nomatch h
  have hlist : ∀ xs, (∀ x ∈ xs, ¬ SaysLax x) → ¬ SaysLax (.list xs) := by
    intro xs hx h
    cases h with
    | item _ x hm h => exact hx x hm h
  have hadd : ¬ SaysLax addOne := hlist _ (by simp [hstr, hlist, hint])
  have hin : ¬ SaysLax innerPipe := hlist _ (by simp [hstr, hlist, hadd])
  refine ⟨⟨rfl, fun t d h => ?_⟩, ?_⟩
  · simp only [pipeSetup, pipeJson] at h
    split at h
    · cases h; exact hlist _ (by simp [hstr, hlist, hadd])
    · split at h
      · cases h; exact hlist _ (by simp [hstr, hlist, hadd, hin])
      · split at h
        · cases h; exact hlist _ (by simp [hstr, hlist])
        · cases h
  · intro name i h
    simp only [pipeSetup] at h
    split at h
    · cases h; trivial
    · split at h
      · cases h
        intro l args kwds l' hl
        simp only [addFilter] at hl
        split at hl
        · cases hl; rfl
        · cases hl
      · split at h
        · cases h
          intro l args kwds l' hl
          simp only [doubleFilter] at hl
          split at hl
          · cases hl; rfl
          · cases hl
        · cases h

example : IsPipe innerPipe [.str "double".toList, addOne] := ⟨[], .listArgs _ _ _ (.list _)⟩

example : PipeComes ((pipeSetup pipeJson).ranger 1) [.str "double".toList, addOne] { values := .int 3, opts := some [] }
    (some (.lasso { values := .int 7, opts := some [] })) := pipe_comes _ _ _

end Props
