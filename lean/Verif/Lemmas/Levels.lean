import Verif.Lemmas.Recurring
/-
Lemmas on references that lead to references.
-/
namespace Lemmas
open Py Model Spec

section
variable {S : Type} (U : Setup S)

theorem ranger_fetch : ∀ n, (U.ranger n).fetch = U.fetch
  | 0 => rfl
  | _ + 1 => rfl

theorem ranger_opts : ∀ n, (U.ranger n).baseOpts = U.baseOpts
  | 0 => rfl
  | _ + 1 => rfl

/-- A reference is not captured, or it is, whatever stack there is; then its filters are run. -/
theorem captured (t : Str) (ctx : Lasso S) :
    (∃ e, (∀ n, U.doLasso n t ctx = .error e) ∧ ∀ l, ¬ Captures U t ctx l) ∨
    ∃ l p, Captures U t ctx l ∧ (∀ n, U.doLasso n t ctx = (U.ranger n).runFilters l) ∧ parseXlref U.jsonLoads t = .ok p ∧
      l.opts = overlay (p.frag.opts.map (fun o => [o])) (some [U.baseOpts]) ∧ l.callSpec = overlay p.frag.callSpec ctx.callSpec := by
  have hbare : ∀ l : Lasso S, l.opts.isSome = true → Ranger.runFilters
      ⟨U.fetch, U.baseOpts, fun _ => some ⟨fun l _ _ => .ok (.lasso l), true⟩⟩ l = .ok (.lasso l) := by
    intro l hl
    unfold Ranger.runFilters
    cases l.callSpec with
    | none => rfl
    | some c =>
      obtain ⟨o, ho⟩ := Option.isSome_iff_exists.1 hl
      simp [Ranger.makeCall, ho]
  have hov : ∀ a : Option Opts, (overlay a (some [U.baseOpts])).isSome = true := by
    intro a; cases a <;> rfl
  unfold Captures
  simp only [Setup.doLasso, Ranger.doLasso, Ranger.parseMerge, ranger_fetch, ranger_opts]
  cases hp : parseXlref U.jsonLoads t with
  | error e => left; cases e <;> exact ⟨_, fun _ => rfl, fun _ h => (nomatch h)⟩
  | ok p =>
    simp only
    by_cases henc : p.encased.isSome = true
    · left; exact ⟨.valueError, fun n => by simp only [henc, if_true], fun l h => by simp only [henc, if_true] at h; cases h⟩
    · simp only [henc]
      cases hf : U.fetch (overlay p.urlFile ctx.urlFile) (overlay p.frag.shName ctx.shName) ctx.sheet with
      | error e => left; exact ⟨.valueError, fun n => by simp [hf], fun l h => by simp [hf] at h⟩
      | ok sheet =>
        simp only [hf, Bool.false_eq_true, if_false]
        generalize hr : resolveRect U.api _ sheet = r
        match r with
        | .error e => left; exact ⟨e, fun n => rfl, fun _ h => (nomatch h)⟩
        | .ok none =>
          right
          exact ⟨_, p, hbare _ (hov _), fun n => rfl, rfl, rfl, rfl⟩
        | .ok (some (st, nd)) =>
          simp only
          generalize hv : U.api.readRect sheet st nd = v
          match v with
          | .error e => left; exact ⟨e, fun n => rfl, fun _ h => (nomatch h)⟩
          | .ok v =>
            right
            exact ⟨_, p, hbare _ (hov _), fun n => rfl, rfl, rfl, rfl⟩

/-! Texts that lead downwards -/

/-- Texts that are no references, or are among these. -/
def Below (D : Str → Prop) (d : Doc) : Prop := ∀ u, TextIn u d → NoReference U.jsonLoads u ∨ D u

/-- What references lead to is among these too. -/
def Closed (D : Str → Prop) : Prop := ∀ u v, D u → Leads U v u → D v

theorem Closed.trans {D : Str → Prop} (h : Closed U D) {u v : Str} (hu : D u) (hv : Relation.TransGen (Leads U) v u) : D v := by
  induction hv with
  | single h1 => exact h _ _ hu h1
  | tail h1 h2 ih => exact ih (h _ _ hu h2)

theorem closed_from (t : Str) : Closed U (fun u => Relation.TransGen (Leads U) u t) := fun _ _ hu hv => .trans (.single hv) hu

theorem below_elementary (D : Str → Prop) : Elementary (Below U D) := by
  refine ⟨fun xs => ⟨fun h x hx u hu => h u (.item xs x hx hu), fun h u hu => ?_⟩,
    fun kvs => ⟨fun h k x hx u hu => h u (.value kvs k x hx hu), fun h u hu => ?_⟩⟩
  · cases hu with
    | item _ x hx hu => exact h x hx u hu
  · cases hu with
    | value _ k x hx hu => exact h k x hx u hu

theorem below_captured {t : Str} {sheet : Option S} {st nd bc : Option Coords} {l : Lasso S} (h : Captures U t (foundIn sheet st nd bc) l) :
    Below U (fun u => Relation.TransGen (Leads U) u t) l.values := by
  intro u hu
  by_cases hn : NoReference U.jsonLoads u
  · exact .inl hn
  · exact .inr (.single ⟨sheet, st, nd, bc, l, h, hu, hn⟩)

theorem below_trans {D : Str → Prop} (hD : Closed U D) {u : Str} {d : Doc} (h : Below U (fun v => Relation.TransGen (Leads U) v u) d)
    (hu : D u) : Below U D d :=
  fun v hv => (h v hv).imp id (fun hr => hD.trans U hu hr)

/-- What a call makes of the result of its filter. -/
def afterCall (l : Lasso S) (opts : Opts) (kwds : List (Str × Doc)) (desc : Bool) (r : Except PyErr (FRes S)) : Except PyErr (FRes S) :=
  let verbose := (opts.get "verbose".toList (.bool false)).truthy
  let lax := ((dget kwds "lax".toList).getD (opts.get "lax".toList (.bool false))).truthy
  match r with
  | .ok (.lasso l') => .ok (.lasso l')
  | .ok (.other d) =>
    if verbose && !desc then .error .typeError
    else if lax then .ok (.other d) else .error .valueError
  | .error _ =>
    if verbose && !desc then .error .typeError
    else if lax then .ok (.lasso l) else .error .valueError

theorem makeCall_unknown (R : Ranger S) {l : Lasso S} {opts : Opts} (ho : l.opts = some opts) {f : Str} (hf : R.filters f = none)
    (args : List Doc) (kwds : List (Str × Doc)) : R.makeCall (.lasso l) f args kwds =
      if ((dget kwds "lax".toList).getD (opts.get "lax".toList (.bool false))).truthy then .ok (.lasso l) else .error .valueError := by
  simp only [Ranger.makeCall, ho, hf]

theorem makeCall_known (R : Ranger S) {l : Lasso S} {opts : Opts} (ho : l.opts = some opts) {f : Str} {i : FRec S} (hf : R.filters f = some i)
    (args : List Doc) (kwds : List (Str × Doc)) : R.makeCall (.lasso l) f args kwds =
      afterCall l opts kwds i.desc (i.func l args (ddel kwds "lax".toList)) := by
  simp only [Ranger.makeCall, ho, hf, afterCall]
  rfl

theorem filters_zero (f : Str) : (U.ranger 0).filters f = (U.filters f).map (fun i => ⟨fun _ _ _ => .error .recursionError, i.2⟩) := rfl

theorem filters_succ (n : Nat) (f : Str) : (U.ranger (n + 1)).filters f =
    (U.filters f).map (fun i => ⟨i.1.func U.pandas U.api U.jsonLoads (U.ranger n), i.2⟩) := rfl

/-- The result is about what was given, or about what the filter returned. -/
theorem afterCall_ok {l : Lasso S} {opts : Opts} {kwds : List (Str × Doc)} {desc : Bool} {r : Except PyErr (FRes S)} {v : FRes S}
    (h : afterCall l opts kwds desc r = .ok v) : v = .lasso l ∨ r = .ok v := by
  unfold afterCall at h
  split at h
  · cases h; exact .inr rfl
  · simp only at h
    split at h
    · cases h
    · split at h
      · cases h; exact .inr rfl
      · cases h
  · simp only at h
    split at h
    · cases h
    · split at h
      · cases h; exact .inl rfl
      · cases h

theorem pipe_keeps {R : Ranger S} {P : Doc → Prop}
    (hR : ∀ l f args kwds r, P l.values → R.makeCall (.lasso l) f args kwds = .ok r → P (valuesOf r)) :
    ∀ (fs : List Doc) (l : FRes S), P (valuesOf l) → ∀ r, R.pipe fs l = .ok r → P (valuesOf r)
  | [], l, hl, r, h => by simp only [Ranger.pipe] at h; cases h; exact hl
  | f :: fs, l, hl, r, h => by
    simp only [Ranger.pipe] at h
    split at h
    · cases h
    · split at h
      · cases h
      · rename_i hk
        cases l with
        | other d => simp [Ranger.makeCall] at hk
        | lasso l => exact pipe_keeps hR fs _ (hR l _ _ _ _ hl hk) r h

theorem runSubs_keeps {R : Ranger S} {P : Doc → Prop}
    (hR : ∀ l f args kwds r, P l.values → R.makeCall (.lasso l) f args kwds = .ok r → P (valuesOf r)) :
    ∀ (cs : List CallSpec) (l : FRes S), P (valuesOf l) → ∀ r cs', R.runSubs cs l = .ok (r, cs') → P (valuesOf r)
  | [], l, hl, r, cs', h => by simp only [Ranger.runSubs] at h; cases h; exact hl
  | c :: cs, l, hl, r, cs', h => by
    simp only [Ranger.runSubs] at h
    split at h
    · cases h
    · rename_i hk
      split at h
      · cases h
      · rename_i hk'
        cases h
        cases l with
        | other d => simp [Ranger.makeCall] at hk
        | lasso l => exact runSubs_keeps hR cs _ (hR l _ _ _ _ hl hk) _ _ hk'

/-- The lasso that the sub-filters start with. -/
def elementLasso (l : Lasso S) : FRes S → Lasso S
  | .lasso l' => l'
  | .other d => { l with values := d }

theorem callElement_eq (R : Ranger S) (ef : EFun S) (l : Lasso S) (subs : List CallSpec) (bc : Option Coords) (d : Doc) :
    R.callElement ef l subs bc d = match ef l bc d with
      | .error _ => .error .valueError
      | .ok (false, _) => .ok (none, subs)
      | .ok (true, res) => match R.runSubs subs (.lasso (elementLasso l res)) with
        | .error e => .error e
        | .ok (.lasso l', subs') => .ok (some l'.values, subs')
        | .ok (.other d, subs') => if d.truthy then .error .attributeError else .ok (some d, subs') := by
  unfold Ranger.callElement
  cases ef l bc d with
  | error e => rfl
  | ok p => obtain ⟨b, res⟩ := p; cases b <;> cases res <;> rfl

/-- The value of what an element function returned. -/
theorem callElement_keeps {R : Ranger S} {P : Doc → Prop} {ef : EFun S} {l : Lasso S}
    (hR : ∀ l f args kwds r, P l.values → R.makeCall (.lasso l) f args kwds = .ok r → P (valuesOf r))
    (he : ∀ bc d res, P d → ef l bc d = .ok (true, res) → P (valuesOf res))
    (subs : List CallSpec) (bc : Option Coords) (d v : Doc) (subs' : List CallSpec) (hd : P d)
    (h : R.callElement ef l subs bc d = .ok (some v, subs')) : P v := by
  rw [callElement_eq] at h
  split at h
  · cases h
  · cases h
  · rename_i res hres
    have h0 := he bc d res hd hres
    have h1 : P (valuesOf (.lasso (elementLasso l res))) := by cases res <;> exact h0
    split at h
    · cases h
    · rename_i hk; cases h; exact runSubs_keeps hR subs _ h1 _ _ hk
    · rename_i hk
      split at h
      · cases h
      · cases h; exact runSubs_keeps hR subs _ h1 _ _ hk

theorem elementwise_keeps {R : Ranger S} {P : Doc → Prop} (hP : Elementary P) {ef : EFun S} {l l' : Lasso S} {pandas : Bool} {fs : List Doc}
    {incl excl : Option (List Str)} {depth : Option Int}
    (hR : ∀ l f args kwds r, P l.values → R.makeCall (.lasso l) f args kwds = .ok r → P (valuesOf r))
    (he : ∀ bc d res, P d → ef l bc d = .ok (true, res) → P (valuesOf res)) (hl : P l.values)
    (h : R.elementwise pandas ef fs incl excl depth l = .ok l') : P l'.values := by
  unfold Ranger.elementwise at h
  split at h
  · cases h
  · split at h
    · cases h
    · rename_i hk
      cases h
      refine (dive_keeps _ (fun _ => True) P _ hP ?_ 0 l.st _ trivial l.values hl _ _ hk).2
      intro s bc d v s' _ hd hstep
      refine ⟨trivial, fun y hy => ?_⟩
      subst hy
      exact callElement_keeps hR he s bc d y s' hd hstep

/-- Whatever stack there is, texts stay among those that the reference leads to. -/
theorem keeps_below (hm : MakeNoReferences U) : ∀ n,
    (∀ D, Closed U D → ∀ l f args kwds r, Below U D l.values → (U.ranger n).makeCall (.lasso l) f args kwds = .ok r → Below U D (valuesOf r)) ∧
    ∀ u sheet st nd bc r, U.doLasso n u (foundIn sheet st nd bc) = .ok r →
      Below U (fun v => Relation.TransGen (Leads U) v u) (valuesOf r) := by
  have hB : ∀ n, (∀ D, Closed U D → ∀ l f args kwds r, Below U D l.values → (U.ranger n).makeCall (.lasso l) f args kwds = .ok r → Below U D (valuesOf r)) →
      ∀ u sheet st nd bc r, U.doLasso n u (foundIn sheet st nd bc) = .ok r →
      Below U (fun v => Relation.TransGen (Leads U) v u) (valuesOf r) := by
    intro n hA u sheet st nd bc r h
    rcases captured U u (foundIn sheet st nd bc) with ⟨e, he, -⟩ | ⟨l, p, hc, hl, -⟩
    · rw [he] at h; cases h
    · rw [hl] at h
      unfold Ranger.runFilters at h
      split at h
      · cases h; exact below_captured U hc
      · split at h
        · cases h
        · rename_i hk; cases h; exact hA _ (closed_from U u) l _ _ _ _ (below_captured U hc) hk
  have hstep : ∀ n (D : Str → Prop) l f args kwds r, Below U D l.values → (U.ranger n).makeCall (.lasso l) f args kwds = .ok r →
      (∀ i opts, U.filters f = some i → l.opts = some opts → n ≠ 0 → ∀ v, i.1.func U.pandas U.api U.jsonLoads (U.ranger (n - 1)) l args
        (ddel kwds "lax".toList) = .ok v → Below U D (valuesOf v)) → Below U D (valuesOf r) := by
    intro n D l f args kwds r hl h hf
    cases ho : l.opts with
    | none => simp [Ranger.makeCall, ho] at h
    | some opts =>
      cases hi : U.filters f with
      | none =>
        have hno : (U.ranger n).filters f = none := by cases n <;> simp [filters_zero, filters_succ, hi]
        rw [makeCall_unknown _ ho hno] at h
        split at h
        · cases h; exact hl
        · cases h
      | some i =>
        cases n with
        | zero =>
          rw [makeCall_known _ ho (by rw [filters_zero, hi]; rfl)] at h
          rcases afterCall_ok h with rfl | h
          · exact hl
          · cases h
        | succ n =>
          rw [makeCall_known _ ho (by rw [filters_succ, hi]; rfl)] at h
          rcases afterCall_ok h with rfl | h
          · exact hl
          · exact hf i opts hi ho (by omega) r h
  intro n
  induction n with
  | zero =>
    have hA : ∀ D, Closed U D → ∀ l f args kwds r, Below U D l.values → (U.ranger 0).makeCall (.lasso l) f args kwds = .ok r → Below U D (valuesOf r) :=
      fun D _ l f args kwds r hl h => hstep 0 D l f args kwds r hl h (fun i opts _ _ h0 => absurd rfl h0)
    exact ⟨hA, hB 0 hA⟩
  | succ n ih =>
    have hA : ∀ D, Closed U D → ∀ l f args kwds r, Below U D l.values → (U.ranger (n + 1)).makeCall (.lasso l) f args kwds = .ok r →
        Below U D (valuesOf r) := by
      intro D hD l f args kwds r hl h
      refine hstep (n + 1) D l f args kwds r hl h ?_
      intro i opts hi ho _ v hv
      have hmi := hm f i hi
      obtain ⟨k, desc⟩ := i
      cases k with
      | pipe => exact pipe_keeps (fun l f args kwds r => ih.1 D hD l f args kwds r) args (.lasso l) hl v hv
      | own g =>
        intro u hu
        rcases hmi l args _ v hv u hu with h' | h'
        · exact hl u h'
        · exact .inl h'
      | recurse =>
        simp only [FilterKind.func, Nat.add_sub_cancel] at hv
        split at hv
        · cases hv
        · rename_i a ha
          cases hw : (U.ranger n).elementwise U.pandas (recurseElement ((U.ranger n).doLasso U.api U.jsonLoads)) a.filters a.incl a.excl
              a.depth l with
          | error e => rw [hw] at hv; cases hv
          | ok l' =>
            rw [hw] at hv
            cases hv
            refine elementwise_keeps (below_elementary U D) (fun l f args kwds r => ih.1 D hD l f args kwds r) ?_ hl hw
            intro bc d res hd hres
            cases d with
            | str u =>
              simp only [recurseElement] at hres
              split at hres
              · rename_i r' hr'
                cases hres
                rcases hd u .here with ⟨e, he⟩ | hd
                · rcases captured U u (foundIn l.sheet l.st l.nd bc) with ⟨e', he', -⟩ | ⟨l, p, -, -, hp, -⟩
                  · have := (he' n).symm.trans hr'
                    cases this
                  · rw [he] at hp; cases hp
                · exact below_trans U hD (ih.2 u _ _ _ _ _ hr') hd
              · cases hres
              · cases hres
            | _ => simp [recurseElement] at hres
      | pyeval eval =>
        simp only [FilterKind.func, Nat.add_sub_cancel] at hv
        split at hv
        · cases hv
        · rename_i a ha
          cases hw : (U.ranger n).pyeval U.pandas eval a.filters a.evalAll a.incl a.excl a.depth l with
          | error e => rw [hw] at hv; cases hv
          | ok l' =>
            rw [hw] at hv
            cases hv
            refine elementwise_keeps (below_elementary U D) (fun l f args kwds r => ih.1 D hD l f args kwds r) ?_ hl hw
            intro bc d res hd hres
            cases d with
            | str u =>
              simp only [pyevalElement] at hres
              split at hres
              · split at hres <;> cases hres
              · rename_i r' hr'
                cases hres
                have : ∀ w, TextIn w (valuesOf (.lasso (evaluated l r'))) → TextIn w (valuesOf r') := by
                  intro w hw
                  cases r' with
                  | lasso m =>
                    simp only [evaluated] at hw
                    split at hw <;> exact hw
                  | other d => exact hw
                intro w hw
                rcases hmi u l bc r' hr' w (this w hw) with h' | h'
                · exact hl w h'
                · exact .inl h'
            | _ => simp [pyevalElement] at hres
    exact ⟨hA, hB (n + 1) hA⟩

end

end Lemmas
