import Verif.Lemmas.Settling
/-
Where nothing is lax, what is returned is returned with more stack too.
-/
namespace Lemmas
open Py Model Spec

/-- The options of a lasso are not lax. -/
def StrictLasso {S : Type} (l : Lasso S) : Prop := ∃ o, l.opts = some o ∧ (o.get "lax".toList (.bool false)).truthy = false

/-- Neither is a call. -/
def StrictCall (args : List Doc) (kwds : List (Str × Doc)) : Prop := (∀ d, d ∈ args → ¬ SaysLax d) ∧ ¬ SaysLax (.dict kwds)

theorem strictCall_ddel {args : List Doc} {kwds : List (Str × Doc)} (h : StrictCall args kwds) (key : Str) :
    StrictCall args (ddel kwds key) := by
  refine ⟨h.1, fun hs => h.2 ?_⟩
  cases hs with
  | here _ v hv ht => exact .here _ v (List.mem_filter.1 hv).1 ht
  | value _ k x hx hs => exact .value _ k x (List.mem_filter.1 hx).1 hs

theorem strict_lax {o : Opts} {args : List Doc} {kwds : List (Str × Doc)} (ho : (o.get "lax".toList (.bool false)).truthy = false)
    (h : StrictCall args kwds) : ((dget kwds "lax".toList).getD (o.get "lax".toList (.bool false))).truthy = false := by
  cases hg : dget kwds "lax".toList with
  | none => exact ho
  | some v =>
    cases ht : v.truthy with
    | false => exact ht
    | true => exact absurd (.here kwds v (mem_of_dget hg) ht) h.2

/-- The call-specification of a value that does not say `lax`. -/
theorem parseCallSpec_strict {d : Doc} {c : CallSpec} (hd : ¬ SaysLax d) (h : parseCallSpec d = .ok c) : StrictCall c.args c.kwds := by
  have hp := parseCallSpec_parts h
  constructor
  · intro x hx hs
    rcases hp.1 with h0 | ⟨xs, rfl, hm⟩ | ⟨kvs, k, rfl, hm⟩
    · rw [h0] at hx; cases hx
    · exact hd (.item _ _ hm (.item _ x hx hs))
    · exact hd (.value _ k _ hm (.item _ x hx hs))
  · intro hs
    rcases hp.2 with h0 | ⟨xs, rfl, hm⟩ | ⟨kvs, k, rfl, hm⟩
    · rw [h0] at hs
      cases hs with
      | here _ v hv _ => cases hv
      | value _ k x hx _ => cases hx
    · exact hd (.item _ _ hm hs)
    · exact hd (.value _ k _ hm hs)

theorem elementArgs_strict {names : List Str} {args : List Doc} {kwds : List (Str × Doc)} {a : ElementArgs}
    (hc : StrictCall args kwds) (h : elementArgs names args kwds = .ok a) : ∀ f, f ∈ a.filters → ¬ SaysLax f := by
  unfold elementArgs at h
  split at h
  · cases h
  · rename_i arg harg
    have hmem : ∀ key d, arg key = some d → ¬ SaysLax d := by
      intro key d hd
      unfold bindArgs at harg
      split at harg
      · cases harg
      · split at harg
        · cases harg
        · cases harg
          simp only at hd
          split at hd
          · rename_i d' hg
            cases hd
            exact hc.1 _ (List.of_mem_zip (mem_of_dget hg)).2
          · exact fun hs => hc.2 (.value _ _ _ (mem_of_dget hd) hs)
    split at h
    · cases h
    · rename_i fs hfs
      have hsh : ∀ f, f ∈ fs → ¬ SaysLax f := by
        intro f hf
        cases hg : arg "filters".toList with
        | none => rw [hg] at hfs; cases hfs; cases hf
        | some d =>
          rw [hg] at hfs
          have hd := hmem _ _ hg
          cases d with
          | list xs => cases hfs; exact fun hs => hd (.item _ f hf hs)
          | str t =>
            cases hfs
            obtain ⟨c, -, rfl⟩ := List.mem_map.1 hf
            exact fun hs => nomatch hs
          | dict kvs =>
            cases hfs
            obtain ⟨c, -, rfl⟩ := List.mem_map.1 hf
            exact fun hs => nomatch hs
          | _ => cases hfs
      split at h
      · cases h
      · split at h
        · cases h
        · cases h; exact hsh

/-- The options and the call of a reference come from JSON. -/
theorem parseXlref_strict {jsonLoads : Str → Option Doc} (hj : ∀ t d, jsonLoads t = some d → ¬ SaysLax d) {t : Str} {p : XlRef}
    (h : parseXlref jsonLoads t = .ok p) : (∀ o, p.frag.opts = some o → ¬ SaysLax (.dict o)) ∧
      ∀ c, p.frag.callSpec = some c → StrictCall c.args c.kwds := by
  have h3 : ∀ js o c, parseFilters jsonLoads js = .ok (o, c) → (∀ o', o = some o' → ¬ SaysLax (.dict o')) ∧
      ∀ c', c = some c' → StrictCall c'.args c'.kwds := by
    intro js o c h
    unfold parseFilters at h
    split at h
    · cases h; exact ⟨fun _ h => (nomatch h), fun _ h => (nomatch h)⟩
    · split at h
      · cases h
      · rename_i d hd
        have hl := hj _ _ hd
        have hfin : ∀ (o1 : Option Doc) (d' : Doc), (∀ x, o1 = some x → ¬ SaysLax x) → ¬ SaysLax d' →
            (match (match o1 with
              | none => some none
              | some .null => some none
              | some (.dict kvs) => some (some kvs)
              | some _ => none : Option (Option (List (Str × Doc)))) with
              | none => Except.error PyErr.valueError
              | some opts =>
                if d'.truthy then (parseCallSpec d').map (fun cs => (opts, some cs))
                else .ok (opts, none)) = .ok (o, c) →
            (∀ o', o = some o' → ¬ SaysLax (.dict o')) ∧ ∀ c', c = some c' → StrictCall c'.args c'.kwds := by
          intro o1 d' ho1 hd' hh
          have hopt : ∀ (opts : Option (List (Str × Doc))), (if d'.truthy then (parseCallSpec d').map (fun cs => (opts, some cs))
              else .ok (opts, none)) = Except.ok (o, c) → opts = o ∧ ∀ c', c = some c' → StrictCall c'.args c'.kwds := by
            intro opts hx
            split at hx
            · cases hp : parseCallSpec d' with
              | error e => rw [hp] at hx; cases hx
              | ok cs =>
                rw [hp] at hx
                cases hx
                exact ⟨rfl, fun c' hc' => by cases hc'; exact parseCallSpec_strict hd' hp⟩
            · cases hx; exact ⟨rfl, fun _ h => (nomatch h)⟩
          match o1, ho1, hh with
          | none, _, hh => obtain ⟨rfl, hc⟩ := hopt _ hh; exact ⟨fun _ h => (nomatch h), hc⟩
          | some .null, _, hh => obtain ⟨rfl, hc⟩ := hopt _ hh; exact ⟨fun _ h => (nomatch h), hc⟩
          | some (.dict kvs), ho1, hh =>
            obtain ⟨rfl, hc⟩ := hopt _ hh
            exact ⟨fun _ h => by cases h; exact ho1 _ rfl, hc⟩
          | some (.bool _), _, hh => cases hh
          | some (.int _), _, hh => cases hh
          | some (.atom _), _, hh => cases hh
          | some (.str _), _, hh => cases hh
          | some (.list _), _, hh => cases hh
        cases d with
        | dict kvs =>
          refine hfin (dget kvs "opts".toList) (.dict (ddel kvs "opts".toList)) ?_ ?_ h
          · intro x hx hs; exact hl (.value _ _ x (mem_of_dget hx) hs)
          · intro hs
            apply hl
            cases hs with
            | here _ v hv ht => exact .here _ v (List.mem_filter.1 hv).1 ht
            | value _ k x hx hs => exact .value _ k x (List.mem_filter.1 hx).1 hs
        | null => exact hfin none .null (fun _ h => (nomatch h)) hl h
        | bool b => exact hfin none (.bool b) (fun _ h => (nomatch h)) hl h
        | int b => exact hfin none (.int b) (fun _ h => (nomatch h)) hl h
        | atom b => exact hfin none (.atom b) (fun _ h => (nomatch h)) hl h
        | str b => exact hfin none (.str b) (fun _ h => (nomatch h)) hl h
        | list b => exact hfin none (.list b) (fun _ h => (nomatch h)) hl h
  have h2 : ∀ s fr, parseFragment jsonLoads s = .ok fr → (∀ o, fr.opts = some o → ¬ SaysLax (.dict o)) ∧
      ∀ c, fr.callSpec = some c → StrictCall c.args c.kwds := by
    intro s fr h
    unfold parseFragment at h
    split at h
    · cases h
    · simp only at h
      split at h
      · cases h
      · rename_i hk; cases h; exact h3 _ _ _ hk
  have h1 : ∀ s p, parseXlref1 jsonLoads s = .ok p → (∀ o, p.frag.opts = some o → ¬ SaysLax (.dict o)) ∧
      ∀ c, p.frag.callSpec = some c → StrictCall c.args c.kwds := by
    intro s p h
    unfold parseXlref1 at h
    simp only at h
    split at h
    · cases h
    · split at h
      · cases h
      · rename_i hk; cases h; exact h2 _ _ hk
  unfold parseXlref at h
  split at h
  · split at h
    · cases h
    · split at h
      · cases h
      · rename_i hk
        have := h1 _ _ hk
        cases h
        exact this
  · exact h1 _ _ h

section
variable {S : Type} (U : Setup S)

/-- A result that is a lasso with strict options. -/
def StrictRes (r : FRes S) : Prop := ∃ l, r = .lasso l ∧ StrictLasso l

theorem afterCall_strict {l : Lasso S} {opts : Opts} {kwds : List (Str × Doc)} {desc : Bool} {r : Except PyErr (FRes S)} {v : FRes S}
    (hlax : ((dget kwds "lax".toList).getD (opts.get "lax".toList (.bool false))).truthy = false)
    (h : afterCall l opts kwds desc r = .ok v) : ∃ l', v = .lasso l' ∧ r = .ok (.lasso l') := by
  unfold afterCall at h
  split at h
  · cases h; exact ⟨_, rfl, rfl⟩
  · simp only [hlax, Bool.false_eq_true, if_false] at h
    split at h <;> cases h
  · simp only [hlax, Bool.false_eq_true, if_false] at h
    split at h <;> cases h

theorem pipe_more {R R' : Ranger S} (hR : ∀ l f args kwds r, StrictLasso l → StrictCall args kwds →
      R.makeCall (.lasso l) f args kwds = .ok r → StrictRes r ∧ R'.makeCall (.lasso l) f args kwds = .ok r) :
    ∀ (fs : List Doc) (l r : FRes S), (∀ f, f ∈ fs → ¬ SaysLax f) → StrictRes l → R.pipe fs l = .ok r →
      StrictRes r ∧ R'.pipe fs l = .ok r
  | [], l, r, _, hl, h => by simp only [Ranger.pipe] at h ⊢; cases h; exact ⟨hl, rfl⟩
  | f :: fs, l, r, hf, hl, h => by
    simp only [Ranger.pipe] at h ⊢
    split at h
    · cases h
    · rename_i c hc
      split at h
      · cases h
      · rename_i hk
        obtain ⟨l0, rfl, hl0⟩ := hl
        have h1 := hR l0 _ _ _ _ hl0 (parseCallSpec_strict (hf f (List.mem_cons_self ..)) hc) hk
        rw [h1.2]
        exact pipe_more hR fs _ r (fun g hg => hf g (List.mem_cons_of_mem _ hg)) h1.1 h

theorem runSubs_more {R R' : Ranger S} (hR : ∀ l f args kwds r, StrictLasso l → StrictCall args kwds →
      R.makeCall (.lasso l) f args kwds = .ok r → StrictRes r ∧ R'.makeCall (.lasso l) f args kwds = .ok r) :
    ∀ (cs : List CallSpec) (l r : FRes S) cs', (∀ c, c ∈ cs → StrictCall c.args c.kwds) → StrictRes l → R.runSubs cs l = .ok (r, cs') →
      StrictRes r ∧ R'.runSubs cs l = .ok (r, cs')
  | [], l, r, cs', _, hl, h => by simp only [Ranger.runSubs] at h ⊢; cases h; exact ⟨hl, rfl⟩
  | c :: cs, l, r, cs', hc, hl, h => by
    simp only [Ranger.runSubs] at h ⊢
    split at h
    · cases h
    · rename_i hk
      obtain ⟨l0, rfl, hl0⟩ := hl
      have h1 := hR l0 _ _ _ _ hl0 (hc c (List.mem_cons_self ..)) hk
      split at h
      · cases h
      · rename_i hk'
        cases h
        have h2 := runSubs_more hR cs _ _ _ (fun g hg => hc g (List.mem_cons_of_mem _ hg)) h1.1 hk'
        simp only [h1.2, h2.2]
        exact ⟨h2.1, trivial⟩

theorem elementwise_more {R R' : Ranger S} (hR : ∀ l f args kwds r, StrictLasso l → StrictCall args kwds →
      R.makeCall (.lasso l) f args kwds = .ok r → StrictRes r ∧ R'.makeCall (.lasso l) f args kwds = .ok r)
    {ef ef' : EFun S} {l l' : Lasso S} {pandas : Bool} {fs : List Doc} {incl excl : Option (List Str)} {depth : Option Int}
    (hfs : ∀ f, f ∈ fs → ¬ SaysLax f) (hl : StrictLasso l)
    (he : ∀ bc d b res, ef l bc d = .ok (b, res) → StrictRes res ∧ ef' l bc d = .ok (b, res))
    (h : R.elementwise pandas ef fs incl excl depth l = .ok l') :
    StrictLasso l' ∧ R'.elementwise pandas ef' fs incl excl depth l = .ok l' := by
  unfold Ranger.elementwise at h ⊢
  split at h
  · cases h
  · rename_i subs hsubs
    have hs := parseSubs_specs (Q := fun c => StrictCall c.args c.kwds) fs subs (fun f hf c hc => parseCallSpec_strict (hfs f hf) hc) hsubs
    split at h
    · cases h
    · rename_i hk
      cases h
      refine ⟨hl, ?_⟩
      have := (dive_le _ (fun s => ∀ c, c ∈ s → StrictCall c.args c.kwds) (R.callElement ef l) (R'.callElement ef' l) ?_ 0 l.st subs hs
        l.values _ _ hk).2
      · simp only [this]
      · intro s bc d v s' hi hstep
        refine ⟨callElement_specs (Q := fun c => StrictCall c.args c.kwds) (fun c hc => strictCall_ddel hc _) hi hstep, ?_⟩
        rw [callElement_eq] at hstep ⊢
        split at hstep
        · cases hstep
        · rename_i hx; cases hstep; rw [(he _ _ _ _ hx).2]
        · rename_i res hx
          have h1 := he _ _ _ _ hx
          obtain ⟨l0, rfl, hl0⟩ := h1.1
          rw [h1.2]
          split at hstep
          · cases hstep
          · rename_i hk'; cases hstep
            have h2 := (runSubs_more hR s (.lasso l0) _ _ hi ⟨l0, rfl, hl0⟩ hk').2
            simp only [elementLasso, h2]
          · rename_i hk'
            have h2 := (runSubs_more hR s (.lasso l0) _ _ hi ⟨l0, rfl, hl0⟩ hk').2
            simp only [elementLasso, h2]
            exact hstep

/-- With one more. -/
theorem more_stack (hj : NothingLax U) (ho : KeepOptions U) : ∀ n,
    (∀ l f args kwds r, StrictLasso l → StrictCall args kwds → (U.ranger n).makeCall (.lasso l) f args kwds = .ok r →
      StrictRes r ∧ (U.ranger (n + 1)).makeCall (.lasso l) f args kwds = .ok r) ∧
    ∀ u ctx r, (∀ c, ctx.callSpec = some c → StrictCall c.args c.kwds) → U.doLasso n u ctx = .ok r →
      StrictRes r ∧ U.doLasso (n + 1) u ctx = .ok r := by
  have hB : ∀ n, (∀ l f args kwds r, StrictLasso l → StrictCall args kwds → (U.ranger n).makeCall (.lasso l) f args kwds = .ok r →
      StrictRes r ∧ (U.ranger (n + 1)).makeCall (.lasso l) f args kwds = .ok r) →
      ∀ u ctx r, (∀ c, ctx.callSpec = some c → StrictCall c.args c.kwds) → U.doLasso n u ctx = .ok r →
      StrictRes r ∧ U.doLasso (n + 1) u ctx = .ok r := by
    intro n hA u ctx r hctx h
    rcases captured U u ctx with ⟨e, he, -⟩ | ⟨l, p, -, hl, hp, hopts, hcs⟩
    · rw [he] at h; cases h
    · have hps := parseXlref_strict hj.2 hp
      have hsl : StrictLasso l := by
        unfold StrictLasso
        rw [hopts]
        cases hpo : p.frag.opts with
        | none => exact ⟨_, rfl, hj.1⟩
        | some o =>
          refine ⟨_, rfl, ?_⟩
          have hno := hps.1 o hpo
          unfold Opts.get
          simp only [List.findSome?_cons, List.findSome?_nil]
          cases hg : dget o "lax".toList with
          | none => rfl
          | some v =>
            cases ht : v.truthy with
            | false => exact ht
            | true => exact absurd (.here o v (mem_of_dget hg) ht) hno
      have hsc : ∀ c, l.callSpec = some c → StrictCall c.args c.kwds := by
        intro c hc
        rw [hcs] at hc
        cases hpc : p.frag.callSpec with
        | none => rw [hpc] at hc; exact hctx c hc
        | some c' => rw [hpc] at hc; cases hc; exact hps.2 _ hpc
      rw [hl] at h ⊢
      unfold Ranger.runFilters at h ⊢
      split at h
      · cases h; exact ⟨⟨l, rfl, hsl⟩, rfl⟩
      · rename_i c hc
        split at h
        · cases h
        · rename_i hk
          cases h
          have := hA l _ _ _ _ hsl (hsc c hc) hk
          simp only [this.2]
          exact ⟨this.1, trivial⟩
  intro n
  induction n with
  | zero =>
    have hA : ∀ l f args kwds r, StrictLasso l → StrictCall args kwds → (U.ranger 0).makeCall (.lasso l) f args kwds = .ok r →
        StrictRes r ∧ (U.ranger (0 + 1)).makeCall (.lasso l) f args kwds = .ok r := by
      intro l f args kwds r ⟨o, hlo, hlax⟩ hc h
      have hnl := strict_lax hlax hc
      cases hi : U.filters f with
      | none =>
        rw [makeCall_unknown _ hlo (by rw [filters_zero, hi]; rfl), hnl] at h
        cases h
      | some i =>
        rw [makeCall_known _ hlo (by rw [filters_zero, hi]; rfl)] at h
        obtain ⟨l', rfl, h'⟩ := afterCall_strict hnl h
        cases h'
    exact ⟨hA, hB 0 hA⟩
  | succ n ih =>
    have hA : ∀ l f args kwds r, StrictLasso l → StrictCall args kwds → (U.ranger (n + 1)).makeCall (.lasso l) f args kwds = .ok r →
        StrictRes r ∧ (U.ranger (n + 1 + 1)).makeCall (.lasso l) f args kwds = .ok r := by
      intro l f args kwds r hsl hc h
      obtain ⟨o, hlo, hlax⟩ := hsl
      have hnl := strict_lax hlax hc
      cases hi : U.filters f with
      | none =>
        rw [makeCall_unknown _ hlo (by rw [filters_succ, hi]; rfl), hnl] at h
        cases h
      | some i =>
        rw [makeCall_known _ hlo (by rw [filters_succ, hi]; rfl)] at h
        obtain ⟨l', rfl, h'⟩ := afterCall_strict hnl h
        suffices hs : StrictLasso l' ∧ i.1.func U.pandas U.api U.jsonLoads (U.ranger (n + 1)) l args (ddel kwds "lax".toList) =
            .ok (.lasso l') by
          refine ⟨⟨l', rfl, hs.1⟩, ?_⟩
          rw [makeCall_known _ hlo (by rw [filters_succ, hi]; rfl)]
          simp only [hs.2, afterCall]
        have hoi := ho f i hi
        have hcd := strictCall_ddel hc "lax".toList
        obtain ⟨k, desc⟩ := i
        cases k with
        | pipe =>
          have := pipe_more ih.1 args (.lasso l) _ hc.1 ⟨l, rfl, o, hlo, hlax⟩ h'
          obtain ⟨⟨l1, h1, h2⟩, h3⟩ := this
          cases h1
          exact ⟨h2, h3⟩
        | own g =>
          have := hoi l args _ l' h'
          exact ⟨⟨o, this.trans hlo, hlax⟩, h'⟩
        | recurse =>
          simp only [FilterKind.func] at h' ⊢
          cases ha : elementArgs recurseNames args (ddel kwds "lax".toList) with
          | error e => rw [ha] at h'; cases h'
          | ok a =>
            rw [ha] at h'
            simp only at h' ⊢
            cases hw : (U.ranger n).elementwise U.pandas (recurseElement ((U.ranger n).doLasso U.api U.jsonLoads)) a.filters a.incl a.excl
                a.depth l with
            | error e => rw [hw] at h'; cases h'
            | ok l1 =>
              rw [hw] at h'
              cases h'
              have := elementwise_more ih.1 (ef' := recurseElement ((U.ranger (n + 1)).doLasso U.api U.jsonLoads)) (elementArgs_strict hcd ha)
                ⟨o, hlo, hlax⟩ ?_ hw
              · rw [this.2]; exact ⟨this.1, rfl⟩
              · intro bc d b res hres
                cases d with
                | str u =>
                  simp only [recurseElement] at hres ⊢
                  rcases captured U u { sheet := l.sheet, st := l.st, nd := l.nd, baseCoords := bc } with ⟨e, he, -⟩ | ⟨l2, p, -, hl2, -⟩
                  · have e1 := he n
                    have e2 := he (n + 1)
                    simp only [Setup.doLasso] at e1 e2
                    rw [e1] at hres
                    rw [e2]
                    cases e <;> simp only at hres ⊢ <;> cases hres
                    exact ⟨⟨l, rfl, o, hlo, hlax⟩, rfl⟩
                  · cases hr : U.doLasso n u { sheet := l.sheet, st := l.st, nd := l.nd, baseCoords := bc } with
                    | error e =>
                      have hev : e = .valueError := by
                        rw [hl2 n] at hr
                        unfold Ranger.runFilters at hr
                        split at hr
                        · cases hr
                        · split at hr <;> cases hr
                          rfl
                      subst hev
                      simp only [Setup.doLasso] at hr
                      rw [hr] at hres
                      cases hres
                    | ok r =>
                      have h2 := ih.2 u { sheet := l.sheet, st := l.st, nd := l.nd, baseCoords := bc } r (fun _ h => nomatch h) hr
                      have e2 := h2.2
                      simp only [Setup.doLasso] at hr e2
                      rw [hr] at hres
                      rw [e2]
                      cases hres
                      exact ⟨h2.1, rfl⟩
                | _ => simp only [recurseElement] at hres ⊢; cases hres; exact ⟨⟨l, rfl, o, hlo, hlax⟩, rfl⟩
        | pyeval eval =>
          simp only [FilterKind.func] at h' ⊢
          cases ha : elementArgs pyevalNames args (ddel kwds "lax".toList) with
          | error e => rw [ha] at h'; cases h'
          | ok a =>
            rw [ha] at h'
            simp only at h' ⊢
            cases hw : (U.ranger n).pyeval U.pandas eval a.filters a.evalAll a.incl a.excl a.depth l with
            | error e => rw [hw] at h'; cases h'
            | ok l1 =>
              rw [hw] at h'
              cases h'
              have := elementwise_more ih.1 (ef' := pyevalElement eval a.evalAll) (elementArgs_strict hcd ha) ⟨o, hlo, hlax⟩ ?_ hw
              · rw [Ranger.pyeval, this.2]; exact ⟨this.1, rfl⟩
              · intro bc d b res hres
                refine ⟨?_, hres⟩
                cases d with
                | str u =>
                  simp only [pyevalElement] at hres
                  split at hres
                  · split at hres
                    · cases hres
                    · cases hres; exact ⟨l, rfl, o, hlo, hlax⟩
                  · rename_i r hr
                    cases hres
                    refine ⟨_, rfl, ?_⟩
                    cases r with
                    | other d => exact ⟨o, hlo, hlax⟩
                    | lasso m =>
                      simp only [evaluated]
                      rcases hoi u l bc m hr with hm | hm
                      · rw [hm]; exact ⟨o, hlo, hlax⟩
                      · rw [hm, hlo]; exact ⟨o, hm.trans hlo, hlax⟩
                | _ => simp only [pyevalElement] at hres; cases hres; exact ⟨l, rfl, o, hlo, hlax⟩
    exact ⟨hA, hB (n + 1) hA⟩

end

end Lemmas
