import Verif.Spec.SharedSpecs
import Verif.Props.DoLassoErrors
/-
C153. Lassos thrown one after another with the same call-specifications are thrown as if each were the first.
-/
namespace Props
open Py Model Spec

variable {S : Type}

private theorem plain_makeCall (R : RangerA S) (l : FRes S) (func : Str) (args : List Doc) (kwds : List (Str × Doc)) :
    (R.makeCall l func args kwds).2 = R.plain.makeCall l func args kwds := by
  unfold RangerA.makeCall Ranger.makeCall
  cases l with
  | other d => rfl
  | lasso l =>
    dsimp only
    cases l.opts with
    | none => rfl
    | some opts =>
      dsimp only [RangerA.plain]
      cases R.filters func with
      | none => rfl
      | some rec =>
        simp only [Option.map_some]
        rcases rec.func l args (ddel kwds "lax".toList) with ⟨left, r⟩
        cases r with
        | error e => rfl
        | ok r => cases r <;> rfl

private theorem plain_runFilters (R : RangerA S) (l : Lasso S) : (R.runFilters l).2 = R.plain.runFilters l := by
  unfold RangerA.runFilters Ranger.runFilters
  cases l.callSpec with
  | none => rfl
  | some c =>
    dsimp only
    rw [plain_makeCall]
    cases R.plain.makeCall (.lasso l) c.func c.args c.kwds <;> rfl

private theorem plain_doLasso (R : RangerA S) (A : SheetApi S) (jl : Str → Option Doc) (t : Str) (ctx : Lasso S) :
    (R.doLasso A jl t ctx).2 = R.plain.doLasso A jl t ctx := by
  unfold RangerA.doLasso Ranger.doLasso
  cases R.plain.parseMerge jl t ctx with
  | error e => rfl
  | ok l =>
    dsimp only
    have hf : R.plain.fetch = R.fetch := rfl
    rw [hf]
    cases R.fetch l.urlFile l.shName l.sheet with
    | error e => rfl
    | ok sheet =>
      dsimp only
      cases resolveRect A { l with sheet := some sheet } sheet with
      | error e => rfl
      | ok q =>
        cases q with
        | none => exact plain_runFilters _ _
        | some q =>
          obtain ⟨st, nd⟩ := q
          dsimp only
          cases A.readRect sheet st nd with
          | error e => rfl
          | ok v => exact plain_runFilters _ _

private theorem context_eq (t : Throw S) (specs : List CallSpec) : t.context specs = { t.ctx with callSpec := match t.spec with
    | none => none
    | some i => specs[i]? } := by
  unfold Throw.context
  cases t.spec <;> rfl

private theorem own_iff (jl : Str → Option Doc) (t : Throw S) :
    t.ownFilter jl = false ↔ ∀ p, parseXlref jl t.xlref = .ok p → p.frag.callSpec = none := by
  unfold Throw.ownFilter
  cases parseXlref jl t.xlref with
  | error e => exact ⟨fun _ _ h => (nomatch h), fun _ => rfl⟩
  | ok p =>
    dsimp only
    constructor
    · intro h q hq
      cases hq
      cases hc : p.frag.callSpec with
      | none => rfl
      | some c => rw [hc] at h; cases h
    · intro h
      rw [h p rfl]
      rfl

private theorem throwOne_result (R : RangerA S) (A : SheetApi S) (jl : Str → Option Doc) (specs : List CallSpec) (t : Throw S) :
    (R.throwOne A jl specs t).2 = thrownFirst R A jl specs t := by
  unfold RangerA.throwOne thrownFirst
  dsimp only
  have h := plain_doLasso R A jl t.xlref (t.context specs)
  rw [context_eq] at h ⊢
  split <;> exact h

private theorem merge_spec (R : Ranger S) (jl : Str → Option Doc) (t : Throw S) (cs : Option CallSpec) (ho : t.ownFilter jl = false) :
    (∃ e, R.parseMerge jl t.xlref { t.ctx with callSpec := cs } = .error e ∧
      R.parseMerge jl t.xlref { t.ctx with callSpec := none } = .error e) ∨
    ∃ l o, l.opts = some o ∧ l.callSpec = none ∧ R.parseMerge jl t.xlref { t.ctx with callSpec := cs } = .ok { l with callSpec := cs } ∧
      R.parseMerge jl t.xlref { t.ctx with callSpec := none } = .ok l := by
  unfold Throw.ownFilter at ho
  unfold Ranger.parseMerge
  cases hp : parseXlref jl t.xlref with
  | error e =>
    left
    cases e <;> exact ⟨_, rfl, rfl⟩
  | ok p =>
    rw [hp] at ho
    dsimp only at ho ⊢
    have hn : p.frag.callSpec = none := by
      cases h : p.frag.callSpec with
      | none => rfl
      | some c => rw [h] at ho; cases ho
    rw [hn]
    cases p.encased with
    | some e => exact .inl ⟨_, rfl, rfl⟩
    | none =>
      right
      refine ⟨_, ?_, ?_, ?_, rfl, rfl⟩
      · exact (p.frag.opts.getD R.baseOpts) :: []
      · cases p.frag.opts <;> rfl
      · rfl

private theorem makeCall_left {R : RangerA S} {c : CallSpec} (hl : LeavesArguments R c) {l : Lasso S} {o : Opts} (ho : l.opts = some o) :
    (R.makeCall (.lasso l) c.func c.args c.kwds).1 = (c.args, ddel c.kwds "lax".toList) := by
  unfold RangerA.makeCall
  dsimp only
  rw [ho]
  dsimp only
  cases hf : R.filters c.func with
  | none => rfl
  | some rec =>
    dsimp only
    have h := hl rec hf l
    rcases hr : rec.func l c.args (ddel c.kwds "lax".toList) with ⟨left, r⟩
    rw [hr] at h
    cases r with
    | error e => exact h
    | ok r => cases r <;> exact h

/-- What a call leaves of the call-specification of its context. -/
private theorem doLasso_left (R : RangerA S) (A : SheetApi S) (jl : Str → Option Doc) (t : Throw S) (cs : Option CallSpec)
    (ho : t.ownFilter jl = false) (hl : ∀ c, cs = some c → LeavesArguments R c) :
    ((∃ r, R.plain.doLasso A jl t.xlref { t.ctx with callSpec := none } = .ok r) ∧
      (R.doLasso A jl t.xlref { t.ctx with callSpec := cs }).1 = cs.map laxDropped) ∨
    ((¬ ∃ r, R.plain.doLasso A jl t.xlref { t.ctx with callSpec := none } = .ok r) ∧
      (R.doLasso A jl t.xlref { t.ctx with callSpec := cs }).1 = none) := by
  have hrun : ∀ (l : Lasso S) (o : Opts), l.opts = some o → l.callSpec = cs → (R.runFilters l).1 = cs.map laxDropped := by
    intro l o h1 h2
    unfold RangerA.runFilters
    rw [h2]
    cases cs with
    | none => rfl
    | some c =>
      dsimp only
      rw [makeCall_left (hl c rfl) h1]
      rfl
  have hnone : ∀ (l : Lasso S), l.callSpec = none → R.plain.runFilters l = .ok (.lasso l) := by
    intro l h
    unfold Ranger.runFilters
    rw [h]
  unfold RangerA.doLasso Ranger.doLasso
  rcases merge_spec R.plain jl t cs ho with ⟨e, h1, h2⟩ | ⟨l, o, h0, hc, h1, h2⟩
  · rw [h1, h2]
    exact .inr ⟨(fun ⟨_, h⟩ => nomatch h), rfl⟩
  · rw [h1, h2]
    dsimp only
    have hf : R.plain.fetch = R.fetch := rfl
    rw [hf]
    cases R.fetch l.urlFile l.shName l.sheet with
    | error e => exact .inr ⟨(fun ⟨_, h⟩ => nomatch h), rfl⟩
    | ok sheet =>
      dsimp only
      have he : resolveRect A { l with callSpec := cs, sheet := some sheet } sheet = resolveRect A { l with sheet := some sheet } sheet := rfl
      rw [he]
      cases resolveRect A { l with sheet := some sheet } sheet with
      | error e => exact .inr ⟨(fun ⟨_, h⟩ => nomatch h), rfl⟩
      | ok q =>
        cases q with
        | none => exact .inl ⟨⟨_, hnone _ hc⟩, hrun _ o h0 rfl⟩
        | some q =>
          obtain ⟨st, nd⟩ := q
          dsimp only
          cases A.readRect sheet st nd with
          | error e => exact .inr ⟨(fun ⟨_, h⟩ => nomatch h), rfl⟩
          | ok v => exact .inl ⟨⟨_, hnone _ hc⟩, hrun _ o h0 rfl⟩

private theorem dropped_idem (c : CallSpec) : laxDropped (laxDropped c) = laxDropped c := by
  simp [laxDropped, List.filter_filter]

private theorem dropped_leaves {R : RangerA S} {c : CallSpec} (h : LeavesArguments R c) : LeavesArguments R (laxDropped c) := by
  intro rec hr l
  have := h rec hr l
  simp only [laxDropped, ddel, List.filter_filter, Bool.and_self] at this ⊢
  exact this

private theorem dropped_same {c : CallSpec} (h : SaysNoLax c) : laxDropped c = c := by
  obtain ⟨f, a, k⟩ := c
  unfold SaysNoLax at h
  dsimp only at h
  have : ∀ (k : List (Str × Doc)), dget k "lax".toList = none → k.filter (fun kv => kv.1 ≠ "lax".toList) = k := by
    intro k
    induction k with
    | nil => intro _; rfl
    | cons kv k ih =>
      intro h
      obtain ⟨k', v⟩ := kv
      unfold dget at h
      split at h
      · cases h
      · rename_i hne
        rw [List.filter_cons_of_pos (by simpa using hne), ih h]
  unfold laxDropped
  rw [this k h]

open Classical in
private theorem throwOne_specs (R : RangerA S) (A : SheetApi S) (jl : Str → Option Doc) (specs : List CallSpec) (t : Throw S)
    (hl : ∀ c ∈ specs, LeavesArguments R c) : (R.throwOne A jl specs t).1.length = specs.length ∧ ∀ (i : Nat) c, specs[i]? = some c →
      (R.throwOne A jl specs t).1[i]? = some (if SpecUsed R A jl t i then laxDropped c else c) := by
  unfold RangerA.throwOne
  dsimp only
  rw [context_eq]
  cases hs : t.spec with
  | none =>
    refine ⟨by split <;> simp_all, fun i c hc => ?_⟩
    rw [if_neg (by rintro ⟨h, _⟩; rw [hs] at h; cases h)]
    split <;> simp_all
  | some j =>
    cases ho : t.ownFilter jl with
    | true =>
      refine ⟨by split <;> simp_all, fun i c hc => ?_⟩
      rw [if_neg (by rintro ⟨_, h, _⟩; rw [(own_iff jl t).2 h] at ho; cases ho)]
      split <;> simp_all
    | false =>
      dsimp only
      have hd := doLasso_left R A jl t specs[j]? ho (fun c hc => hl c (List.mem_of_getElem? hc))
      rcases hd with ⟨h1, h2⟩ | ⟨h1, h2⟩
      · rw [h2]
        cases hj : specs[j]? with
        | none =>
          refine ⟨rfl, fun i c hc => ?_⟩
          rw [if_neg]
          · exact hc
          · rintro ⟨h, _⟩
            rw [hs] at h
            cases h
            rw [hj] at hc
            cases hc
        | some cj =>
          refine ⟨List.length_set .., fun i c hc => ?_⟩
          simp only [Option.map_some]
          by_cases hij : i = j
          · subst hij
            rw [if_pos ⟨hs, (own_iff jl t).1 ho, h1⟩]
            rw [hj] at hc
            cases hc
            rw [List.getElem?_set_self]
            exact (List.getElem?_eq_some_iff.1 hj).1
          · rw [if_neg (by rintro ⟨h, _⟩; rw [hs] at h; cases h; exact hij rfl), List.getElem?_set_ne (fun h => hij h.symm)]
            exact hc
      · rw [h2]
        refine ⟨rfl, fun i c hc => ?_⟩
        rw [if_neg (by rintro ⟨_, _, h⟩; exact h1 h)]
        exact hc

private theorem throwOne_leaves {R : RangerA S} (A : SheetApi S) (jl : Str → Option Doc) {specs : List CallSpec} (t : Throw S)
    (hl : ∀ c ∈ specs, LeavesArguments R c) : ∀ c ∈ (R.throwOne A jl specs t).1, LeavesArguments R c := by
  intro c hc
  obtain ⟨i, hi⟩ := List.getElem?_of_mem hc
  obtain ⟨h1, h2⟩ := throwOne_specs R A jl specs t hl
  have hlt : i < specs.length := h1 ▸ (List.getElem?_eq_some_iff.1 hi).1
  have hci := h2 i specs[i] (List.getElem?_eq_getElem hlt)
  rw [hi] at hci
  injection hci with hci
  rw [hci]
  have := hl _ (List.getElem_mem hlt)
  split
  · exact dropped_leaves this
  · exact this

private theorem throwAll_specs (R : RangerA S) (A : SheetApi S) (jl : Str → Option Doc) : ∀ (before : List (Throw S)) (specs : List CallSpec),
    (∀ c ∈ specs, LeavesArguments R c) → AfterCalls R A jl before specs (R.throwAll A jl specs before).1
  | [], specs, _ => ⟨rfl, fun i c hc => ⟨(fun ⟨_, h, _⟩ => nomatch h), fun _ => hc⟩⟩
  | t :: before, specs, hl => by
    obtain ⟨h1, h2⟩ := throwOne_specs R A jl specs t hl
    obtain ⟨h3, h4⟩ := throwAll_specs R A jl before (R.throwOne A jl specs t).1 (throwOne_leaves A jl t hl)
    refine ⟨h3.trans h1, fun i c hc => ?_⟩
    obtain ⟨h5, h6⟩ := h4 i _ (h2 i c hc)
    constructor
    · rintro ⟨u, hu, hU⟩
      by_cases hb : ∃ t ∈ before, SpecUsed R A jl t i
      · refine (h5 hb).trans ?_
        split
        · rw [dropped_idem]
        · rfl
      · rcases List.mem_cons.1 hu with rfl | hu
        · have := h6 hb
          rw [if_pos hU] at this
          exact this
        · exact absurd ⟨u, hu, hU⟩ hb
    · intro hn
      have := h6 (fun ⟨u, hu, hU⟩ => hn ⟨u, List.mem_cons_of_mem _ hu, hU⟩)
      rw [if_neg (fun h => hn ⟨t, List.mem_cons_self .., h⟩)] at this
      exact this

private theorem throwAll_nth (R : RangerA S) (A : SheetApi S) (jl : Str → Option Doc) (t : Throw S) (after : List (Throw S)) :
    ∀ (before : List (Throw S)) (specs : List CallSpec), (R.throwAll A jl specs (before ++ t :: after)).2[before.length]? =
      some (thrownFirst R A jl (R.throwAll A jl specs before).1 t)
  | [], specs => by
    show some (R.throwOne A jl specs t).2 = _
    rw [throwOne_result]
    rfl
  | u :: before, specs => throwAll_nth R A jl t after before _

/-- C153: what a call gets, whatever was called before: what it would get as the first one, but that the call-specifications
that were used by calls before it have lost their `lax`. -/
theorem C153_history (R : RangerA S) (A : SheetApi S) (jsonLoads : Str → Option Doc) (specs : List CallSpec)
    (hl : ∀ c ∈ specs, LeavesArguments R c) (before : List (Throw S)) (t : Throw S) (after : List (Throw S)) :
    ∃ specs', AfterCalls R A jsonLoads before specs specs' ∧
      (R.throwAll A jsonLoads specs (before ++ t :: after)).2[before.length]? = some (thrownFirst R A jsonLoads specs' t) :=
  ⟨_, throwAll_specs R A jsonLoads before specs hl, throwAll_nth R A jsonLoads t after before specs⟩

/-- C153, for call-specifications that do not say whether they are lax: all calls are made as if each were the first, and the
call-specifications are left as they were. -/
theorem C153_as_first_partial (R : RangerA S) (A : SheetApi S) (jsonLoads : Str → Option Doc) (specs : List CallSpec)
    (hl : ∀ c ∈ specs, LeavesArguments R c) (hn : ∀ c ∈ specs, SaysNoLax c) (ts : List (Throw S)) :
    R.throwAll A jsonLoads specs ts = (specs, ts.map (thrownFirst R A jsonLoads specs)) := by
  induction ts with
  | nil => rfl
  | cons t ts ih =>
    have h1 : (R.throwOne A jsonLoads specs t).1 = specs := by
      obtain ⟨h1, h2⟩ := throwOne_specs R A jsonLoads specs t hl
      apply List.ext_getElem? 
      intro i
      cases hi : specs[i]? with
      | none =>
        rw [List.getElem?_eq_none_iff] at hi ⊢
        omega
      | some c =>
        rw [h2 i c hi, dropped_same (hn c (List.mem_of_getElem? hi))]
        split <;> rfl
    unfold RangerA.throwAll
    dsimp only
    rw [h1, ih, throwOne_result]
    rfl

/-- C153: calls whose references say themselves which filter to call, or that are given no call-specification, are made as if each
were the first, whatever the filters do to their arguments. -/
theorem C153_own_filters (R : RangerA S) (A : SheetApi S) (jsonLoads : Str → Option Doc) (specs : List CallSpec) (ts : List (Throw S))
    (ho : ∀ t ∈ ts, t.spec = none ∨ ∃ p, parseXlref jsonLoads t.xlref = .ok p ∧ p.frag.callSpec ≠ none) :
    R.throwAll A jsonLoads specs ts = (specs, ts.map (thrownFirst R A jsonLoads specs)) := by
  induction ts with
  | nil => rfl
  | cons t ts ih =>
    have h1 : (R.throwOne A jsonLoads specs t).1 = specs := by
      unfold RangerA.throwOne
      dsimp only
      rcases ho t (List.mem_cons_self ..) with h | ⟨p, h1, h2⟩
      · rw [h]
        split <;> simp_all
      · have h3 : t.ownFilter jsonLoads = true := by
          unfold Throw.ownFilter
          rw [h1]
          cases h : p.frag.callSpec with
          | none => exact absurd h h2
          | some c => simp [h]
        rw [h3]
        split <;> simp_all
    unfold RangerA.throwAll
    dsimp only
    rw [h1, ih (fun t ht => ho t (List.mem_cons_of_mem _ ht)), throwOne_result]
    rfl

private theorem dset_same {k : Str} {v : Doc} : ∀ {kvs : List (Str × Doc)}, dget kvs k = some v → dset kvs k v = kvs
  | [], h => (nomatch h)
  | (k', v') :: kvs, h => by
    unfold dget at h
    unfold dset
    split at h
    · cases h
      rw [if_pos (by assumption)]
    · rw [if_neg (by assumption), dset_same h]

private theorem parsed_parts {f : Doc} {c : CallSpec} (h : parseCallSpec f = .ok c) : ∃ a k, splitCallSpec f = .ok (.str c.func, a, k) ∧
    (a = .list c.args ∨ a = .null ∧ c.args = []) ∧ (k = .dict c.kwds ∨ k = .null ∧ c.kwds = []) := by
  unfold parseCallSpec at h
  cases hs : splitCallSpec f with
  | error e => rw [hs] at h; cases h
  | ok q =>
    obtain ⟨g, a, k⟩ := q
    rw [hs] at h
    cases g <;> try (cases h; done)
    rename_i g
    dsimp only at h
    cases a <;> try (cases h; done)
    all_goals (cases k <;> try (cases h; done))
    all_goals (cases h; exact ⟨_, _, rfl, by simp, by simp⟩)

private theorem putBack_same {f : Doc} {c : CallSpec} (h : parseCallSpec f = .ok c) : putBack c.args c.kwds f = f := by
  obtain ⟨a, k, hs, ha, hk⟩ := parsed_parts h
  cases f with
  | null => rfl
  | bool b => rfl
  | int i => rfl
  | atom t => rfl
  | str t => rfl
  | list xs =>
    have hitems : ∀ x y, parseCallItems x y = .ok (a, k) →
        putBackItem c.args c.kwds x = x ∧ putBackItem c.args c.kwds y = y := by
      intro x y hp
      cases x <;> cases y <;> first
        | (cases hp; done)
        | (cases hp; constructor <;> simp_all [putBackItem])
    match xs with
    | [] => rfl
    | [g] => rfl
    | [g, x] =>
      simp only [splitCallSpec] at hs
      cases hp : parseCallItems x .null with
      | error e => rw [hp] at hs; cases hs
      | ok q =>
        rw [hp] at hs
        cases hs
        simp only [putBack, List.map_cons, List.map_nil]
        rw [(hitems x .null hp).1]
    | [g, x, y] =>
      simp only [splitCallSpec] at hs
      cases hp : parseCallItems x y with
      | error e => rw [hp] at hs; cases hs
      | ok q =>
        rw [hp] at hs
        cases hs
        simp only [putBack, List.map_cons, List.map_nil]
        rw [(hitems x y hp).1, (hitems x y hp).2]
    | _ :: _ :: _ :: _ :: _ => cases hs
  | dict kvs =>
    simp only [splitCallSpec] at hs
    split at hs
    · cases hf : dget kvs "func".toList with
      | none => rw [hf] at hs; cases hs
      | some g =>
        rw [hf] at hs
        simp only [Except.ok.injEq, Prod.mk.injEq] at hs
        obtain ⟨-, h1, h2⟩ := hs
        have hp : ∀ k v, (dget kvs k).getD .null = v → putBackItem c.args c.kwds v = v → putBackKey c.args c.kwds k kvs = kvs := by
          intro k v h3 h4
          unfold putBackKey
          cases hg : dget kvs k with
          | none => rfl
          | some d =>
            rw [hg] at h3
            have h3 : d = v := h3
            rw [h3] at hg ⊢
            dsimp only
            rw [h4]
            exact dset_same hg
        simp only [putBack]
        rw [hp _ a h1 (by rcases ha with ha | ⟨ha, -⟩ <;> rw [ha] <;> rfl), hp _ k h2 (by rcases hk with hk | ⟨hk, -⟩ <;> rw [hk] <;> rfl)]
    · cases hs

private theorem pipe_left (R : RangerA S) : ∀ (fs : List Doc) (l : FRes S),
    (∀ f ∈ fs, ∀ c, parseCallSpec f = .ok c → LeavesArguments R c ∧ SaysNoLax c) → (R.pipe fs l).1 = fs
  | [], _, _ => rfl
  | f :: fs, l, h => by
    unfold RangerA.pipe
    cases hp : parseCallSpec f with
    | error e => rfl
    | ok c =>
      dsimp only
      obtain ⟨h1, h2⟩ := h f (List.mem_cons_self ..) c hp
      have hd : ddel c.kwds "lax".toList = c.kwds := congrArg CallSpec.kwds (dropped_same h2)
      have hm : (R.makeCall l c.func c.args c.kwds).1 = (c.args, c.kwds) := by
        cases l with
        | other d => rfl
        | lasso l =>
          cases ho : l.opts with
          | none =>
            unfold RangerA.makeCall
            dsimp only
            rw [ho]
          | some o => rw [makeCall_left h1 ho, hd]
      rw [hm, putBack_same hp]
      cases (R.makeCall l c.func c.args c.kwds).2 with
      | error e => rfl
      | ok l' =>
        dsimp only
        rw [pipe_left R fs l' (fun g hg => h g (List.mem_cons_of_mem _ hg))]

/-- C153: a pipe leaves its arguments as they were if the filters in it do and none of them says whether it is lax, so that
`C153_history` and `C153_as_first_partial` hold of it. -/
theorem C153_pipes (R R' : RangerA S) (c : CallSpec) (desc : Bool) (hc : R'.filters c.func = some ⟨R.pipeFilter, desc⟩)
    (h : ∀ f ∈ c.args, ∀ c', parseCallSpec f = .ok c' → LeavesArguments R c' ∧ SaysNoLax c') : LeavesArguments R' c := by
  intro rec hr l
  rw [hc] at hr
  cases hr
  show ((R.pipe c.args (.lasso l)).1, _) = _
  rw [pipe_left R c.args _ h]

/-! Concrete cases -/

/-- A sheet with one cell. -/
def oneCell : Grid := ⟨1, 1, fun _ _ => .int 7⟩

/-- A ranger with a filter that always fails, and one that returns what it is given; none of them touches its arguments. -/
def plainFilters : RangerA Grid where
  fetch _ _ s := match s with
    | some s => .ok s
    | none => .error .valueError
  baseOpts := [("lax".toList, .bool false)]
  filters f :=
    if f = "fail".toList then some ⟨fun _ a k => ((a, k), .error .typeError), true⟩
    else if f = "same".toList then some ⟨fun l a k => ((a, k), .ok (.lasso l)), true⟩
    else none

/-- The same with pipes of these filters. -/
def pipedFilters : RangerA Grid := { plainFilters with
  filters := fun f => if f = "pipe".toList then some ⟨plainFilters.pipeFilter, true⟩ else plainFilters.filters f }

/-- The cell, with the first call-specification of the caller. -/
def throwCell : Throw Grid := ⟨"#A1".toList, { sheet := some oneCell }, some 0⟩

/-- Whether a call returned values. -/
def gotValues : Except PyErr (FRes Grid) → Option Bool
  | .ok (.lasso l) => some (match l.values with | .int 7 => true | _ => false)
  | .ok (.other _) => none
  | .error .valueError => some false
  | .error _ => none

theorem plain_leaves (c : CallSpec) : LeavesArguments plainFilters c := by
  intro rec hr l
  unfold plainFilters at hr
  dsimp only at hr
  split at hr
  · cases hr; rfl
  · split at hr
    · cases hr; rfl
    · cases hr

/-- A lax call-specification of a filter that fails. -/
def laxFail : CallSpec := ⟨"fail".toList, [], [("lax".toList, .bool true)]⟩

/-- C153, refuted: the second of two equal calls fails, for `lax` was popped from the caller's call-specification by the first
one. -/
theorem C153_lax_refuted : LeavesArguments plainFilters laxFail ∧
    (plainFilters.throwAll arrayApi (fun _ => none) [laxFail] [throwCell, throwCell]).2.map gotValues = [some true, some false] ∧
    [throwCell, throwCell].map (fun t => gotValues (thrownFirst plainFilters arrayApi (fun _ => none) [laxFail] t)) =
      [some true, some true] := ⟨plain_leaves _, by decide +kernel, by decide +kernel⟩

/-- A pipe of the filter that fails, in which the filter is lax. -/
def laxPipe : CallSpec := ⟨"pipe".toList, [.list [.str "fail".toList, .dict [("lax".toList, .bool true)]]], []⟩

/-- C153, refuted also for call-specifications without `lax` whose arguments have it: the dictionaries in them are those of the
caller too. -/
theorem C153_pipe_refuted : SaysNoLax laxPipe ∧
    (pipedFilters.throwAll arrayApi (fun _ => none) [laxPipe] [throwCell, throwCell]).2.map gotValues = [some true, some false] ∧
    [throwCell, throwCell].map (fun t => gotValues (thrownFirst pipedFilters arrayApi (fun _ => none) [laxPipe] t)) =
      [some true, some true] := ⟨rfl, by decide +kernel, by decide +kernel⟩

/-- The hypotheses of `C153_as_first_partial` and `C153_pipes` hold of a pipe of filters that are not said to be lax. -/
example : (∀ c ∈ [(⟨"pipe".toList, [.str "same".toList, .list [.str "fail".toList]], []⟩ : CallSpec)],
    LeavesArguments pipedFilters c) ∧
    (pipedFilters.throwAll arrayApi (fun _ => none) [⟨"pipe".toList, [.str "same".toList], []⟩] [throwCell, throwCell]).2.map gotValues =
      [some true, some true] := by
  refine ⟨?_, by decide +kernel⟩
  intro c hc
  rw [List.mem_singleton.1 hc]
  refine C153_pipes plainFilters pipedFilters _ true rfl ?_
  intro f hf c' hc'
  refine ⟨plain_leaves _, ?_⟩
  simp only [List.mem_cons, List.not_mem_nil, or_false] at hf
  rcases hf with rfl | rfl <;> (cases hc'; rfl)
/-- The first call uses the call-specification. -/
example : SpecUsed plainFilters arrayApi (fun _ => none) throwCell 0 := by
  refine ⟨rfl, ?_, _, by rfl⟩
  intro p hp
  have : (match parseXlref (fun _ => none) "#A1".toList with
    | .ok p => p.frag.callSpec.isNone
    | .error _ => false) = true := by decide +kernel
  rw [show parseXlref (fun _ => none) "#A1".toList = .ok p from hp] at this
  simpa using this
/-- References that name their filter, with the lax call-specification in the context. -/
example : (∃ p, parseXlref (fun _ => some (.str "same".toList)) "#A1:\"same\"".toList = .ok p ∧
    p.frag.callSpec.map (fun c => c.func) = some "same".toList) ∧
    (plainFilters.throwAll arrayApi (fun _ => some (.str "same".toList)) [laxFail]
      [{ throwCell with xlref := "#A1:\"same\"".toList }, throwCell]).2.map gotValues = [some true, some true] :=
  ⟨⟨_, by rfl, by rfl⟩, by decide +kernel⟩

end Props
