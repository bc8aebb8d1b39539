import Verif.Spec.RangerThreads
import Verif.Props.Stages
/-
C164: threads that share a ranger.
-/
namespace Props
open Py Model Spec

private theorem yields_bind {S α β : Type} {p : Throwing S α} {a : α} (h : Yields p a) {f : α → Throwing S β} {b : β} (hf : Yields (f a) b) :
    Yields (p.bind f) b := by
  induction h with
  | done a => exact hf
  | remember i k a _ ih => exact .remember _ _ _ (ih hf)
  | recall k a _ ih => exact .recall _ _ (fun i => ih i hf)

private theorem yields_makeCall {S : Type} {R : RangerT S} {R' : Ranger S} (h : MemoryFree R R') (l : FRes S) (func : Str) (args : List Doc)
    (kwds : List (Str × Doc)) : Yields (R.makeCall l func args kwds) (R'.makeCall l func args kwds) := by
  cases l with
  | other d => exact .done _
  | lasso l =>
    refine .remember _ _ _ ?_
    unfold Ranger.makeCall
    dsimp only
    cases l.opts with
    | none => exact .done _
    | some o =>
      dsimp only
      cases hf : R.filters func with
      | none =>
        rw [(h.2.2.1 func).1 hf]
        exact .done _
      | some f =>
        cases hf' : R'.filters func with
        | none => rw [(h.2.2.1 func).2 hf'] at hf; cases hf
        | some f' =>
          obtain ⟨h1, h2⟩ := h.2.2.2 func f f' hf hf'
          dsimp only
          refine yields_bind (h2 l args (ddel kwds "lax".toList)) ?_
          rw [h1]
          rcases f'.func l args (ddel kwds "lax".toList) with e | (l' | d) <;> exact .done _

private theorem yields_runFilters {S : Type} {R : RangerT S} {R' : Ranger S} (h : MemoryFree R R') (l : Lasso S) :
    Yields (R.runFilters l) (R'.runFilters l) := by
  unfold RangerT.runFilters Ranger.runFilters
  cases l.callSpec with
  | none => exact .done _
  | some c =>
    dsimp only
    refine yields_bind (yields_makeCall h (.lasso l) c.func c.args c.kwds) ?_
    cases R'.makeCall (.lasso l) c.func c.args c.kwds <;> exact .done _

/-- C164. Throwing a lasso with a ranger that is shared returns, or raises, what it does with one that is not, if that is so of the filters.
Filters that throw lassos themselves are therefore such ones. -/
theorem C164_throw {S : Type} (R : RangerT S) (R' : Ranger S) (h : MemoryFree R R') (A : SheetApi S) (jsonLoads : Str → Option Doc)
    (xlref : Str) (ctx : Lasso S) : Yields (R.doLasso A jsonLoads (.str xlref) ctx) (R'.doLasso A jsonLoads xlref ctx) := by
  refine .remember _ _ _ (.remember _ _ _ ?_)
  have hpm : R.plain.parseMerge jsonLoads xlref ctx = R'.parseMerge jsonLoads xlref ctx := by
    unfold Ranger.parseMerge RangerT.plain
    dsimp only
    rw [h.2.1]
  unfold Ranger.doLasso
  rw [hpm, h.1]
  cases R'.parseMerge jsonLoads xlref ctx with
  | error e => exact .done _
  | ok l =>
    refine .remember _ _ _ ?_
    dsimp only
    cases R'.fetch l.urlFile l.shName l.sheet with
    | error e => exact .done _
    | ok sheet =>
      refine .remember _ _ _ ?_
      dsimp only
      cases resolveRect A { l with sheet := some sheet } sheet with
      | error e => exact .done _
      | ok q =>
        cases q with
        | none => exact .remember _ _ _ (.remember _ _ _ (yields_runFilters h _))
        | some q =>
          obtain ⟨st, nd⟩ := q
          refine .remember _ _ _ ?_
          dsimp only
          cases A.readRect sheet st nd with
          | error e => exact .done _
          | ok v => exact .remember _ _ _ (yields_runFilters h _)

/-- C164. So are pipes of such filters. -/
theorem C164_pipe {S : Type} (R : RangerT S) (R' : Ranger S) (h : MemoryFree R R') : ∀ (fs : List Doc) (l : FRes S),
    Yields (R.pipe fs l) (R'.pipe fs l)
  | [], _ => .done _
  | f :: fs, l => by
    unfold RangerT.pipe Ranger.pipe
    cases parseCallSpec f with
    | error e => exact .done _
    | ok c =>
      dsimp only
      refine yields_bind (yields_makeCall h l c.func c.args c.kwds) ?_
      cases R'.makeCall l c.func c.args c.kwds with
      | error e => exact .done _
      | ok l' => exact C164_pipe R R' h fs l'

private theorem yields_step {S α : Type} {p : Throwing S α} {a : α} (h : Yields p a) (s : InterLasso S) : Yields (p.step s).2 a := by
  cases h with
  | done a => exact .done a
  | remember i k a h => exact h
  | recall k a h => exact h s

private theorem step_length {S : Type} (c : Rangers S) (j : Nat) : (c.step j).threads.length = c.threads.length := by
  unfold Rangers.step
  split
  · rfl
  · exact List.length_set

private theorem step_other {S : Type} (c : Rangers S) {i j : Nat} (h : i ≠ j) : (c.step i).threads[j]? = c.threads[j]? := by
  unfold Rangers.step
  split
  · rfl
  · exact List.getElem?_set_ne h

private theorem step_own {S : Type} (c : Rangers S) (j : Nat) (t) (h : c.threads[j]? = some t) :
    (c.step j).threads[j]? = some (t.step c.mem).2 ∧ (c.step j).mem = (t.step c.mem).1 := by
  unfold Rangers.step
  rw [h]
  refine ⟨?_, rfl⟩
  have : j < c.threads.length := by
    rcases Nat.lt_or_ge j c.threads.length with h1 | h1
    · exact h1
    · rw [List.getElem?_eq_none h1] at h; cases h
  exact List.getElem?_set_self this

private theorem run_yields {S : Type} (js : List Nat) : ∀ (c : Rangers S) (j : Nat) (t) (a), c.threads[j]? = some t → Yields t a →
    ∃ t', (c.run js).threads[j]? = some t' ∧ Yields t' a := by
  induction js with
  | nil => exact fun c j t a h1 h2 => ⟨t, h1, h2⟩
  | cons i js ih =>
    intro c j t a h1 h2
    by_cases hij : i = j
    · subst hij
      exact ih (c.step i) i _ a (step_own c i t h1).1 (yields_step h2 _)
    · exact ih (c.step i) j t a ((step_other c hij).trans h1) h2

private theorem yields_text {S : Type} {R : RangerT S} {A : SheetApi S} {jsonLoads : Str → Option Doc} {d : Doc} {ctx : Lasso S}
    (h : ∀ t, d ≠ .str t) : R.doLasso A jsonLoads d ctx = .done (.error .valueError) := by
  cases d <;> first | rfl | exact absurd rfl (h _)

/-- C164. However the operations of threads that share a ranger are interleaved, and whatever the ranger remembered at first, a lasso that was
thrown returns, or raises, what it does when a ranger of its own throws it. -/
theorem C164_same {S : Type} (R : RangerT S) (R' : Ranger S) (h : MemoryFree R R') (A : SheetApi S) (jsonLoads : Str → Option Doc)
    (s : InterLasso S) (ts : List (ThreadThrow S)) (js : List Nat) (j : Nat) (r : Except PyErr (FRes S))
    (hr : ThrewTo ((R.start A jsonLoads s ts).run js) j r) :
    ∃ t : ThreadThrow S, ts[j]? = some t ∧ (∀ xlref, t.xlref = .str xlref → r = R'.doLasso A jsonLoads xlref t.ctx) ∧
      ((∀ xlref, t.xlref ≠ .str xlref) → r = .error .valueError) := by
  cases ht : ts[j]? with
  | none =>
    have hlen : ∀ (js : List Nat) (c : Rangers S), (c.run js).threads.length = c.threads.length := by
      intro js
      induction js with
      | nil => exact fun c => rfl
      | cons i js ih => exact fun c => (ih (c.step i)).trans (step_length c i)
    have h1 : ((R.start A jsonLoads s ts).run js).threads[j]? = none := by
      refine List.getElem?_eq_none ?_
      rw [hlen]
      show (ts.map _).length ≤ j
      rw [List.length_map]
      exact List.getElem?_eq_none_iff.1 ht
    exact nomatch (h1.symm.trans hr)
  | some t =>
    have hs : (R.start A jsonLoads s ts).threads[j]? = some (R.doLasso A jsonLoads t.xlref t.ctx) := by
      show (ts.map _)[j]? = _
      rw [List.getElem?_map, ht]
      rfl
    refine ⟨t, rfl, fun xlref hx => ?_, fun hx => ?_⟩
    · have hy := C164_throw R R' h A jsonLoads xlref t.ctx
      rw [← hx] at hy
      obtain ⟨t', h1, h2⟩ := run_yields js _ j _ _ hs hy
      cases h1.symm.trans hr
      cases h2
      rfl
    · rw [yields_text hx] at hs
      obtain ⟨t', h1, h2⟩ := run_yields js _ j _ _ hs (.done _)
      cases h1.symm.trans hr
      cases h2
      rfl

/-- The operations until a time. -/
private theorem run_append {S : Type} (c : Rangers S) (js ks : List Nat) : c.run (js ++ ks) = (c.run js).run ks := List.foldl_append

/-- C164. No thread waits for another one: whatever the others do, a thread that is given turns again and again comes to an end. -/
theorem C164_ends {S : Type} (c : Rangers S) (j : Nat) (hj : j < c.threads.length) (turn : Nat → Nat) (hf : ∀ n, ∃ m, n ≤ m ∧ turn m = j) :
    ∃ n r, ∀ m, n ≤ m → ThrewTo (c.run ((List.range m).map turn)) j r := by
  have hstep : ∀ n, c.run ((List.range (n + 1)).map turn) = (c.run ((List.range n).map turn)).step (turn n) := by
    intro n
    rw [List.range_succ, List.map_append, run_append]
    rfl
  have hmain : ∀ (t : Throwing S (Except PyErr (FRes S))) (n : Nat), (c.run ((List.range n).map turn)).threads[j]? = some t →
      ∃ n r, ThrewTo (c.run ((List.range n).map turn)) j r := by
    have hnext : ∀ (d n : Nat) (t), (c.run ((List.range n).map turn)).threads[j]? = some t → turn (n + d) = j →
        ∃ m s, (c.run ((List.range m).map turn)).threads[j]? = some (t.step s).2 := by
      intro d
      induction d with
      | zero =>
        intro n t h1 h2
        refine ⟨n + 1, (c.run ((List.range n).map turn)).mem, ?_⟩
        rw [hstep, show turn n = j from h2]
        exact (step_own _ j t h1).1
      | succ d ih =>
        intro n t h1 h2
        by_cases hn : turn n = j
        · refine ⟨n + 1, (c.run ((List.range n).map turn)).mem, ?_⟩
          rw [hstep, hn]
          exact (step_own _ j t h1).1
        · refine ih (n + 1) t ?_ (by rw [← h2]; congr 1; omega)
          rw [hstep, step_other _ hn]
          exact h1
    intro t
    induction t with
    | done a => exact fun n h => ⟨n, a, h⟩
    | remember i k ih =>
      intro n h
      obtain ⟨m, hm, he⟩ := hf n
      obtain ⟨m', s, h'⟩ := hnext (m - n) n _ h (by rw [← he]; congr 1; omega)
      exact ih m' h'
    | recall k ih =>
      intro n h
      obtain ⟨m, hm, he⟩ := hf n
      obtain ⟨m', s, h'⟩ := hnext (m - n) n _ h (by rw [← he]; congr 1; omega)
      exact ih s m' h'
  obtain ⟨n, r, h⟩ := hmain c.threads[j] 0 (List.getElem?_eq_getElem hj)
  refine ⟨n, r, fun m hm => ?_⟩
  obtain ⟨d, rfl⟩ : ∃ d, m = n + d := ⟨m - n, by omega⟩
  induction d with
  | zero => exact h
  | succ d ih =>
    have h1 := ih (by omega)
    show (c.run ((List.range (n + d + 1)).map turn)).threads[j]? = _
    rw [hstep]
    by_cases hn : turn (n + d) = j
    · rw [hn]
      exact (step_own _ j _ h1).1
    · rw [step_other _ hn]
      exact h1

private theorem alone_bind {S α β : Type} (p : Throwing S α) (f : α → Throwing S β) : ∀ s, alone (p.bind f) s = alone (f (alone p s).2) (alone p s).1 := by
  induction p with
  | done a => exact fun s => rfl
  | remember i k ih => exact fun s => ih i
  | recall k ih => exact fun s => ih s s

private theorem alone_makeCall {S : Type} (R : RangerT S) (l : FRes S) (func : Str) (args : List Doc) (kwds : List (Str × Doc)) (s : InterLasso S) :
    alone (R.makeCall l func args kwds) s = (oneThread R).makeCall l func args kwds s := by
  cases l with
  | other d => rfl
  | lasso l =>
    show alone _ (some (func, l)) = _
    unfold RangerI.makeCall oneThread
    dsimp only
    cases l.opts with
    | none => rfl
    | some o =>
      dsimp only
      cases R.filters func with
      | none => rfl
      | some f =>
        dsimp only [Option.map]
        rw [alone_bind]
        rcases alone (f.func l args (ddel kwds "lax".toList)) (some (func, l)) with ⟨s', e | (l' | d)⟩ <;> rfl

private theorem alone_runFilters {S : Type} (R : RangerT S) (l : Lasso S) (s : InterLasso S) :
    alone (R.runFilters l) s = (oneThread R).runFilters l s := by
  unfold RangerT.runFilters RangerI.runFilters
  cases l.callSpec with
  | none => rfl
  | some c =>
    dsimp only
    rw [alone_bind, alone_makeCall]
    rcases (oneThread R).makeCall (.lasso l) c.func c.args c.kwds s with ⟨s', e | q⟩ <;> rfl

private theorem alone_doLasso {S : Type} (R : RangerT S) (A : SheetApi S) (jsonLoads : Str → Option Doc) (d : Doc) (ctx : Lasso S) (s : InterLasso S) :
    alone (R.doLasso A jsonLoads d ctx) s = (oneThread R).doLasso A jsonLoads d ctx s := by
  cases d with
  | str xlref =>
    show alone _ (some ("context".toList, _)) = _
    unfold RangerI.doLasso
    have hp : (oneThread R).plain = R.plain := rfl
    have hf : (oneThread R).fetch = R.fetch := rfl
    dsimp only
    rw [hp, hf]
    cases R.plain.parseMerge jsonLoads xlref ctx with
    | error e => rfl
    | ok l =>
      show alone _ (some ("parse".toList, l)) = _
      dsimp only
      cases R.fetch l.urlFile l.shName l.sheet with
      | error e => rfl
      | ok sheet =>
        show alone _ (some ("open".toList, _)) = _
        dsimp only
        cases resolveRect A { l with sheet := some sheet } sheet with
        | error e => rfl
        | ok q =>
          cases q with
          | none => exact alone_runFilters R _ _
          | some q =>
            obtain ⟨st, nd⟩ := q
            show alone _ (some ("capture".toList, _)) = _
            dsimp only
            cases A.readRect sheet st nd with
            | error e => rfl
            | ok v => exact alone_runFilters R _ _
  | null => rfl
  | bool b => rfl
  | int i => rfl
  | atom a => rfl
  | list xs => rfl
  | dict kvs => rfl

/-- C164. A lasso that is thrown without interruption returns, and leaves remembered, what it does with a ranger that is not shared (so C101 says
what that is), whatever the threads did before. -/
theorem C164_uninterrupted {S : Type} (R : RangerT S) (A : SheetApi S) (jsonLoads : Str → Option Doc) (c : Rangers S) (j : Nat) (t : ThreadThrow S)
    (h : c.threads[j]? = some (R.doLasso A jsonLoads t.xlref t.ctx)) :
    ∃ n, (c.run (List.replicate n j)).mem = ((oneThread R).doLasso A jsonLoads t.xlref t.ctx c.mem).1 ∧
      ThrewTo (c.run (List.replicate n j)) j ((oneThread R).doLasso A jsonLoads t.xlref t.ctx c.mem).2 := by
  have hmain : ∀ (p : Throwing S (Except PyErr (FRes S))) (c : Rangers S), c.threads[j]? = some p →
      ∃ n, (c.run (List.replicate n j)).mem = (alone p c.mem).1 ∧ ThrewTo (c.run (List.replicate n j)) j (alone p c.mem).2 := by
    intro p
    induction p with
    | done a => exact fun c h => ⟨0, rfl, h⟩
    | remember i k ih =>
      intro c h
      obtain ⟨h1, h2⟩ := step_own c j _ h
      obtain ⟨n, h3⟩ := ih (c.step j) h1
      rw [h2] at h3
      exact ⟨n + 1, h3⟩
    | recall k ih =>
      intro c h
      obtain ⟨h1, h2⟩ := step_own c j _ h
      obtain ⟨n, h3⟩ := ih c.mem (c.step j) h1
      rw [h2] at h3
      exact ⟨n + 1, h3⟩
  rw [← alone_doLasso]
  exact hmain _ c h

/-- What a call may make the ranger remember. -/
private inductive Writes {S α : Type} (i : InterLasso S) : Throwing S α → Prop
  | here (k : Throwing S α) : Writes i (.remember i k)
  | later (i' : InterLasso S) (k : Throwing S α) : Writes i k → Writes i (.remember i' k)
  | recall (k : InterLasso S → Throwing S α) (s : InterLasso S) : Writes i (k s) → Writes i (.recall k)

private theorem writes_step {S α : Type} {i s : InterLasso S} {p : Throwing S α} (h : Writes i (p.step s).2) : Writes i p := by
  cases p with
  | done a => exact h
  | remember i' k => exact .later i' k h
  | recall k => exact .recall k s h

private theorem run_writes {S : Type} (js : List Nat) : ∀ (c : Rangers S), (c.run js).mem = c.mem ∨
    ∃ (j : Nat) (t : Throwing S (Except PyErr (FRes S))), c.threads[j]? = some t ∧ Writes (c.run js).mem t := by
  induction js with
  | nil => exact fun c => .inl rfl
  | cons i js ih =>
    intro c
    cases ht : c.threads[i]? with
    | none =>
      have : c.step i = c := by unfold Rangers.step; rw [ht]
      show ((c.step i).run js).mem = c.mem ∨ ∃ (j : Nat) (t : Throwing S (Except PyErr (FRes S))), c.threads[j]? = some t ∧ Writes ((c.step i).run js).mem t
      rw [this]
      exact ih c
    | some t =>
      obtain ⟨h1, h2⟩ := step_own c i t ht
      rcases ih (c.step i) with h | ⟨j, t', h3, h4⟩
      · rw [h2] at h
        cases t with
        | done a => exact .inl h
        | recall k => exact .inl h
        | remember i' k =>
          refine .inr ⟨i, _, ht, ?_⟩
          show Writes ((c.step i).run js).mem _
          rw [h]
          exact .here k
      · by_cases hij : i = j
        · subst hij
          cases h1.symm.trans h3
          exact .inr ⟨i, t, ht, writes_step h4⟩
        · exact .inr ⟨j, t', (step_other c hij).symm.trans h3, h4⟩

private theorem writes_relasso {S α : Type} {i : InterLasso S} {l : Lasso S} {stage : Str} {k : Lasso S → Throwing S α}
    (h : Writes i (relassoT l stage k)) : i = some (stage, l) ∨ Writes i (k l) := by
  cases h with
  | here => exact .inl rfl
  | later _ _ h => exact .inr h

private theorem writes_runFilters {S : Type} {R : RangerT S} (hq : NoRangerInFilters R) {l : Lasso S} {i : InterLasso S} (h : Writes i (R.runFilters l)) :
    ∃ c, l.callSpec = some c ∧ i = some (c.func, l) := by
  unfold RangerT.runFilters at h
  cases hc : l.callSpec with
  | none => rw [hc] at h; cases h
  | some c =>
    rw [hc] at h
    refine ⟨c, rfl, ?_⟩
    dsimp only at h
    unfold RangerT.makeCall at h
    dsimp only [relassoT, Throwing.bind] at h
    cases h with
    | here => rfl
    | later _ _ h =>
      exfalso
      cases ho : l.opts with
      | none => rw [ho] at h; cases h
      | some o =>
        rw [ho] at h
        dsimp only at h
        cases hf : R.filters c.func with
        | none =>
          rw [hf] at h
          dsimp only [Throwing.bind] at h
          split at h <;> cases h
        | some f =>
          rw [hf] at h
          dsimp only at h
          obtain ⟨r, hr⟩ := hq c.func f hf l c.args (ddel c.kwds "lax".toList)
          rw [hr] at h
          dsimp only [Throwing.bind] at h
          split at h <;> cases h

/-- C164 (partial, see `C164_own_refuted`). What a shared ranger remembers is what it did at first, or nothing, or a stage that one of the lassos
reached; for filters that do not use the ranger. -/
theorem C164_remembered_partial {S : Type} (R : RangerT S) (hq : NoRangerInFilters R) (A : SheetApi S) (jsonLoads : Str → Option Doc)
    (s : InterLasso S) (ts : List (ThreadThrow S)) (js : List Nat) (m : InterLasso S) (hm : ((R.start A jsonLoads s ts).run js).mem = m) :
    m = s ∨ m = none ∨ ∃ (j : Nat) (t : ThreadThrow S) (xlref : Str) (n : Nat) (stage : Str) (l : Lasso S), ts[j]? = some t ∧ t.xlref = .str xlref ∧ m = some (stage, l) ∧
      StageOf (oneThread R) A jsonLoads xlref t.ctx n stage l := by
  rcases run_writes js (R.start A jsonLoads s ts) with h | ⟨j, p, h1, h2⟩
  · exact .inl (hm.symm.trans h)
  · rw [hm] at h2
    refine .inr ?_
    change (ts.map _)[j]? = _ at h1
    rw [List.getElem?_map] at h1
    cases ht : ts[j]? with
    | none => rw [ht] at h1; cases h1
    | some t =>
      rw [ht] at h1
      injection h1 with h1
      subst h1
      dsimp only at h2
      suffices hw : ∀ xlref, Writes m (R.doLasso A jsonLoads (.str xlref) t.ctx) →
          m = none ∨ ∃ n stage l, m = some (stage, l) ∧ StageOf (oneThread R) A jsonLoads xlref t.ctx n stage l by
        cases hx : t.xlref with
        | str xlref =>
          rw [hx] at h2
          rcases hw xlref h2 with h | ⟨n, stage, l, h3, h4⟩
          · exact .inl h
          · exact .inr ⟨j, t, xlref, n, stage, l, ht, hx, h3, h4⟩
        | _ => rw [hx] at h2; cases h2
      clear h2
      intro xlref h
      cases h with
      | here => exact .inl rfl
      | later _ _ h =>
        refine .inr ?_
        rcases writes_relasso h with rfl | h
        · exact ⟨0, _, _, rfl, .context⟩
        have hp : (oneThread R).plain = R.plain := rfl
        cases hpm : R.plain.parseMerge jsonLoads xlref t.ctx with
        | error e => rw [hpm] at h; cases h
        | ok l =>
          rw [hpm] at h
          have r1 : StageOf (oneThread R) A jsonLoads xlref t.ctx 1 "parse".toList l := .parse l hpm
          rcases writes_relasso h with rfl | h
          · exact ⟨1, _, _, rfl, r1⟩
          cases hf : R.fetch l.urlFile l.shName l.sheet with
          | error e => rw [hf] at h; cases h
          | ok sheet =>
            rw [hf] at h
            have r2 := StageOf.opened l sheet r1 hf
            rcases writes_relasso h with rfl | h
            · exact ⟨2, _, _, rfl, r2⟩
            dsimp only at h
            cases hr : resolveRect A { l with sheet := some sheet } sheet with
            | error e => rw [hr] at h; cases h
            | ok q =>
              rw [hr] at h
              have fin : ∀ l', StageOf (oneThread R) A jsonLoads xlref t.ctx 4 "read_rect".toList l' → Writes m (R.runFilters l') →
                  ∃ n stage l, m = some (stage, l) ∧ StageOf (oneThread R) A jsonLoads xlref t.ctx n stage l := by
                intro l' h4 hw
                obtain ⟨c, h5, h6⟩ := writes_runFilters hq hw
                exact ⟨5, _, _, h6, .filter _ c h4 h5⟩
              cases q with
              | none =>
                have r3 := StageOf.capturedEmpty _ sheet r2 rfl hr
                have r4 := StageOf.readEmpty _ r3 rfl rfl
                rcases writes_relasso h with rfl | h
                · exact ⟨3, _, _, rfl, r3⟩
                rcases writes_relasso h with rfl | h
                · exact ⟨4, _, _, rfl, r4⟩
                exact fin _ r4 h
              | some q =>
                obtain ⟨st, nd⟩ := q
                have r3 := StageOf.captured _ sheet st nd r2 rfl hr
                rcases writes_relasso h with rfl | h
                · exact ⟨3, _, _, rfl, r3⟩
                dsimp only at h
                cases hv : A.readRect sheet st nd with
                | error e => rw [hv] at h; cases h
                | ok v =>
                  rw [hv] at h
                  have r4 := StageOf.read _ sheet st v r3 rfl rfl hv
                  rcases writes_relasso h with rfl | h
                  · exact ⟨4, _, _, rfl, r4⟩
                  exact fin _ r4 h

/-- A ranger that serves the sheet it is given, with a filter `x` that gives the text `x`, a filter `p` that is a pipe of it, and a filter `r` that
looks at what the ranger remembers, and throws another lasso. -/
def xRangerT : RangerT Grid :=
  let x : FRecT Grid := ⟨fun l _ _ => .done (.ok (.lasso { l with values := .str "x".toList })), true⟩
  let inner : RangerT Grid := ⟨xRanger.fetch, [], fun name => if name = "x".toList then some x else none⟩
  ⟨xRanger.fetch, [], fun name => if name = "x".toList then some x
    else if name = "p".toList then some ⟨fun l args _ => inner.pipe args (.lasso l), true⟩
    else if name = "r".toList then some ⟨fun l _ _ => .recall (fun _ => inner.doLasso arrayApi xLoads (.str "#B1:\"x\"".toList) l), true⟩
    else none⟩

/-- Its filters, without a memory. -/
def xRangerT' : Ranger Grid :=
  ⟨xRanger.fetch, [], fun name => if name = "x".toList then some ⟨fun l _ _ => .ok (.lasso { l with values := .str "x".toList }), true⟩
    else if name = "p".toList then some ⟨fun l args _ => xRangerPlain.pipe args (.lasso l), true⟩
    else if name = "r".toList then some ⟨fun l _ _ => xRangerPlain.doLasso arrayApi xLoads "#B1:\"x\"".toList l, true⟩
    else none⟩

example : MemoryFree xRangerT xRangerT' := by
  have hin : MemoryFree ⟨xRanger.fetch, [], fun name => if name = "x".toList then
      some (⟨fun l _ _ => .done (.ok (.lasso { l with values := .str "x".toList })), true⟩ : FRecT Grid) else none⟩ xRangerPlain := by
    refine ⟨rfl, rfl, fun name => ?_, fun name f f' h h' => ?_⟩
    · by_cases hn : name = "x".toList
      · simp [xRangerPlain, hn]
      · simp [xRangerPlain]
    · by_cases hn : name = "x".toList
      · simp only [xRangerPlain, hn, if_true] at h h'
        cases h
        cases h'
        exact ⟨rfl, fun _ _ _ => .done _⟩
      · simp only [hn, if_false] at h
        cases h
  refine ⟨rfl, rfl, fun name => ?_, fun name f f' h h' => ?_⟩
  · unfold xRangerT xRangerT'
    dsimp only
    by_cases h1 : name = "x".toList
    · rw [if_pos h1, if_pos h1]
      exact ⟨nofun, nofun⟩
    · rw [if_neg h1, if_neg h1]
      by_cases h2 : name = "p".toList
      · rw [if_pos h2, if_pos h2]
        exact ⟨nofun, nofun⟩
      · rw [if_neg h2, if_neg h2]
        by_cases h3 : name = "r".toList
        · rw [if_pos h3, if_pos h3]
          exact ⟨nofun, nofun⟩
        · rw [if_neg h3, if_neg h3]
          exact ⟨fun _ => rfl, fun _ => rfl⟩
  · unfold xRangerT at h
    unfold xRangerT' at h'
    dsimp only at h h'
    by_cases h1 : name = "x".toList
    · rw [if_pos h1] at h h'
      cases h
      cases h'
      exact ⟨rfl, fun _ _ _ => .done _⟩
    · rw [if_neg h1] at h h'
      by_cases h2 : name = "p".toList
      · rw [if_pos h2] at h h'
        cases h
        cases h'
        exact ⟨rfl, fun l args _ => C164_pipe _ _ hin args (.lasso l)⟩
      · rw [if_neg h2] at h h'
        by_cases h3 : name = "r".toList
        · rw [if_pos h3] at h h'
          cases h
          cases h'
          exact ⟨rfl, fun l _ _ => .recall _ _ (fun _ => C164_throw _ _ hin _ _ _ l)⟩
        · rw [if_neg h3] at h
          cases h

/-- JSON with calls of `x`, and of `r`. -/
def xrLoads (t : Str) : Option Doc := if t = "\"r\"".toList then some (.str "r".toList) else xLoads t

/-- Two threads, of which the first fails and the other one captures a cell. -/
def twoThrows : List (ThreadThrow Grid) :=
  [⟨.str "#R%".toList, {}⟩, ⟨.str "#A1:\"r\"".toList, { sheet := some ⟨4, 3, fun i j => .int (10 * i + j)⟩ }⟩]

/-- Whether the thread is at an end, and the values captured. -/
private def threwValues (c : Rangers Grid) (j : Nat) : Option (Option Doc) :=
  match c.threads[j]? with
  | some (.done (.ok (.lasso l))) => some (some l.values)
  | some (.done _) => some none
  | _ => none

example : threwValues ((xRangerT.start arrayApi xrLoads none twoThrows).run
      [1, 0, 1, 1, 0, 1, 1, 0, 1, 1, 1, 1, 1, 1, 1, 1, 1, 1, 1, 1, 1]) 1 = some (some (.str "x".toList)) ∧
    threwValues ((xRangerT.start arrayApi xrLoads none twoThrows).run [1, 0, 1, 1, 0, 1, 1]) 0 = some none := by
  constructor <;> rfl

/-- Turns by turns. -/
example : ∃ n r, ∀ m, n ≤ m → ThrewTo ((xRangerT.start arrayApi xrLoads none twoThrows).run ((List.range m).map (· % 2))) 1 r :=
  C164_ends _ 1 (by decide) _ (fun n => ⟨2 * n + 1, by omega, by omega⟩)

/-- With the filter `x` only. -/
example : NoRangerInFilters (S := Grid) ⟨xRanger.fetch, [], fun name => if name = "x".toList then
    some ⟨fun l _ _ => .done (.ok (.lasso { l with values := .str "x".toList })), true⟩ else none⟩ := by
  intro name f h l args kwds
  dsimp only at h
  split at h
  · cases h
    exact ⟨_, rfl⟩
  · cases h

/-- C164 fails for what is remembered: the first thread failed, and what the ranger remembers then, that the documentation says to inspect after
a failure, is no stage of its lasso, but one of a lasso of another thread. -/
theorem C164_own_refuted : ∃ (js : List Nat) (stage : Str) (l : Lasso Grid),
    ThrewTo ((xRangerT.start arrayApi xrLoads none twoThrows).run js) 0 (.error .syntaxError) ∧
    ((xRangerT.start arrayApi xrLoads none twoThrows).run js).mem = some (stage, l) ∧
    ∀ n, ¬ StageOf (oneThread xRangerT) arrayApi xrLoads "#R%".toList {} n stage l := by
  refine ⟨[1, 0, 1, 0, 1], "parse".toList, _, rfl, rfl, fun n h => ?_⟩
  have hp : (oneThread xRangerT).plain.parseMerge xrLoads "#R%".toList {} = .error .syntaxError := rfl
  have hall : ∀ (n : Nat) (a : Str) (l : Lasso Grid), StageOf (oneThread xRangerT) arrayApi xrLoads "#R%".toList {} n a l → a = "context".toList := by
    intro n a l h
    induction h with
    | context => rfl
    | parse l h => exact nomatch (hp.symm.trans h)
    | opened _ _ _ _ ih => exact absurd ih (by decide)
    | captured _ _ _ _ _ _ _ ih => exact absurd ih (by decide)
    | capturedEmpty _ _ _ _ _ ih => exact absurd ih (by decide)
    | read _ _ _ _ _ _ _ _ ih => exact absurd ih (by decide)
    | readEmpty _ _ _ _ ih => exact absurd ih (by decide)
    | filter _ _ _ _ ih => exact absurd ih (by decide)
  exact absurd (hall _ _ _ h) (by decide)
end Props
