import Verif.Spec.StepThreads
import Verif.Spec.PstepPaths
import Verif.Lemmas.Pstep
import Verif.Lemmas.PmodHeap
import Verif.Tests.ToyRegex
/-
C165: threads that share path steps.
-/
namespace Props
open Py Model Spec Lemmas

/-! ### One thread alone -/

/-- The given number of operations of one thread. -/
private def iterate (F : Nat) (E : RegexLib) : Nat → PsState × Reading → PsState × Reading
  | 0, p => p
  | n + 1, p => iterate F E n (p.2.step F E p.1)

private theorem iterate_add (F : Nat) (E : RegexLib) (m n : Nat) (p : PsState × Reading) :
    iterate F E (m + n) p = iterate F E n (iterate F E m p) := by
  induction m generalizing p with
  | zero => rw [Nat.zero_add]; rfl
  | succ m ih =>
    rw [Nat.add_right_comm]
    exact ih _

private theorem alone_store (F : Nat) (E : RegexLib) (σ : PsState) (s d : Nat) (key : Str) (ex : Option Nat)
    (k : Except PyErr (Option Nat) → Reading) :
    ∃ n, iterate F E n (σ, storeT s d key ex k) = ((storeChild F E σ s d key none ex).1, k ((storeChild F E σ s d key none ex).2.map some)) := by
  unfold storeChild storeT
  rcases h : newStep F E σ key (existingOr σ ex ((σ.steps[s]?).bind StepObj.pmod)) none [] with ⟨σ', e | c⟩
  · refine ⟨1, ?_⟩
    simp only [iterate, Reading.step, h]
    rfl
  · refine ⟨2, ?_⟩
    simp only [iterate, Reading.step, h]
    rfl

private theorem alone_make (F : Nat) (E : RegexLib) (σ : PsState) (s : Nat) (key : Str) (k : Except PyErr (Option Nat) → Reading)
    (hk : ∀ e, k (.error e) = .done (.error e)) :
    ∃ n, iterate F E n (σ, makeCstepT s key k) = ((makeCstep F E σ s key none none).1, k ((makeCstep F E σ s key none none).2.map some)) := by
  unfold makeCstep makeCstepT
  cases ho : σ.steps[s]? with
  | none =>
    refine ⟨1, ?_⟩
    simp only [iterate, Reading.step, ho]
    exact congrArg _ (hk _).symm
  | some o =>
    dsimp only
    have fresh : ∃ n, iterate F E n (σ, .newKids s (fun d => storeT s d key none k)) =
        ((storeChild F E { σ with
            dicts := σ.dicts ++ [[]]
            steps := σ.steps.set s { o with csteps := some σ.dicts.length } } s σ.dicts.length key none none).1,
          k ((storeChild F E { σ with
            dicts := σ.dicts ++ [[]]
            steps := σ.steps.set s { o with csteps := some σ.dicts.length } } s σ.dicts.length key none none).2.map some)) := by
      obtain ⟨n, hn⟩ := alone_store F E { σ with
            dicts := σ.dicts ++ [[]]
            steps := σ.steps.set s { o with csteps := some σ.dicts.length } } s σ.dicts.length key none k
      refine ⟨n + 1, ?_⟩
      rw [iterate]
      simp only [Reading.step, ho]
      exact hn
    cases hc : o.csteps with
    | none =>
      obtain ⟨n, hn⟩ := fresh
      refine ⟨n + 2, ?_⟩
      rw [iterate, iterate]
      simp only [Reading.step, ho, hc]
      exact hn
    | some d =>
      have hkids : σ.kids o = (σ.dicts[d]?).getD [] := by unfold PsState.kids; rw [hc]
      cases he : (σ.kids o).isEmpty with
      | true =>
        obtain ⟨n, hn⟩ := fresh
        refine ⟨n + 2, ?_⟩
        rw [iterate, iterate]
        simp only [Reading.step, ho, hc, ← hkids, he]
        exact hn
      | false =>
        obtain ⟨n, hn⟩ := alone_store F E σ s d key (dget (σ.kids o) key) k
        refine ⟨n + 3, ?_⟩
        rw [iterate, iterate, iterate]
        rw [hkids] at he hn
        simp only [Reading.step, ho, hc, he, Bool.false_eq_true, if_false, hkids]
        exact hn

private theorem alone_attr (F : Nat) (E : RegexLib) (σ : PsState) (s : Nat) (a : Str) (k : Except PyErr (Option Nat) → Reading)
    (hk : ∀ e, k (.error e) = .done (.error e)) :
    ∃ n, iterate F E n (σ, getAttrT s a k) = ((getAttr F E σ s a).1, k (getAttr F E σ s a).2) := by
  unfold getAttr getAttrT
  by_cases h1 : a ∈ plainAttrs
  · simp only [if_pos h1]
    exact ⟨0, rfl⟩
  simp only [if_neg h1]
  by_cases h2 : startsWith ['_'] a ∨ a ∈ forbiddenAttrs
  · simp only [if_pos h2]
    exact ⟨0, rfl⟩
  simp only [if_neg h2]
  cases ho : σ.steps[s]? with
  | none =>
    refine ⟨1, ?_⟩
    simp only [iterate, Reading.step, ho]
    exact congrArg _ (hk _).symm
  | some o =>
    dsimp only
    have hkids : o.csteps.bind (fun d => dget ((σ.dicts[d]?).getD []) a) = dget (σ.kids o) a := by
      unfold PsState.kids
      cases o.csteps <;> rfl
    have mk : ∃ n, iterate F E n (σ, makeCstepT s a k) =
        ((match makeCstep F E σ s a none none with
          | (σ', .ok c) => (σ', Except.ok (some c))
          | (σ', .error e) => (σ', .error e)).1,
         k (match makeCstep F E σ s a none none with
          | (σ', .ok c) => (σ', Except.ok (some c))
          | (σ', .error e) => (σ', .error e)).2) := by
      obtain ⟨n, hn⟩ := alone_make F E σ s a k hk
      refine ⟨n, hn.trans ?_⟩
      rcases makeCstep F E σ s a none none with ⟨σ', e | c⟩ <;> rfl
    obtain ⟨n, hn⟩ := mk
    cases hd : dget (σ.kids o) a with
    | none =>
      refine ⟨n + 2, ?_⟩
      rw [iterate, iterate]
      simp only [Reading.step, ho, hkids, hd]
      exact hn
    | some c =>
      cases hc : σ.steps[c]? with
      | none =>
        refine ⟨n + 2, ?_⟩
        rw [iterate, iterate]
        simp only [Reading.step, ho, hkids, hd, hc]
        exact hn
      | some co =>
        by_cases hne : co.name = []
        · refine ⟨n + 2, ?_⟩
          rw [iterate, iterate]
          simp only [Reading.step, ho, hkids, hd, hc, if_pos hne]
          exact hn
        · refine ⟨2, ?_⟩
          rw [iterate, iterate]
          simp only [Reading.step, ho, hkids, hd, hc, if_neg hne]
          rfl

private theorem alone_path (F : Nat) (E : RegexLib) : ∀ (chain : List Str) (σ : PsState) (s : Nat) (met : List Nat),
    ∃ n, iterate F E n (σ, getPathT s chain met) =
      ((getPath F E σ s chain).1, .done ((getPath F E σ s chain).2.map (fun cs => met.reverse ++ cs)))
  | [], σ, s, met => ⟨0, by simp [iterate, getPathT, getPath, Except.map]⟩
  | a :: as, σ, s, met => by
    obtain ⟨n, hn⟩ := alone_attr F E σ s a (fun r => match r with
      | .ok (some c) => getPathT c as (c :: met)
      | .ok none => .done (.error .attributeError)
      | .error e => .done (.error e)) (fun e => rfl)
    unfold getPath getPathT
    rcases h : getAttr F E σ s a with ⟨σ1, e | (_ | c)⟩
    · rw [h] at hn
      exact ⟨n, hn⟩
    · rw [h] at hn
      exact ⟨n, hn⟩
    · rw [h] at hn
      obtain ⟨m, hm⟩ := alone_path F E as σ1 c (c :: met)
      refine ⟨n + m, (iterate_add F E n m _).trans ((congrArg (iterate F E m) hn).trans (hm.trans ?_))⟩
      dsimp only
      rcases getPath F E σ1 c as with ⟨σ2, e | cs⟩
      · rfl
      · simp [Except.map]

private theorem run_alone (F : Nat) (E : RegexLib) (j : Nat) : ∀ (n : Nat) (c : Readers) (t : Reading), c.threads[j]? = some t →
    c.run F E (List.replicate n j) = ⟨(iterate F E n (c.shared, t)).1, c.threads.set j (iterate F E n (c.shared, t)).2⟩ := by
  intro n
  induction n with
  | zero =>
    intro c t ht
    have : c.threads.set j t = c.threads := by
      obtain ⟨hlt, rfl⟩ := List.getElem?_eq_some_iff.1 ht
      exact List.set_getElem_self hlt
    simp only [List.replicate, iterate, this]
    rfl
  | succ n ih =>
    intro c t ht
    rw [List.replicate_succ]
    have e : c.step F E j = ⟨(t.step F E c.shared).1, c.threads.set j (t.step F E c.shared).2⟩ := by
      unfold Readers.step; rw [ht]
    have hlt : j < c.threads.length := (List.getElem?_eq_some_iff.1 ht).1
    have := ih (c.step F E j) (t.step F E c.shared).2 (by rw [e]; simp [hlt])
    rw [show c.run F E (j :: List.replicate n j) = (c.step F E j).run F E (List.replicate n j) from rfl, this, e]
    simp only [List.set_set, iterate]

/-- C165. A thread that is not interrupted reads as if there were no other threads: it gets what reading the chain of attributes gives, and
leaves what that leaves. The other threads are where they were. -/
theorem C165_alone (F : Nat) (E : RegexLib) (c : Readers) (j s : Nat) (chain : List Str) (h : c.threads[j]? = some (getPathT s chain [])) :
    ∃ n, c.run F E (List.replicate n j) =
      ⟨(getPath F E c.shared s chain).1, c.threads.set j (.done (getPath F E c.shared s chain).2)⟩ := by
  obtain ⟨n, hn⟩ := alone_path F E chain c.shared s []
  refine ⟨n, ?_⟩
  rw [run_alone F E j n c _ h, hn]
  rcases getPath F E c.shared s chain with ⟨σ', e | cs⟩ <;> rfl

/-! ### Threads come to an end -/

/-- The thread needs at most this many operations. -/
private def Within : Reading → Nat → Prop
  | .done _, _ => True
  | .kids _ k, n => ∃ m, m < n ∧ ∀ d, Within (k d) m
  | .find _ _ k, n => ∃ m, m < n ∧ ∀ d, Within (k d) m
  | .test _ k, n => ∃ m, m < n ∧ ∀ d, Within (k d) m
  | .newKids _ k, n => ∃ m, m < n ∧ ∀ d, Within (k d) m
  | .existing _ _ k, n => ∃ m, m < n ∧ ∀ d, Within (k d) m
  | .make _ _ _ k, n => ∃ m, m < n ∧ ∀ d, Within (k d) m
  | .store _ _ _ k, n => ∃ m, m < n ∧ Within k m

private theorem within_mono {r : Reading} {m n : Nat} (h : Within r m) (hmn : m ≤ n) : Within r n := by
  cases r with
  | done => trivial
  | store => obtain ⟨a, h1, h2⟩ := h; exact ⟨a, by omega, h2⟩
  | _ => obtain ⟨a, h1, h2⟩ := h; exact ⟨a, by omega, h2⟩

private theorem within_zero {r : Reading} (h : Within r 0) : ∃ x, r = .done x := by
  cases r with
  | done x => exact ⟨x, rfl⟩
  | _ => obtain ⟨a, h1, _⟩ := h; omega

private theorem within_step (F : Nat) (E : RegexLib) (σ : PsState) {r : Reading} {n : Nat} (h : Within r (n + 1)) :
    Within (r.step F E σ).2 n := by
  cases r with
  | done x => trivial
  | kids s k =>
    obtain ⟨a, h1, h2⟩ := h
    unfold Reading.step
    dsimp only
    split
    · trivial
    · exact within_mono (h2 _) (by omega)
  | newKids s k =>
    obtain ⟨a, h1, h2⟩ := h
    unfold Reading.step
    dsimp only
    split
    · trivial
    · exact within_mono (h2 _) (by omega)
  | store d key c k => obtain ⟨a, h1, h2⟩ := h; exact within_mono h2 (by omega)
  | _ => obtain ⟨a, h1, h2⟩ := h; exact within_mono (h2 _) (by omega)

private theorem within_attr (s : Nat) (a : Str) (k : Except PyErr (Option Nat) → Reading) (n : Nat) (hk : ∀ r, Within (k r) n) :
    Within (getAttrT s a k) (n + 7) := by
  have hst : ∀ d ex, Within (storeT s d a ex k) (n + 2) := by
    intro d ex
    refine ⟨n + 1, by omega, fun r => ?_⟩
    cases r with
    | error e => exact within_mono (hk _) (by omega)
    | ok c => exact ⟨n, by omega, hk _⟩
  unfold getAttrT
  split
  · exact within_mono (hk _) (by omega)
  · split
    · exact within_mono (hk _) (by omega)
    · refine ⟨n + 6, by omega, fun d => ⟨n + 5, by omega, fun c => ?_⟩⟩
      cases c with
      | some c => exact within_mono (hk _) (by omega)
      | none =>
        refine ⟨n + 4, by omega, fun d => ⟨n + 3, by omega, fun d => ?_⟩⟩
        cases d with
        | none => exact ⟨n + 2, by omega, fun d => hst _ _⟩
        | some d => exact ⟨n + 2, by omega, fun ex => hst _ _⟩

private theorem within_path : ∀ (chain : List Str) (s : Nat) (met : List Nat), Within (getPathT s chain met) (7 * chain.length)
  | [], _, _ => trivial
  | a :: as, s, met => by
    unfold getPathT
    refine within_mono (within_attr s a _ (7 * as.length) (fun r => ?_)) (by simp; omega)
    rcases r with e | (_ | c)
    · trivial
    · trivial
    · exact within_path as c (c :: met)

private theorem step_at (F : Nat) (E : RegexLib) (c : Readers) (i j : Nat) :
    ((c.step F E i).threads[j]? = if i = j then (c.threads[j]?).map (fun t => (t.step F E c.shared).2) else c.threads[j]?) := by
  unfold Readers.step
  cases h : c.threads[i]? with
  | none =>
    dsimp only
    split
    · next e => subst e; rw [h]; rfl
    · rfl
  | some t =>
    dsimp only
    rw [List.getElem?_set]
    split
    · next e =>
      subst e
      rw [h, if_pos (List.getElem?_eq_some_iff.1 h).1]
      rfl
    · rfl

/-- C165. In whatever order the threads go on, a thread that was given seven operations for each name of its chain has come to an end. -/
theorem C165_ends (F : Nat) (E : RegexLib) (σ : PsState) (ts : List ThreadRead) (js : List Nat) (j : Nat) (t : ThreadRead)
    (ht : ts[j]? = some t) (hn : 7 * t.chain.length ≤ js.count j) : ∃ r, ReadTo ((Readers.start σ ts).run F E js) j r := by
  have key : ∀ (js : List Nat) (c : Readers) (r : Reading) (n : Nat), c.threads[j]? = some r → Within r n → n ≤ js.count j →
      ∃ x, ReadTo (c.run F E js) j x := by
    intro js
    induction js with
    | nil =>
      intro c r n h hw hn
      simp only [List.count_nil, Nat.le_zero] at hn
      subst hn
      obtain ⟨x, rfl⟩ := within_zero hw
      exact ⟨x, h⟩
    | cons i js ih =>
      intro c r n h hw hn
      have e := step_at F E c i j
      by_cases hij : i = j
      · subst hij
        rw [if_pos rfl, h] at e
        simp only [List.count_cons_self] at hn
        exact ih (c.step F E i) _ (n - 1) e (within_step F E _ (within_mono hw (by omega))) (by omega)
      · rw [if_neg hij, h] at e
        rw [List.count_cons_of_ne hij] at hn
        exact ih (c.step F E i) r n e hw hn
  refine key js _ (getPathT t.from_ t.chain []) _ ?_ (within_path _ _ _) hn
  unfold Readers.start
  rw [List.getElem?_map, ht]
  rfl

/-! ### What was there stays -/

/-- At the start, this dictionary has such a child, with a text. -/
private def Prot (σ0 : PsState) (d : Nat) (k : Str) : Prop :=
  ∃ c t, dget ((σ0.dicts[d]?).getD []) k = some c ∧ textOf σ0 c = some t ∧ t ≠ []

/-- The step has none of the dictionaries with such children. -/
private def Free (σ0 : PsState) (o : StepObj) : Prop := ∀ d, o.csteps = some d → ∀ k, ¬ Prot σ0 d k

private def Grew (σ0 σ σ' : PsState) : Prop :=
  ∀ (s : Nat) (o : StepObj), σ.steps[s]? = some o → ∃ o' : StepObj, σ'.steps[s]? = some o' ∧ o'.name = o.name ∧
    (o'.csteps = o.csteps ∨ (Free σ0 o ∧ Free σ0 o'))

private theorem Grew.refl (σ0 σ : PsState) : Grew σ0 σ σ := fun _ o h => ⟨o, h, rfl, .inl rfl⟩

private theorem free_of_eq {σ0 : PsState} {o o' : StepObj} (h : Free σ0 o) (e : o'.csteps = o.csteps) : Free σ0 o' :=
  fun d hd => h d (e ▸ hd)

private theorem Grew.trans {σ0 σ1 σ2 σ3 : PsState} (h : Grew σ0 σ1 σ2) (h' : Grew σ0 σ2 σ3) : Grew σ0 σ1 σ3 := by
  intro s o ho
  obtain ⟨o2, h1, h2, h3⟩ := h s o ho
  obtain ⟨o3, g1, g2, g3⟩ := h' s o2 h1
  refine ⟨o3, g1, g2.trans h2, ?_⟩
  rcases h3 with h3 | ⟨h3, h4⟩ <;> rcases g3 with g3 | ⟨g3, g4⟩
  · exact .inl (g3.trans h3)
  · exact .inr ⟨free_of_eq g3 h3.symm, g4⟩
  · exact .inr ⟨h3, free_of_eq h4 g3⟩
  · exact .inr ⟨h3, g4⟩

private def Kept (σ0 σ : PsState) : Prop :=
  Grew σ0 σ0 σ ∧ ∀ (d : Nat) (k : Str) (c : Nat) (t : Str), dget ((σ0.dicts[d]?).getD []) k = some c → textOf σ0 c = some t → t ≠ [] →
    dget ((σ.dicts[d]?).getD []) k = some c

/-- What is left to do takes none of those children away, whatever is there meanwhile. -/
private def Safe (σ0 : PsState) : Reading → PsState → Prop
  | .done _, _ => True
  | .kids s k, σ => ∀ σ', Grew σ0 σ σ' → ∀ o : StepObj, σ'.steps[s]? = some o → Safe σ0 (k o.csteps) σ'
  | .find d key k, σ => ∀ σ', Grew σ0 σ σ' → ∀ c, (c = none → ∀ d', d = some d' → ¬ Prot σ0 d' key) → Safe σ0 (k c) σ'
  | .test d k, σ => ∀ σ', Grew σ0 σ σ' → ((∀ d', d = some d' → ∀ key, ¬ Prot σ0 d' key) → Safe σ0 (k none) σ') ∧
      ∀ d', d = some d' → Safe σ0 (k (some d')) σ'
  | .newKids s k, σ => (∃ o, σ.steps[s]? = some o ∧ Free σ0 o) ∧ ∀ σ', Grew σ0 σ σ' → ∀ d, (∀ key, ¬ Prot σ0 d key) → Safe σ0 (k d) σ'
  | .existing _ _ k, σ => ∀ σ', Grew σ0 σ σ' → ∀ c, Safe σ0 (k c) σ'
  | .make _ _ _ k, σ => ∀ σ', Grew σ0 σ σ' → ∀ r, Safe σ0 (k r) σ'
  | .store d key _ k, σ => ¬ Prot σ0 d key ∧ ∀ σ', Grew σ0 σ σ' → Safe σ0 k σ'

private theorem free_mono {σ0 σ σ' : PsState} (h : Grew σ0 σ σ') {s : Nat} (hf : ∃ o, σ.steps[s]? = some o ∧ Free σ0 o) :
    ∃ o, σ'.steps[s]? = some o ∧ Free σ0 o := by
  obtain ⟨o, h1, h2⟩ := hf
  obtain ⟨o', g1, _, g3⟩ := h s o h1
  refine ⟨o', g1, ?_⟩
  rcases g3 with g3 | ⟨_, g3⟩
  · exact free_of_eq h2 g3
  · exact g3

private theorem safe_mono {σ0 σ σ' : PsState} (h : Grew σ0 σ σ') {r : Reading} (hs : Safe σ0 r σ) : Safe σ0 r σ' := by
  cases r with
  | done => trivial
  | newKids s k => exact ⟨free_mono h hs.1, fun σ'' g => hs.2 σ'' (h.trans g)⟩
  | store d key c k => exact ⟨hs.1, fun σ'' g => hs.2 σ'' (h.trans g)⟩
  | _ => exact fun σ'' g => hs σ'' (h.trans g)

private theorem safe_attr (σ0 σ : PsState) (s : Nat) (a : Str) (k : Except PyErr (Option Nat) → Reading) (hk : ∀ r σ', Safe σ0 (k r) σ') :
    Safe σ0 (getAttrT s a k) σ := by
  have hst : ∀ d ex σ, ¬ Prot σ0 d a → Safe σ0 (storeT s d a ex k) σ := by
    intro d ex σ hd σ' _ r
    cases r with
    | error e => exact hk _ _
    | ok c => exact ⟨hd, fun σ'' _ => hk _ _⟩
  unfold getAttrT
  split
  · exact hk _ _
  · split
    · exact hk _ _
    · intro σ1 _ o1 ho1 σ2 g2 c hc
      cases c with
      | some c => exact hk _ _
      | none =>
        have hc := hc rfl
        intro σ3 g3 o3 ho3 σ4 g4
        obtain ⟨o3', e1, _, e3⟩ := (g2.trans g3) s o1 ho1
        rw [ho3] at e1
        injection e1 with e1
        subst e1
        constructor
        · intro hfree
          refine ⟨free_mono g4 ⟨o3, ho3, hfree⟩, ?_⟩
          intro σ5 _ d hd
          exact hst _ _ _ (hd a)
        · intro d hd σ5 _ ex
          refine hst _ _ _ ?_
          rcases e3 with e3 | ⟨_, e3⟩
          · exact hc d (e3 ▸ hd)
          · exact e3 d hd a

private theorem safe_path (σ0 : PsState) : ∀ (chain : List Str) (s : Nat) (met : List Nat) (σ : PsState), Safe σ0 (getPathT s chain met) σ
  | [], _, _, _ => trivial
  | a :: as, s, met, σ => by
    unfold getPathT
    refine safe_attr σ0 σ s a _ (fun r σ' => ?_)
    rcases r with e | (_ | c)
    · trivial
    · trivial
    · exact safe_path σ0 as c (c :: met) σ'

private theorem newStep_grows (F : Nat) (E : RegexLib) (σ : PsState) (pname : Str) (maps : Maps) :
    (∃ l, (newStep F E σ pname maps none []).1.steps = σ.steps ++ l) ∧ ∃ l, (newStep F E σ pname maps none []).1.dicts = σ.dicts ++ l := by
  have hf : ∀ (σ : PsState) name orig pmod, (∃ l, (freshStep σ name orig pmod []).1.steps = σ.steps ++ l) ∧
      ∃ l, (freshStep σ name orig pmod []).1.dicts = σ.dicts ++ l := fun σ name orig pmod => ⟨⟨_, rfl⟩, [], by simp [freshStep]⟩
  cases maps with
  | none => exact hf _ _ _ _
  | step e =>
    unfold newStep
    dsimp only
    cases σ.steps[e]? with
    | none => exact ⟨⟨[], by simp⟩, [], by simp⟩
    | some o =>
      dsimp only
      split
      · exact hf _ _ _ _
      · unfold cloneStep
        dsimp only
        split
        · exact ⟨⟨_, rfl⟩, [], by simp⟩
        · exact ⟨⟨_, rfl⟩, _, rfl⟩
  | pmod p =>
    unfold newStep
    dsimp only
    cases descendH F E σ.pmods p pname with
    | error e => exact ⟨⟨[], by simp⟩, [], by simp⟩
    | ok q =>
      obtain ⟨pmods, pm, al⟩ := q
      exact hf { σ with pmods := pmods } _ _ _

private theorem prot_lt {σ0 σ : PsState} (h : Kept σ0 σ) {d : Nat} {k : Str} (hp : Prot σ0 d k) : d < σ.dicts.length := by
  obtain ⟨c, t, h1, h2, h3⟩ := hp
  have := h.2 d k c t h1 h2 h3
  cases hd : σ.dicts[d]? with
  | none => rw [hd] at this; cases this
  | some x => exact (List.getElem?_eq_some_iff.1 hd).1

private theorem kept_more {σ0 σ σ' : PsState} (h : Kept σ0 σ) (hg : Grew σ0 σ σ') {l : List (List (Str × Nat))} (hd : σ'.dicts = σ.dicts ++ l) :
    Kept σ0 σ' := by
  refine ⟨h.1.trans hg, fun d k c t h1 h2 h3 => ?_⟩
  rw [hd, List.getElem?_append_left (prot_lt h ⟨c, t, h1, h2, h3⟩)]
  exact h.2 d k c t h1 h2 h3

private theorem kept_step (F : Nat) (E : RegexLib) {σ0 σ : PsState} (h : Kept σ0 σ) {r : Reading} (hs : Safe σ0 r σ) :
    Kept σ0 (r.step F E σ).1 ∧ Grew σ0 σ (r.step F E σ).1 ∧ Safe σ0 (r.step F E σ).2 (r.step F E σ).1 := by
  cases r with
  | done x => exact ⟨h, .refl _ _, trivial⟩
  | kids s k =>
    unfold Reading.step
    dsimp only
    cases ho : σ.steps[s]? with
    | none => exact ⟨h, .refl _ _, trivial⟩
    | some o => exact ⟨h, .refl _ _, hs σ (.refl _ _) o ho⟩
  | find d key k =>
    refine ⟨h, .refl _ _, hs σ (.refl _ _) _ ?_⟩
    intro hn d' hd' hp
    subst hd'
    obtain ⟨c, t, h1, h2, h3⟩ := hp
    have e := h.2 d' key c t h1 h2 h3
    have e2 : ∃ co, σ.steps[c]? = some co ∧ co.name = t := by
      unfold textOf at h2
      cases hc : σ0.steps[c]? with
      | none => rw [hc] at h2; cases h2
      | some o =>
        rw [hc] at h2
        injection h2 with h2
        obtain ⟨o', g1, g2, _⟩ := h.1 c o hc
        exact ⟨o', g1, g2.trans h2⟩
    obtain ⟨co, e2, e3⟩ := e2
    simp only [Option.bind_some, e, e2, e3, if_neg h3] at hn
    cases hn
  | test d k =>
    refine ⟨h, .refl _ _, ?_⟩
    obtain ⟨g1, g2⟩ := hs σ (.refl _ _)
    unfold Reading.step
    dsimp only
    cases d with
    | none => exact g1 (fun d' e => by cases e)
    | some d =>
      dsimp only
      split
      · next he =>
        refine g1 (fun d' e key hp => ?_)
        cases e
        obtain ⟨c, t, h1, h2, h3⟩ := hp
        have e := h.2 d key c t h1 h2 h3
        rw [List.isEmpty_iff.1 he] at e
        cases e
      · exact g2 d rfl
  | newKids s k =>
    obtain ⟨⟨o, ho, hf⟩, hs⟩ := hs
    unfold Reading.step
    dsimp only
    rw [ho]
    have hnew : ∀ key, ¬ Prot σ0 σ.dicts.length key := fun key hp => Nat.lt_irrefl _ (prot_lt h hp)
    have hg : Grew σ0 σ { σ with
        dicts := σ.dicts ++ [[]]
        steps := σ.steps.set s { o with csteps := some σ.dicts.length } } := by
      intro s' o' ho'
      dsimp only
      rw [List.getElem?_set]
      split
      · next e =>
        subst e
        rw [ho] at ho'
        cases ho'
        rw [if_pos (List.getElem?_eq_some_iff.1 ho).1]
        refine ⟨_, rfl, rfl, .inr ⟨hf, ?_⟩⟩
        intro d hd key
        injection hd with hd
        subst hd
        exact hnew key
      · exact ⟨o', ho', rfl, .inl rfl⟩
    exact ⟨kept_more h hg rfl, hg, hs _ hg _ hnew⟩
  | existing d key k => exact ⟨h, .refl _ _, hs σ (.refl _ _) _⟩
  | make s key ex k =>
    obtain ⟨⟨l, h1⟩, l', h2⟩ := newStep_grows F E σ key (existingOr σ ex ((σ.steps[s]?).bind StepObj.pmod))
    have hg : Grew σ0 σ (newStep F E σ key (existingOr σ ex ((σ.steps[s]?).bind StepObj.pmod)) none []).1 := by
      intro s' o' ho'
      rw [h1, List.getElem?_append_left (List.getElem?_eq_some_iff.1 ho').1]
      exact ⟨o', ho', rfl, .inl rfl⟩
    exact ⟨kept_more h hg h2, hg, hs _ hg _⟩
  | store d key c k =>
    have hg : Grew σ0 σ { σ with dicts := σ.dicts.set d (dset ((σ.dicts[d]?).getD []) key c) } := fun s o ho => ⟨o, ho, rfl, .inl rfl⟩
    refine ⟨⟨h.1.trans hg, fun d' k' c' t h1 h2 h3 => ?_⟩, hg, hs.2 _ hg⟩
    have e := h.2 d' k' c' t h1 h2 h3
    show dget (((σ.dicts.set d (dset ((σ.dicts[d]?).getD []) key c))[d']?).getD []) k' = some c'
    rw [List.getElem?_set]
    split
    · next e' =>
      subst e'
      rw [if_pos (prot_lt h ⟨c', t, h1, h2, h3⟩)]
      have hne : k' ≠ key := by
        rintro rfl
        exact hs.1 ⟨c', t, h1, h2, h3⟩
      simp only [Option.getD_some]
      rw [dget_dset_ne _ _ hne]
      exact e
    · exact e

private theorem kept_run (F : Nat) (E : RegexLib) {σ0 : PsState} : ∀ (js : List Nat) (c : Readers), Kept σ0 c.shared →
    (∀ (j : Nat) (r : Reading), c.threads[j]? = some r → Safe σ0 r c.shared) →
    Kept σ0 (c.run F E js).shared ∧ ∀ (j : Nat) (r : Reading), (c.run F E js).threads[j]? = some r → Safe σ0 r (c.run F E js).shared := by
  intro js
  induction js with
  | nil => exact fun c h hs => ⟨h, hs⟩
  | cons i js ih =>
    intro c h hs
    show Kept σ0 ((c.step F E i).run F E js).shared ∧ _
    refine ih (c.step F E i) ?_ ?_
    · unfold Readers.step
      cases hi : c.threads[i]? with
      | none => exact h
      | some t => exact (kept_step F E h (hs i t hi)).1
    · intro j r hj
      rw [step_at] at hj
      unfold Readers.step
      cases hi : c.threads[i]? with
      | none =>
        dsimp only
        split at hj
        · next e => subst e; rw [hi] at hj; cases hj
        · exact hs j r hj
      | some t =>
        obtain ⟨_, g2, g3⟩ := kept_step F E h (hs i t hi)
        dsimp only
        split at hj
        · next e =>
          subst e
          rw [hi] at hj
          cases hj
          exact g3
        · exact safe_mono g2 (hs j r hj)

private theorem kept_safe (σ : PsState) (ts : List ThreadRead) (j : Nat) (r : Reading) (hj : (Readers.start σ ts).threads[j]? = some r) :
    Safe σ r (Readers.start σ ts).shared := by
  unfold Readers.start at hj
  rw [List.getElem?_map] at hj
  cases ht : ts[j]? with
  | none => rw [ht] at hj; cases hj
  | some t => rw [ht] at hj; cases hj; exact safe_path _ _ _ _ _

private theorem kept_start (F : Nat) (E : RegexLib) (σ : PsState) (ts : List ThreadRead) (js : List Nat) :
    Kept σ ((Readers.start σ ts).run F E js).shared :=
  (kept_run F E js (Readers.start σ ts) ⟨.refl _ _, fun _ _ _ _ h _ _ => h⟩ (kept_safe σ ts)).1

private theorem kept_edge {σ0 σ : PsState} (h : Kept σ0 σ) {s c : Nat} {k t : Str} (he : Edge σ0 s k c) (ht : textOf σ0 c = some t)
    (hne : t ≠ []) : Edge σ s k c ∧ textOf σ c = some t := by
  obtain ⟨o, ho, hd⟩ := he
  have h2 : textOf σ c = some t := by
    unfold textOf at ht ⊢
    cases hc : σ0.steps[c]? with
    | none => rw [hc] at ht; cases ht
    | some co =>
      rw [hc] at ht
      injection ht with ht
      obtain ⟨co', g1, g2, _⟩ := h.1 c co hc
      rw [g1]
      exact congrArg some (g2.trans ht)
  refine ⟨?_, h2⟩
  unfold PsState.kids at hd
  cases hc : o.csteps with
  | none => rw [hc] at hd; cases hd
  | some d =>
    rw [hc] at hd
    obtain ⟨o', g1, _, g3⟩ := h.1 s o ho
    have e : o'.csteps = some d := by
      rcases g3 with g3 | ⟨g3, _⟩
      · exact g3.trans hc
      · exact absurd ⟨c, t, hd, ht, hne⟩ (g3 d hc k)
    refine ⟨o', g1, ?_⟩
    unfold PsState.kids
    rw [e]
    exact h.2 d k c t hd ht hne

/-- C165. Whatever threads read, in whatever order they go on: at any moment the children that steps had before, with a text that is not empty,
are the same ones, and have the same texts. -/
theorem C165_kept (F : Nat) (E : RegexLib) (σ : PsState) (ts : List ThreadRead) (js : List Nat) (s c : Nat) (k t : Str)
    (he : Edge σ s k c) (ht : textOf σ c = some t) (hne : t ≠ "".toList) :
    Edge ((Readers.start σ ts).run F E js).shared s k c ∧ textOf ((Readers.start σ ts).run F E js).shared c = some t :=
  kept_edge (kept_start F E σ ts js) he ht hne

/-- The thread gets these steps, from what was there at the start. -/
private inductive Gets (σ0 : PsState) : Reading → List Nat → Prop
  | done (cs : List Nat) : Gets σ0 (.done (.ok cs)) cs
  | kids (s d : Nat) (key : Str) (k) (cs : List Nat) (o : StepObj) : σ0.steps[s]? = some o → o.csteps = some d → Prot σ0 d key → Gets σ0 (k (some d)) cs → Gets σ0 (.kids s k) cs
  | find (d : Nat) (key : Str) (k) (cs : List Nat) (c : Nat) (t : Str) : dget ((σ0.dicts[d]?).getD []) key = some c → textOf σ0 c = some t → t ≠ [] → Gets σ0 (k (some c)) cs →
      Gets σ0 (.find (some d) key k) cs

private theorem gets_step (F : Nat) (E : RegexLib) {σ0 σ : PsState} (h : Kept σ0 σ) {r : Reading} {cs : List Nat} (hg : Gets σ0 r cs) :
    Gets σ0 (r.step F E σ).2 cs := by
  cases hg with
  | done => exact .done _
  | kids s d key k cs o ho hc hp hg =>
    obtain ⟨o', g1, _, g3⟩ := h.1 s o ho
    have e : o'.csteps = some d := by
      rcases g3 with g3 | ⟨g3, _⟩
      · exact g3.trans hc
      · exact absurd hp (g3 d hc key)
    unfold Reading.step
    simp only [g1, e]
    exact hg
  | find d key k cs c t hd ht hne hg =>
    have e := h.2 d key c t hd ht hne
    obtain ⟨co, e2, e3⟩ : ∃ co, σ.steps[c]? = some co ∧ co.name = t := by
      unfold textOf at ht
      cases hc : σ0.steps[c]? with
      | none => rw [hc] at ht; cases ht
      | some o =>
        rw [hc] at ht
        injection ht with h2
        obtain ⟨o', g1, g2, _⟩ := h.1 c o hc
        exact ⟨o', g1, g2.trans h2⟩
    unfold Reading.step
    simp only [Option.bind_some, e, e2, e3, if_neg hne]
    exact hg

private theorem gets_path {σ0 : PsState} {s : Nat} {chain : List Str} {cs : List Nat} (h : AlreadyRead σ0 s chain cs) :
    ∀ met, Gets σ0 (getPathT s chain met) (met.reverse ++ cs) := by
  induction h with
  | nil s => intro met; rw [List.append_nil]; exact .done _
  | cons s c k t ks cs hk he ht hne _ ih =>
    intro met
    obtain ⟨o, ho, hd⟩ := he
    unfold getPathT getAttrT
    rw [if_neg (show k ∉ plainAttrs from hk.1), if_neg (by
      rintro (h | h)
      · have := hk.2.1
        rw [show "_".toList = ['_'] from rfl] at this
        rw [this] at h
        cases h
      · exact hk.2.2 h)]
    unfold PsState.kids at hd
    cases hc : o.csteps with
    | none => rw [hc] at hd; cases hd
    | some d =>
      rw [hc] at hd
      refine .kids s d k _ _ o ho hc ⟨c, t, hd, ht, hne⟩ (.find d k _ _ c t hd ht hne ?_)
      have := ih (c :: met)
      simpa using this

/-- C165. A thread that reads a chain of attributes which had been read before gets the very steps that are there, whatever the other
threads read, and in whatever order they go on. -/
theorem C165_reread (F : Nat) (E : RegexLib) (σ : PsState) (ts : List ThreadRead) (js : List Nat) (j : Nat) (t : ThreadRead) (cs : List Nat)
    (ht : ts[j]? = some t) (h : AlreadyRead σ t.from_ t.chain cs) (r : Except PyErr (List Nat))
    (hr : ReadTo ((Readers.start σ ts).run F E js) j r) : r = .ok cs := by
  have key : ∀ (js : List Nat) (c : Readers), Kept σ c.shared → (∀ (j : Nat) (r : Reading), c.threads[j]? = some r → Safe σ r c.shared) →
      (∃ x, c.threads[j]? = some x ∧ Gets σ x cs) → ∃ x, (c.run F E js).threads[j]? = some x ∧ Gets σ x cs := by
    intro js
    induction js with
    | nil => exact fun c _ _ h => h
    | cons i js ih =>
      intro c h1 h2 h3
      obtain ⟨g1, g2⟩ := kept_run F E [i] c h1 h2
      refine ih (c.step F E i) g1 g2 ?_
      obtain ⟨x, h3, h4⟩ := h3
      rw [step_at]
      split
      · rw [h3]
        exact ⟨_, rfl, gets_step F E h1 h4⟩
      · exact ⟨x, h3, h4⟩
  have key := key js (Readers.start σ ts) (kept_start F E σ ts []) (kept_safe σ ts) ⟨getPathT t.from_ t.chain [], by
    unfold Readers.start
    rw [List.getElem?_map, ht]
    rfl, gets_path h []⟩
  obtain ⟨x, h1, h2⟩ := key
  unfold ReadTo at hr
  rw [hr] at h1
  cases h1
  cases h2
  rfl

/-! ### The texts of the steps, without mappings -/

private def Longer (σ σ' : PsState) : Prop := ∀ c t, textOf σ c = some t → textOf σ' c = some t

/-- What is left to do ends with steps that have these texts. -/
private def Fine (path : List Str) : Reading → PsState → Prop
  | .done r, σ => ∃ cs, r = .ok cs ∧ cs.map (textOf σ) = path.map some
  | .kids s k, σ => (∃ t, textOf σ s = some t) ∧ ∀ σ', Longer σ σ' → ∀ d, Fine path (k d) σ'
  | .find _ key k, σ => ∀ σ', Longer σ σ' → ∀ c, (∀ x, c = some x → textOf σ' x = some key) → Fine path (k c) σ'
  | .test _ k, σ => ∀ σ', Longer σ σ' → ∀ d, Fine path (k d) σ'
  | .newKids s k, σ => (∃ t, textOf σ s = some t) ∧ ∀ σ', Longer σ σ' → ∀ d, Fine path (k d) σ'
  | .existing _ key k, σ => ∀ σ', Longer σ σ' → ∀ c, (∀ x, c = some x → textOf σ' x = some key) → Fine path (k c) σ'
  | .make _ key ex k, σ => (∀ x, ex = some x → textOf σ x = some key) ∧
      ∀ σ', Longer σ σ' → ∀ c, textOf σ' c = some key → Fine path (k (.ok c)) σ'
  | .store _ key c k, σ => textOf σ c = some key ∧ ∀ σ', Longer σ σ' → Fine path k σ'

private theorem fine_mono {path : List Str} {σ σ' : PsState} (h : Longer σ σ') {r : Reading} (hf : Fine path r σ) : Fine path r σ' := by
  have tr : ∀ {σ''}, Longer σ' σ'' → Longer σ σ'' := fun g c t e => g c t (h c t e)
  cases r with
  | done r =>
    obtain ⟨cs, rfl, h2⟩ := hf
    refine ⟨cs, rfl, ?_⟩
    clear tr
    induction cs generalizing path with
    | nil => exact h2
    | cons c cs ih =>
      cases path with
      | nil => cases h2
      | cons p ps =>
        simp only [List.map_cons, List.cons.injEq] at h2 ⊢
        exact ⟨h _ _ h2.1, ih h2.2⟩
  | kids s k => exact ⟨hf.1.imp (fun t e => h _ _ e), fun σ'' g => hf.2 σ'' (tr g)⟩
  | newKids s k => exact ⟨hf.1.imp (fun t e => h _ _ e), fun σ'' g => hf.2 σ'' (tr g)⟩
  | make s key ex k => exact ⟨fun x e => h _ _ (hf.1 x e), fun σ'' g => hf.2 σ'' (tr g)⟩
  | store d key c k => exact ⟨h _ _ hf.1, fun σ'' g => hf.2 σ'' (tr g)⟩
  | _ => exact fun σ'' g => hf σ'' (tr g)

private theorem named_get {σ : PsState} (h : NamedAsRead σ) {d : Nat} {key : Str} {c : Nat}
    (e : dget ((σ.dicts[d]?).getD []) key = some c) : textOf σ c = some key := by
  cases hd : σ.dicts[d]? with
  | none => rw [hd] at e; cases e
  | some kids =>
    rw [hd] at e
    obtain ⟨b, a, h1, _⟩ := (dget_eq_some_iff _ _ _).1 e
    refine h d kids hd key c ?_
    rw [show kids = _ from h1]
    simp

private theorem textOf_append (σ : PsState) (ps : List PmodObj) (o : StepObj) (ds : List (List (Str × Nat))) :
    Longer σ ⟨ps, σ.steps ++ [o], ds⟩ ∧ textOf ⟨ps, σ.steps ++ [o], ds⟩ σ.steps.length = some o.name := by
  constructor
  · intro c t h
    unfold textOf at h ⊢
    cases hc : σ.steps[c]? with
    | none => rw [hc] at h; cases h
    | some x =>
      dsimp only
      rw [List.getElem?_append_left (List.getElem?_eq_some_iff.1 hc).1]
      exact h
  · simp [textOf]

private theorem without_append {σ : PsState} (h : WithoutMappings σ) (ps : List PmodObj) {o : StepObj} (ho : o.pmod = none)
    (ds : List (List (Str × Nat))) : WithoutMappings ⟨ps, σ.steps ++ [o], ds⟩ := by
  intro s x hx
  dsimp only at hx
  rw [List.getElem?_append] at hx
  split at hx
  · exact h s x hx
  · have := List.mem_of_getElem? hx
    simp only [List.mem_singleton] at this
    rw [this]
    exact ho

private theorem make_named (F : Nat) (E : RegexLib) {σ : PsState} (h1 : WithoutMappings σ) (h2 : NamedAsRead σ) (s : Nat) (key : Str)
    (ex : Option Nat) (hex : ∀ x, ex = some x → textOf σ x = some key) :
    ∃ σ' c, newStep F E σ key (existingOr σ ex ((σ.steps[s]?).bind StepObj.pmod)) none [] = (σ', .ok c) ∧ WithoutMappings σ' ∧
      NamedAsRead σ' ∧ Longer σ σ' ∧ textOf σ' c = some key := by
  have hp : (σ.steps[s]?).bind StepObj.pmod = none := by
    cases hs : σ.steps[s]? with
    | none => rfl
    | some o => exact h1 s o hs
  have named : ∀ (ps : List PmodObj) (o : StepObj) (ds : List (List (Str × Nat))), (∀ (d : Nat) (kids : List (Str × Nat)), ds[d]? = some kids → kids = [] ∨ ∃ d' : Nat, σ.dicts[d']? = some kids) →
      NamedAsRead ⟨ps, σ.steps ++ [o], ds⟩ := by
    intro ps o ds hds d kids hd k c hk
    rcases hds d kids hd with rfl | ⟨d', h⟩
    · cases hk
    · exact (textOf_append σ ps o ds).1 _ _ (h2 d' kids h k c hk)
  have fresh : ∃ σ' c, newStep F E σ key .none none [] = (σ', .ok c) ∧ WithoutMappings σ' ∧ NamedAsRead σ' ∧ Longer σ σ' ∧
      textOf σ' c = some key :=
    ⟨_, _, rfl, without_append h1 _ rfl _, named _ _ _ (fun d kids h => .inr ⟨d, h⟩), (textOf_append σ _ _ _).1, (textOf_append σ _ _ _).2⟩
  rw [hp]
  unfold existingOr
  cases ex with
  | none => exact fresh
  | some e =>
    have he := hex e rfl
    unfold textOf at he
    cases ho : σ.steps[e]? with
    | none => rw [ho] at he; cases he
    | some o =>
      rw [ho] at he
      dsimp only
      simp only [ho]
      by_cases hne : o.name = []
      · rw [if_pos hne]
        exact fresh
      · rw [if_neg hne]
        unfold newStep
        dsimp only
        rw [ho]
        dsimp only
        rw [if_neg hne]
        unfold cloneStep
        dsimp only
        have hkids : σ.kids o = [] ∨ ∃ d : Nat, σ.dicts[d]? = some (σ.kids o) := by
          unfold PsState.kids
          cases o.csteps with
          | none => exact .inl rfl
          | some d =>
            dsimp only
            cases hd : σ.dicts[d]? with
            | none => exact .inl rfl
            | some x => exact .inr ⟨d, hd⟩
        split
        · exact ⟨_, _, rfl, without_append h1 _ (by exact h1 e o ho) _, named _ _ _ (fun d kids h => .inr ⟨d, h⟩), (textOf_append σ _ _ _).1,
            (textOf_append σ _ _ _).2⟩
        · refine ⟨_, _, rfl, without_append h1 _ (by exact h1 e o ho) _, named _ _ _ (fun d kids h => ?_), (textOf_append σ _ _ _).1,
            (textOf_append σ _ _ _).2⟩
          rw [List.getElem?_append] at h
          split at h
          · exact .inr ⟨d, h⟩
          · have := List.mem_of_getElem? h
            simp only [List.mem_singleton] at this
            rw [this]
            exact hkids

private theorem fine_step (F : Nat) (E : RegexLib) {path : List Str} {σ : PsState} (h1 : WithoutMappings σ) (h2 : NamedAsRead σ) {r : Reading}
    (hf : Fine path r σ) : WithoutMappings (r.step F E σ).1 ∧ NamedAsRead (r.step F E σ).1 ∧ Longer σ (r.step F E σ).1 ∧
      Fine path (r.step F E σ).2 (r.step F E σ).1 := by
  have rf : Longer σ σ := fun _ _ e => e
  cases r with
  | done r => exact ⟨h1, h2, rf, hf⟩
  | kids s k =>
    obtain ⟨⟨t, ht⟩, hf⟩ := hf
    unfold textOf at ht
    unfold Reading.step
    dsimp only
    cases ho : σ.steps[s]? with
    | none => rw [ho] at ht; cases ht
    | some o => exact ⟨h1, h2, rf, hf σ rf _⟩
  | find d key k =>
    refine ⟨h1, h2, rf, hf σ rf _ ?_⟩
    intro x hx
    cases d with
    | none => cases hx
    | some d =>
      simp only [Option.bind_some] at hx
      split at hx
      · cases hx
      · next c hc =>
        split at hx
        · cases hx
        · split at hx
          · cases hx
          · cases hx
            exact named_get h2 hc
  | test d k => exact ⟨h1, h2, rf, hf σ rf _⟩
  | newKids s k =>
    obtain ⟨⟨t, ht⟩, hf⟩ := hf
    unfold textOf at ht
    unfold Reading.step
    dsimp only
    cases ho : σ.steps[s]? with
    | none => rw [ho] at ht; cases ht
    | some o =>
      dsimp only
      have hl : Longer σ { σ with
          dicts := σ.dicts ++ [[]]
          steps := σ.steps.set s { o with csteps := some σ.dicts.length } } := by
        intro c t h
        unfold textOf at h ⊢
        dsimp only
        rw [List.getElem?_set]
        split
        · next e =>
          subst e
          rw [ho] at h
          rw [if_pos (List.getElem?_eq_some_iff.1 ho).1]
          exact h
        · exact h
      refine ⟨?_, ?_, hl, hf _ hl _⟩
      · intro s' x hx
        dsimp only at hx
        rw [List.getElem?_set] at hx
        split at hx
        · split at hx
          · cases hx; exact h1 s o ho
          · cases hx
        · exact h1 s' x hx
      · intro d kids hd k c hk
        dsimp only at hd
        rw [List.getElem?_append] at hd
        split at hd
        · exact hl _ _ (h2 d kids hd k c hk)
        · have := List.mem_of_getElem? hd
          simp only [List.mem_singleton] at this
          rw [this] at hk
          cases hk
  | existing d key k => exact ⟨h1, h2, rf, hf σ rf _ (fun x hx => named_get h2 hx)⟩
  | make s key ex k =>
    obtain ⟨σ', c, e, g1, g2, g3, g4⟩ := make_named F E h1 h2 s key ex hf.1
    unfold Reading.step
    dsimp only
    rw [e]
    exact ⟨g1, g2, g3, hf.2 σ' g3 c g4⟩
  | store d key c k =>
    refine ⟨h1, ?_, rf, hf.2 _ rf⟩
    intro d' kids hd k' c' hk
    change (σ.dicts.set d (dset ((σ.dicts[d]?).getD []) key c))[d']? = some kids at hd
    show textOf σ c' = some k'
    rw [List.getElem?_set] at hd
    split at hd
    · next e =>
      subst e
      split at hd
      · cases hd
        rcases mem_dset_cases hk with hk | hk
        · cases hdd : σ.dicts[d]? with
          | none => rw [hdd] at hk; cases hk
          | some kids => rw [hdd] at hk; exact h2 d kids hdd k' c' hk
        · cases hk
          exact hf.1
      · cases hd
    · exact h2 d' kids hd k' c' hk

private theorem fine_path (names : List Str) : ∀ (chain : List Str) (s : Nat) (met : List Nat) (before : List Str) (σ : PsState),
    (∀ k ∈ chain, StepName k) → names = before ++ chain → met.reverse.map (textOf σ) = before.map some → (∃ t, textOf σ s = some t) →
    Fine names (getPathT s chain met) σ
  | [], s, met, before, σ, _, e, hm, _ => ⟨_, rfl, by rw [e, List.append_nil]; exact hm⟩
  | a :: as, s, met, before, σ, hn, e, hm, hs => by
    have cont : ∀ c σ', Longer σ σ' → textOf σ' c = some a → Fine names (getPathT c as (c :: met)) σ' := by
      intro c σ' hl hc
      refine fine_path names as c (c :: met) (before ++ [a]) σ' (fun k hk => hn k (List.mem_cons_of_mem _ hk)) (by rw [e]; simp) ?_ ⟨a, hc⟩
      obtain ⟨cs, e1, e2⟩ := fine_mono (r := .done (.ok met.reverse)) (path := before) hl ⟨_, rfl, hm⟩
      cases e1
      simp only [List.reverse_cons, List.map_append, List.map_cons, List.map_nil, hc]
      rw [e2]
    have hk := hn a (List.mem_cons_self ..)
    unfold getPathT getAttrT
    rw [if_neg (show a ∉ plainAttrs from hk.1), if_neg (by
      rintro (h | h)
      · have := hk.2.1
        rw [show "_".toList = ['_'] from rfl] at this
        rw [this] at h
        cases h
      · exact hk.2.2 h)]
    refine ⟨hs, fun σ1 l1 d σ2 l2 c hc => ?_⟩
    have l12 : Longer σ σ2 := fun _ _ h => l2 _ _ (l1 _ _ h)
    cases c with
    | some c => exact cont c σ2 l12 (hc c rfl)
    | none =>
      have hst : ∀ d ex σ3, Longer σ2 σ3 → (∀ x, ex = some x → textOf σ3 x = some a) → Fine names (storeT s d a ex (fun r => match r with
          | .ok (some c) => getPathT c as (c :: met)
          | .ok none => .done (.error .attributeError)
          | .error e => .done (.error e))) σ3 := by
        intro d ex σ3 l3 hex
        refine ⟨hex, fun σ4 l4 c hc => ⟨hc, fun σ5 l5 => cont c σ5 (fun _ _ h => l5 _ _ (l4 _ _ (l3 _ _ (l12 _ _ h)))) (l5 _ _ hc)⟩⟩
      have hs2 : ∃ t, textOf σ2 s = some t := hs.imp (fun t h => l12 _ _ h)
      refine ⟨hs2, fun σ3 l3 d σ4 l4 d' => ?_⟩
      have l24 : Longer σ2 σ4 := fun _ _ h => l4 _ _ (l3 _ _ h)
      cases d' with
      | none => exact ⟨hs2.imp (fun t h => l24 _ _ h), fun σ5 l5 d => hst d none σ5 (fun _ _ h => l5 _ _ (l24 _ _ h)) (fun x h => by cases h)⟩
      | some d => exact fun σ5 l5 ex hex => hst d ex σ5 (fun _ _ h => l5 _ _ (l24 _ _ h)) hex

/-- C165, for steps without mappings, whose children have the texts of their attributes. Whatever chains of attributes threads read from them,
and in whatever order the threads go on: no thread raises, and the steps that a thread gets have the names of its chain as texts.
Missing for the full property: mappings, which may be lost (`C165_alias_refuted`), and steps that other threads get (`C165_paths_refuted`). -/
theorem C165_texts_partial (F : Nat) (E : RegexLib) (σ : PsState) (hm : WithoutMappings σ) (hk : NamedAsRead σ) (ts : List ThreadRead)
    (hs : ∀ t ∈ ts, t.from_ < σ.steps.length) (hn : ∀ t ∈ ts, ∀ k ∈ t.chain, StepName k) (js : List Nat) (j : Nat) (t : ThreadRead)
    (ht : ts[j]? = some t) (r : Except PyErr (List Nat)) (hr : ReadTo ((Readers.start σ ts).run F E js) j r) :
    ∃ cs, r = .ok cs ∧ cs.map (textOf ((Readers.start σ ts).run F E js).shared) = t.chain.map some := by
  have key : ∀ (js : List Nat) (c : Readers), WithoutMappings c.shared → NamedAsRead c.shared →
      (∀ (j : Nat) (r : Reading), c.threads[j]? = some r → ∃ t : ThreadRead, ts[j]? = some t ∧ Fine t.chain r c.shared) →
      ∀ (j : Nat) (r : Reading), (c.run F E js).threads[j]? = some r → ∃ t : ThreadRead, ts[j]? = some t ∧ Fine t.chain r (c.run F E js).shared := by
    intro js
    induction js with
    | nil => exact fun c _ _ h => h
    | cons i js ih =>
      intro c h1 h2 h
      show ∀ (j : Nat) (r : Reading), ((c.step F E i).run F E js).threads[j]? = some r → _
      cases hi : c.threads[i]? with
      | none =>
        have e : c.step F E i = c := by unfold Readers.step; rw [hi]
        have := ih c h1 h2 h
        rw [← e] at this
        exact this
      | some x =>
        obtain ⟨u, hu, hfu⟩ := h i x hi
        obtain ⟨g1, g2, g3, g4⟩ := fine_step F E h1 h2 hfu
        have e : (c.step F E i).shared = (x.step F E c.shared).1 := by unfold Readers.step; rw [hi]
        refine ih (c.step F E i) (e ▸ g1) (e ▸ g2) ?_
        intro j r hj
        rw [step_at] at hj
        rw [e]
        split at hj
        · next eij =>
          subst eij
          rw [hi] at hj
          cases hj
          exact ⟨u, hu, g4⟩
        · obtain ⟨v, hv, hfv⟩ := h j r hj
          exact ⟨v, hv, fine_mono g3 hfv⟩
  obtain ⟨t', e, hf⟩ := key js (Readers.start σ ts) hm hk (by
    intro j r hj
    unfold Readers.start at hj
    rw [List.getElem?_map] at hj
    cases hjt : ts[j]? with
    | none => rw [hjt] at hj; cases hj
    | some t =>
      rw [hjt] at hj
      cases hj
      have hmem := List.mem_of_getElem? hjt
      refine ⟨t, rfl, fine_path t.chain t.chain t.from_ [] [] σ (hn t hmem) rfl rfl ?_⟩
      exact ⟨_, by unfold textOf; rw [List.getElem?_eq_getElem (hs t hmem)]; rfl⟩) j _ hr
  rw [ht] at e
  cases e
  exact hf

/-! ### What goes wrong -/

/-- The texts that the threads got, in the order of the threads, and the paths that the step `0` reports afterwards. -/
def readByThreads (σ : PsState) (ts : List ThreadRead) (js : List Nat) : List (Option (List Str)) × Option (List Str) :=
  let c := (Readers.start σ ts).run 9 Tests.toy js
  (c.threads.map (fun t => match t with
    | .done (.ok cs) => some (cs.map (fun x => (textOf c.shared x).getD []))
    | _ => none), match pstepPaths 9 c.shared 0 none with
    | .ok l => some l
    | .error _ => none)

/-- C165, violated: two threads read `p.a/b` and `p.a/c` of a step without children. The first one makes the dictionary of the children of `p`
just after the second one found none and before this one makes its own: what the first one read is lost, and not among the paths of `p`. -/
theorem C165_paths_refuted :
    readByThreads ⟨[], [⟨[], [], none, none, 3, []⟩], []⟩ [⟨0, ["a".toList, "b".toList]⟩, ⟨0, ["a".toList, "c".toList]⟩]
      (List.replicate 14 0 ++ List.replicate 14 1) =
      ([some ["a".toList, "b".toList], some ["a".toList, "c".toList]], some ["/a/b".toList, "/a/c".toList]) ∧
    readByThreads ⟨[], [⟨[], [], none, none, 3, []⟩], []⟩ [⟨0, ["a".toList, "b".toList]⟩, ⟨0, ["a".toList, "c".toList]⟩]
      (List.replicate 4 1 ++ List.replicate 14 0 ++ List.replicate 14 1) =
      ([some ["a".toList, "b".toList], some ["a".toList, "c".toList]], some ["/a/c".toList]) := by
  decide +kernel

/-- C165, violated: `/a` is mapped to `x`. Two threads read `p.a`, and get steps called `x` if one goes after the other. If the second one finds
no child first, and the first one has made it when the second one comes to make it, the second one makes a copy of it which is called `a`, and so
is it for all who read it later. -/
theorem C165_alias_refuted :
    let σ := (newStep 9 Tests.toy ⟨[⟨none, [("".toList, 1)], []⟩, ⟨none, [("a".toList, 2)], []⟩, ⟨some "x".toList, [], []⟩], [], []⟩ "".toList
      (.pmod 0) none []).1
    readByThreads σ [⟨0, ["a".toList]⟩, ⟨0, ["a".toList]⟩] (List.replicate 7 0 ++ List.replicate 7 1) =
      ([some ["x".toList], some ["x".toList]], some ["/x".toList]) ∧
    readByThreads σ [⟨0, ["a".toList]⟩, ⟨0, ["a".toList]⟩] (List.replicate 2 1 ++ List.replicate 7 0 ++ List.replicate 7 1) =
      ([some ["x".toList], some ["a".toList]], some ["/a".toList]) := by
  decide +kernel

/-- A step without mappings and children, and two chains. -/
example : WithoutMappings ⟨[], [⟨[], [], none, none, 3, []⟩], []⟩ ∧ NamedAsRead ⟨[], [⟨[], [], none, none, 3, []⟩], []⟩ ∧
    (∀ k ∈ ["a".toList, "b".toList], StepName k) ∧
    (∀ j < 2, ∃ r, ReadTo ((Readers.start ⟨[], [⟨[], [], none, none, 3, []⟩], []⟩
      [⟨0, ["a".toList, "b".toList]⟩, ⟨0, ["a".toList]⟩]).run 9 Tests.toy (List.replicate 14 0 ++ List.replicate 7 1)) j r) := by
  refine ⟨?_, ?_, by unfold StepName; decide +kernel, ?_⟩
  · intro s o h
    cases s with
    | zero => cases h; rfl
    | succ s => cases h
  · intro d kids h
    cases h
  · intro j hj
    rcases j with _ | _ | j
    · exact C165_ends _ _ _ _ _ 0 _ rfl (by decide)
    · exact C165_ends _ _ _ _ _ 1 _ rfl (by decide)
    · omega

/-- A step with a child and a grandchild, read before. -/
example : AlreadyRead ⟨[], [⟨[], [], none, some 0, 3, []⟩, ⟨"a".toList, "a".toList, none, some 1, 3, []⟩,
      ⟨"x".toList, "b".toList, none, none, 3, []⟩], [[("a".toList, 1)], [("b".toList, 2)]]⟩ 0 ["a".toList, "b".toList] [1, 2] := by
  refine .cons _ _ _ "a".toList _ _ (by unfold StepName; decide +kernel) ⟨_, rfl, rfl⟩ rfl (by decide) (.cons _ _ _ "x".toList _ _
    (by unfold StepName; decide +kernel) ⟨_, rfl, rfl⟩ rfl (by decide) (.nil _))

end Props
