import Verif.Lemmas.Levels
/-
References without cycles: more stack makes no difference in the end.
-/
namespace Lemmas
open Py Model Spec

/-- At most `k` levels of lists and dictionaries. -/
def Shallow : Nat → Doc → Prop
  | 0, .list _ => False
  | 0, .dict _ => False
  | 0, _ => True
  | k + 1, .list xs => ∀ x, x ∈ xs → Shallow k x
  | k + 1, .dict kvs => ∀ kv, kv ∈ kvs → Shallow k kv.2
  | _ + 1, _ => True

theorem shallow_mono : ∀ (k : Nat) (d : Doc), Shallow k d → Shallow (k + 1) d
  | 0, .list _, h => h.elim
  | 0, .dict _, h => h.elim
  | 0, .null, _ => trivial
  | 0, .bool _, _ => trivial
  | 0, .int _, _ => trivial
  | 0, .atom _, _ => trivial
  | 0, .str _, _ => trivial
  | k + 1, .list _, h => fun x hx => shallow_mono k x (h x hx)
  | k + 1, .dict _, h => fun kv hkv => shallow_mono k kv.2 (h kv hkv)
  | _ + 1, .null, _ => trivial
  | _ + 1, .bool _, _ => trivial
  | _ + 1, .int _, _ => trivial
  | _ + 1, .atom _, _ => trivial
  | _ + 1, .str _, _ => trivial

theorem shallow_le {k m : Nat} (hkm : k ≤ m) (d : Doc) (h : Shallow k d) : Shallow m d := by
  induction hkm with
  | refl => exact h
  | step _ ih => exact shallow_mono _ d ih

mutual
theorem shallow_some : ∀ d : Doc, ∃ k, Shallow k d
  | .list xs => by
    obtain ⟨k, hk⟩ := shallow_list xs
    exact ⟨k + 1, hk⟩
  | .dict kvs => by
    obtain ⟨k, hk⟩ := shallow_items kvs
    exact ⟨k + 1, hk⟩
  | .null => ⟨0, trivial⟩
  | .bool _ => ⟨0, trivial⟩
  | .int _ => ⟨0, trivial⟩
  | .atom _ => ⟨0, trivial⟩
  | .str _ => ⟨0, trivial⟩

theorem shallow_list : ∀ xs : List Doc, ∃ k, ∀ x, x ∈ xs → Shallow k x
  | [] => ⟨0, fun _ h => nomatch h⟩
  | x :: xs => by
    obtain ⟨k, hk⟩ := shallow_some x
    obtain ⟨m, hm⟩ := shallow_list xs
    refine ⟨k + m, fun y hy => ?_⟩
    rcases List.mem_cons.1 hy with rfl | hy
    · exact shallow_le (by omega) _ hk
    · exact shallow_le (by omega) _ (hm y hy)

theorem shallow_items : ∀ kvs : List (Str × Doc), ∃ k, ∀ kv, kv ∈ kvs → Shallow k kv.2
  | [] => ⟨0, fun _ h => nomatch h⟩
  | (a, x) :: kvs => by
    obtain ⟨k, hk⟩ := shallow_some x
    obtain ⟨m, hm⟩ := shallow_items kvs
    refine ⟨k + m, fun y hy => ?_⟩
    rcases List.mem_cons.1 hy with rfl | hy
    · exact shallow_le (by omega) _ hk
    · exact shallow_le (by omega) _ (hm y hy)
end

/-- All arguments have less than `k` levels. -/
def CallShallow (k : Nat) (args : List Doc) (kwds : List (Str × Doc)) : Prop :=
  (∀ d, d ∈ args → ∃ m, m < k ∧ Shallow m d) ∧ ∀ kv, kv ∈ kwds → ∃ m, m < k ∧ Shallow m kv.2

theorem callShallow_some (args : List Doc) (kwds : List (Str × Doc)) : ∃ k, CallShallow k args kwds := by
  obtain ⟨k, hk⟩ := shallow_list args
  obtain ⟨m, hm⟩ := shallow_items kwds
  exact ⟨k + m + 1, fun d hd => ⟨k, by omega, hk d hd⟩, fun kv hkv => ⟨m, by omega, hm kv hkv⟩⟩

theorem callShallow_ddel {k : Nat} {args : List Doc} {kwds : List (Str × Doc)} (h : CallShallow k args kwds) (key : Str) :
    CallShallow k args (ddel kwds key) :=
  ⟨h.1, fun kv hkv => h.2 kv (List.mem_filter.1 hkv).1⟩

/-- What the arguments of a call-specification are: elements of a list and of a dictionary within it. -/
theorem parseCallSpec_parts {d : Doc} {c : CallSpec} (h : parseCallSpec d = .ok c) :
    (c.args = [] ∨ (∃ xs, d = .list xs ∧ .list c.args ∈ xs) ∨ ∃ kvs k, d = .dict kvs ∧ (k, .list c.args) ∈ kvs) ∧
    (c.kwds = [] ∨ (∃ xs, d = .list xs ∧ .dict c.kwds ∈ xs) ∨ ∃ kvs k, d = .dict kvs ∧ (k, .dict c.kwds) ∈ kvs) := by
  have hitems : ∀ (a b : Doc) (rest : List Doc), (∀ x, x = a ∨ x = b → x = .null ∨ x ∈ rest) →
      ∀ p : Doc × Doc, parseCallItems a b = .ok p →
      (p.1 = .null ∨ ∃ l, p.1 = .list l ∧ .list l ∈ rest) ∧ (p.2 = .null ∨ ∃ k, p.2 = .dict k ∧ .dict k ∈ rest) := by
    intro a b rest hr p hp
    unfold parseCallItems at hp
    split at hp
    all_goals cases hp
    all_goals refine ⟨?_, ?_⟩
    all_goals first
      | exact .inl rfl
      | exact .inr ⟨_, rfl, by simpa using hr _ (.inl rfl)⟩
      | exact .inr ⟨_, rfl, by simpa using hr _ (.inr rfl)⟩
  have hparts : ∀ f a k, splitCallSpec d = .ok (f, a, k) →
      (∀ l, a = .list l → (∃ xs, d = .list xs ∧ .list l ∈ xs) ∨ ∃ kvs key, d = .dict kvs ∧ (key, .list l) ∈ kvs) ∧
      (∀ l, k = .dict l → (∃ xs, d = .list xs ∧ .dict l ∈ xs) ∨ ∃ kvs key, d = .dict kvs ∧ (key, .dict l) ∈ kvs) := by
    intro f a k hs
    have hl : ∀ (g x y : Doc) (xs : List Doc), d = .list xs → (∀ z, z = x ∨ z = y → z = .null ∨ z ∈ xs) →
        (parseCallItems x y).map (fun p => (g, p.1, p.2)) = .ok (f, a, k) →
        (∀ l, a = .list l → (∃ xs, d = .list xs ∧ .list l ∈ xs) ∨ ∃ kvs key, d = .dict kvs ∧ (key, .list l) ∈ kvs) ∧
        (∀ l, k = .dict l → (∃ xs, d = .list xs ∧ .dict l ∈ xs) ∨ ∃ kvs key, d = .dict kvs ∧ (key, .dict l) ∈ kvs) := by
      intro g x y xs hd hz hm
      cases hp : parseCallItems x y with
      | error e => rw [hp] at hm; cases hm
      | ok p =>
        rw [hp] at hm
        cases hm
        have := hitems x y xs hz p hp
        constructor
        · intro l hl
          rcases this.1 with h1 | ⟨l', h1, h2⟩
          · rw [hl] at h1; cases h1
          · rw [hl] at h1; cases h1; exact .inl ⟨xs, hd, h2⟩
        · intro l hl
          rcases this.2 with h1 | ⟨l', h1, h2⟩
          · rw [hl] at h1; cases h1
          · rw [hl] at h1; cases h1; exact .inl ⟨xs, hd, h2⟩
    unfold splitCallSpec at hs
    split at hs
    · cases hs; exact ⟨fun l h => (nomatch h), fun l h => (nomatch h)⟩
    · exact hl _ _ _ _ rfl (by simp) hs
    · exact hl _ _ _ _ rfl (by simp) hs
    · exact hl _ _ _ _ rfl (by simp) hs
    · cases hs
    · rename_i kvs
      split at hs
      · split at hs
        · cases hs
          constructor
          · intro l hl
            right
            cases hg : dget kvs "args".toList with
            | none => rw [hg] at hl; cases hl
            | some v => rw [hg] at hl; cases hl; exact ⟨kvs, _, rfl, mem_of_dget hg⟩
          · intro l hl
            right
            cases hg : dget kvs "kwds".toList with
            | none => rw [hg] at hl; cases hl
            | some v => rw [hg] at hl; cases hl; exact ⟨kvs, _, rfl, mem_of_dget hg⟩
        · cases hs
      · cases hs
    · cases hs
  unfold parseCallSpec at h
  split at h
  · cases h
  · rename_i f a k hs
    have hp := hparts _ _ _ hs
    split at h
    · simp only at h
      split at h
      · cases h
      · rename_i args hargs
        split at h
        · cases h
        · rename_i kwds hkwds
          cases h
          constructor
          · split at hargs
            · cases hargs; exact .inl rfl
            · cases hargs; exact .inr (hp.1 _ rfl)
            · cases hargs
          · split at hkwds
            · cases hkwds; exact .inl rfl
            · cases hkwds; exact .inr (hp.2 _ rfl)
            · cases hkwds
    · cases h

/-- The call-specification of a value has fewer levels. -/
theorem parseCallSpec_shallow {k : Nat} {d : Doc} {c : CallSpec} (hd : Shallow k d) (h : parseCallSpec d = .ok c) :
    CallShallow k c.args c.kwds := by
  have key : ∀ x : Doc, ((∃ xs, d = .list xs ∧ x ∈ xs) ∨ ∃ kvs key, d = .dict kvs ∧ (key, x) ∈ kvs) → ∃ m, k = m + 1 ∧ Shallow m x := by
    intro x hx
    cases k with
    | zero => rcases hx with ⟨xs, rfl, -⟩ | ⟨kvs, _, rfl, -⟩ <;> exact hd.elim
    | succ m =>
      rcases hx with ⟨xs, rfl, hx⟩ | ⟨kvs, _, rfl, hx⟩
      · exact ⟨m, rfl, hd x hx⟩
      · exact ⟨m, rfl, hd _ hx⟩
  have hp := parseCallSpec_parts h
  constructor
  · intro x hx
    rcases hp.1 with h0 | h1
    · rw [h0] at hx; cases hx
    · obtain ⟨m, rfl, hm⟩ := key _ h1
      cases m with
      | zero => exact hm.elim
      | succ m => exact ⟨m, by omega, hm x hx⟩
  · intro x hx
    rcases hp.2 with h0 | h1
    · rw [h0] at hx; cases hx
    · obtain ⟨m, rfl, hm⟩ := key _ h1
      cases m with
      | zero => exact hm.elim
      | succ m => exact ⟨m, by omega, hm x hx⟩

/-- The filters among the arguments have fewer levels. -/
theorem elementArgs_shallow {k : Nat} {names : List Str} {args : List Doc} {kwds : List (Str × Doc)} {a : ElementArgs}
    (hc : CallShallow (k + 1) args kwds) (h : elementArgs names args kwds = .ok a) : ∀ f, f ∈ a.filters → Shallow k f := by
  unfold elementArgs at h
  split at h
  · cases h
  · rename_i arg harg
    have hmem : ∀ key d, arg key = some d → Shallow k d := by
      intro key d hd
      unfold bindArgs at harg
      split at harg
      · cases harg
      · split at harg
        · cases harg
        · cases harg
          simp only at hd
          split at hd
          · rename_i d' hg
            cases hd
            obtain ⟨m, hm, hs⟩ := hc.1 _ (List.of_mem_zip (mem_of_dget hg)).2
            exact shallow_le (by omega) _ hs
          · obtain ⟨m, hm, hs⟩ := hc.2 _ (mem_of_dget hd)
            exact shallow_le (by omega) _ hs
    split at h
    · cases h
    · rename_i fs hfs
      have hsh : ∀ f, f ∈ fs → Shallow k f := by
        intro f hf
        cases hg : arg "filters".toList with
        | none => rw [hg] at hfs; cases hfs; cases hf
        | some d =>
          rw [hg] at hfs
          have hd := hmem _ _ hg
          cases d with
          | list xs =>
            cases hfs
            cases k with
            | zero => exact hd.elim
            | succ k => exact shallow_mono _ _ (hd f hf)
          | str t =>
            cases hfs
            obtain ⟨c, -, rfl⟩ := List.mem_map.1 hf
            exact shallow_le (Nat.zero_le k) _ trivial
          | dict kvs =>
            cases hfs
            obtain ⟨c, -, rfl⟩ := List.mem_map.1 hf
            exact shallow_le (Nat.zero_le k) _ trivial
          | _ => cases hfs
      split at h
      · cases h
      · split at h
        · cases h
        · cases h; exact hsh

section
variable {S : Type} (U : Setup S) (D : Str → Prop)

/-- Calls on what the reference leads to settle, for these arguments. -/
def CallsSettle (Q : List Doc → List (Str × Doc) → Prop) : Prop :=
  ∀ args kwds, Q args kwds → ∀ f (l : Lasso S), Below U D l.values →
    Settles (fun n => (U.ranger n).makeCall (.lasso l) f args kwds)

variable (hm : MakeNoReferences U) (hD : Closed U D)
include hm hD

theorem pipe_settles {Q : List Doc → List (Str × Doc) → Prop} (hk : CallsSettle U D Q) :
    ∀ (fs : List Doc), (∀ f, f ∈ fs → ∀ c, parseCallSpec f = .ok c → Q c.args c.kwds) →
    ∀ l : FRes S, Below U D (valuesOf l) → Settles (fun n => (U.ranger n).pipe fs l)
  | [], _, l, _ => by simp only [Ranger.pipe]; exact settles_const _
  | f :: fs, hf, l, hl => by
    simp only [Ranger.pipe]
    split
    · exact settles_const _
    · rename_i c hc
      have hcs := hf f (List.mem_cons_self ..) c hc
      cases l with
      | other d => simp only [Ranger.makeCall]; exact settles_const _
      | lasso l =>
        refine settles_ok (f := fun n => (U.ranger n).makeCall (.lasso l) c.func c.args c.kwds) (g := fun n r => match r with
          | .error e => .error e
          | .ok l' => (U.ranger n).pipe fs l') (hk _ _ hcs c.func l hl) ?_ (fun e => settles_const _)
        rintro v ⟨n, hn⟩
        exact pipe_settles hk fs (fun g hg => hf g (List.mem_cons_of_mem _ hg)) v ((keeps_below U hm n).1 D hD l _ _ _ v hl hn)

theorem runSubs_settles {Q : List Doc → List (Str × Doc) → Prop} (hk : CallsSettle U D Q) :
    ∀ (cs : List CallSpec), (∀ c, c ∈ cs → Q c.args c.kwds) →
    ∀ l : FRes S, Below U D (valuesOf l) → Settles (fun n => (U.ranger n).runSubs cs l)
  | [], _, l, _ => by simp only [Ranger.runSubs]; exact settles_const _
  | c :: cs, hc, l, hl => by
    simp only [Ranger.runSubs]
    cases l with
    | other d => simp only [Ranger.makeCall]; exact settles_const _
    | lasso l =>
      refine settles_ok (f := fun n => (U.ranger n).makeCall (.lasso l) c.func c.args c.kwds) (g := fun n r => match r with
        | .error e => .error e
        | .ok l' => match (U.ranger n).runSubs cs l' with
          | .error e => .error e
          | .ok (l'', cs') => .ok (l'', c.popLax :: cs')) (hk _ _ (hc c (List.mem_cons_self ..)) c.func l hl) ?_ (fun e => settles_const _)
      rintro v ⟨n, hn⟩
      exact settles_of (runSubs_settles hk cs (fun g hg => hc g (List.mem_cons_of_mem _ hg)) v ((keeps_below U hm n).1 D hD l _ _ _ v hl hn))
        (fun n m e => by simp only [e])
end

/-- The call-specifications after use, without `lax`. -/
theorem runSubs_specs {S : Type} (R : Ranger S) (Q : CallSpec → Prop) (hQ : ∀ c, Q c → Q c.popLax) : ∀ (cs : List CallSpec) (l r : FRes S) cs',
    (∀ c, c ∈ cs → Q c) → R.runSubs cs l = .ok (r, cs') → ∀ c, c ∈ cs' → Q c
  | [], l, r, cs', hc, h => by simp only [Ranger.runSubs] at h; cases h; exact hc
  | c :: cs, l, r, cs', hc, h => by
    simp only [Ranger.runSubs] at h
    split at h
    · cases h
    · split at h
      · cases h
      · rename_i hk
        cases h
        intro x hx
        rcases List.mem_cons.1 hx with rfl | hx
        · exact hQ c (hc c (List.mem_cons_self ..))
        · exact runSubs_specs R Q hQ cs _ _ _ (fun g hg => hc g (List.mem_cons_of_mem _ hg)) hk x hx

theorem callElement_specs {S : Type} {R : Ranger S} {Q : CallSpec → Prop} (hQ : ∀ c, Q c → Q c.popLax) {ef : EFun S} {l : Lasso S}
    {subs subs' : List CallSpec} {bc : Option Coords} {d : Doc} {v : Option Doc} (hs : ∀ c, c ∈ subs → Q c)
    (h : R.callElement ef l subs bc d = .ok (v, subs')) : ∀ c, c ∈ subs' → Q c := by
  rw [callElement_eq] at h
  split at h
  · cases h
  · cases h; exact hs
  · split at h
    · cases h
    · rename_i hk; cases h; exact runSubs_specs R Q hQ _ _ _ _ hs hk
    · rename_i hk
      split at h
      · cases h
      · cases h; exact runSubs_specs R Q hQ _ _ _ _ hs hk

theorem parseSubs_specs {Q : CallSpec → Prop} : ∀ (fs : List Doc) (cs : List CallSpec),
    (∀ f, f ∈ fs → ∀ c, parseCallSpec f = .ok c → Q c) → parseSubs fs = .ok cs → ∀ c, c ∈ cs → Q c
  | [], cs, _, h => by simp only [parseSubs] at h; cases h; exact fun _ h => nomatch h
  | f :: fs, cs, hf, h => by
    simp only [parseSubs] at h
    split at h
    · cases h
    · rename_i hc
      split at h
      · cases h
      · rename_i hcs
        cases h
        intro c hx
        rcases List.mem_cons.1 hx with rfl | hx
        · exact hf f (List.mem_cons_self ..) _ hc
        · exact parseSubs_specs fs _ (fun g hg => hf g (List.mem_cons_of_mem _ hg)) hcs c hx

section
variable {S : Type} (U : Setup S) (D : Str → Prop) (hm : MakeNoReferences U) (hD : Closed U D)
include hm hD

theorem elementwise_settles {Q : List Doc → List (Str × Doc) → Prop} (hQ : ∀ args kwds key, Q args kwds → Q args (ddel kwds key))
    (hk : CallsSettle U D Q) (ef : Nat → EFun S) (pandas : Bool) (fs : List Doc)
    (hfs : ∀ f, f ∈ fs → ∀ c, parseCallSpec f = .ok c → Q c.args c.kwds) (incl excl : Option (List Str)) (depth : Option Int) (l : Lasso S) (hl : Below U D l.values)
    (hef : ∀ bc d, Below U D d → Settles (fun n => ef n l bc d))
    (hbelow : ∀ n bc d res, Below U D d → ef n l bc d = .ok (true, res) → Below U D (valuesOf res)) :
    Settles (fun n => (U.ranger n).elementwise pandas (ef n) fs incl excl depth l) := by
  simp only [Ranger.elementwise]
  cases hsubs : parseSubs fs with
  | error e => exact settles_const _
  | ok subs =>
    have hI := parseSubs_specs (Q := fun c => Q c.args c.kwds) fs subs hfs hsubs
    have hd := (dive_settles (σ := List CallSpec) ⟨included incl excl, depth, pandas⟩ (fun s => ∀ c, c ∈ s → Q c.args c.kwds)
      (Below U D) (fun n => (U.ranger n).callElement (ef n) l) (below_elementary U D).inherited ?_ ?_ 0 l.st subs hI l.values hl).1
    · exact settles_of hd (fun n m e => by simp only [e])
    · intro s bc d hs hd
      simp only [callElement_eq]
      refine settles_ok (f := fun n => ef n l bc d) (g := fun n r => match r with
        | .error _ => .error .valueError
        | .ok (false, _) => .ok (none, s)
        | .ok (true, res) => match (U.ranger n).runSubs s (.lasso (elementLasso l res)) with
          | .error e => .error e
          | .ok (.lasso l', subs') => .ok (some l'.values, subs')
          | .ok (.other d, subs') => if d.truthy then .error .attributeError else .ok (some d, subs')) (hef bc d hd) ?_ (fun e => settles_const _)
      rintro ⟨b, res⟩ ⟨n, hn⟩
      cases b with
      | false => exact settles_const _
      | true =>
        have h0 := hbelow n bc d res hd hn
        have h1 : Below U D (valuesOf (.lasso (elementLasso l res))) := by cases res <;> exact h0
        exact settles_of (runSubs_settles U D hm hD hk s hs _ h1) (fun n m e => by simp only [e])
    · intro n s bc d v s' hs hd h
      exact callElement_specs (Q := fun c => Q c.args c.kwds) (fun c hc => hQ _ _ _ hc) hs h

/-- If references that it leads to settle, so do calls on what it leads to, if calls within them do. -/
theorem call_settles {Q : List Doc → List (Str × Doc) → Prop} (hQ : ∀ args kwds key, Q args kwds → Q args (ddel kwds key))
    (hk : CallsSettle U D Q) (ih : ∀ u, D u → ∀ sheet st nd bc, Settles (fun n => U.doLasso n u (foundIn sheet st nd bc)))
    (args : List Doc) (kwds : List (Str × Doc)) (hargs : ∀ f, f ∈ args → ∀ c, parseCallSpec f = .ok c → Q c.args c.kwds)
    (hel : ∀ names a, elementArgs names args (ddel kwds "lax".toList) = .ok a →
      ∀ f, f ∈ a.filters → ∀ c, parseCallSpec f = .ok c → Q c.args c.kwds)
    (f : Str) (l : Lasso S) (hl : Below U D l.values) : Settles (fun n => (U.ranger n).makeCall (.lasso l) f args kwds) := by
  apply settles_succ
  cases ho : l.opts with
  | none => simp only [Ranger.makeCall, ho]; exact settles_const _
  | some opts =>
    cases hi : U.filters f with
    | none =>
      have hno : ∀ n, (U.ranger (n + 1)).filters f = none := fun n => by simp [filters_succ, hi]
      simp only [fun n => makeCall_unknown _ ho (hno n) args kwds]
      exact settles_const _
    | some i =>
      have hsome : ∀ n, (U.ranger (n + 1)).filters f = some ⟨i.1.func U.pandas U.api U.jsonLoads (U.ranger n), i.2⟩ :=
        fun n => by rw [filters_succ, hi]; rfl
      simp only [fun n => makeCall_known _ ho (hsome n) args kwds]
      suffices h : Settles (fun n => i.1.func U.pandas U.api U.jsonLoads (U.ranger n) l args (ddel kwds "lax".toList)) from
        settles_of h (fun n m e => by simp only [e])
      have hmi := hm f i hi
      obtain ⟨k, desc⟩ := i
      cases k with
      | pipe => exact pipe_settles U D hm hD hk args hargs (.lasso l) hl
      | own g => exact settles_const _
      | recurse =>
        simp only [FilterKind.func]
        cases ha : elementArgs recurseNames args (ddel kwds "lax".toList) with
        | error e => exact settles_const _
        | ok a =>
          refine settles_of (elementwise_settles U D hm hD hQ hk (fun n => recurseElement (U.doLasso n)) U.pandas a.filters (hel _ a ha) a.incl a.excl
            a.depth l hl ?_ ?_) (fun n m e => congrArg (Except.map FRes.lasso) e)
          · intro bc d hd
            cases d with
            | str u =>
              have hu : Settles (fun n => U.doLasso n u (foundIn l.sheet l.st l.nd bc)) := by
                rcases hd u .here with ⟨e, he⟩ | hd
                · rcases captured U u (foundIn l.sheet l.st l.nd bc) with ⟨e', he', -⟩ | ⟨l, p, -, -, hp, -⟩
                  · simp only [he']; exact settles_const _
                  · rw [he] at hp; cases hp
                · exact ih u hd _ _ _ _
              exact settles_of hu (fun n m e => by unfold foundIn at e; simp only [recurseElement, e])
            | _ => exact settles_const _
          · intro n bc d res hd hres
            cases d with
            | str u =>
              simp only [recurseElement] at hres
              split at hres
              · rename_i r' hr'
                cases hres
                rcases hd u .here with ⟨e, he⟩ | hd
                · rcases captured U u (foundIn l.sheet l.st l.nd bc) with ⟨e', he', -⟩ | ⟨l, p, -, -, hp, -⟩
                  · have := (he' n).symm.trans hr'
                    cases this
                  · rw [he] at hp; cases hp
                · exact below_trans U hD ((keeps_below U hm n).2 u _ _ _ _ _ hr') hd
              · cases hres
              · cases hres
            | _ => simp [recurseElement] at hres
      | pyeval eval =>
        simp only [FilterKind.func]
        cases ha : elementArgs pyevalNames args (ddel kwds "lax".toList) with
        | error e => exact settles_const _
        | ok a =>
          refine settles_of (elementwise_settles U D hm hD hQ hk (fun _ => pyevalElement eval a.evalAll) U.pandas a.filters (hel _ a ha) a.incl a.excl
            a.depth l hl (fun _ _ _ => settles_const _) ?_) (fun n m e => congrArg (Except.map FRes.lasso) e)
          intro n bc d res hd hres
          cases d with
          | str u =>
            simp only [pyevalElement] at hres
            split at hres
            · split at hres <;> cases hres
            · rename_i r' hr'
              cases hres
              have : ∀ w, TextIn w (valuesOf (.lasso (evaluated l r'))) → TextIn w (valuesOf r') := by
                intro w hw
                cases r' with
                | lasso m =>
                  simp only [evaluated] at hw
                  split at hw <;> exact hw
                | other d => exact hw
              intro w hw
              rcases hmi u l bc r' hr' w (this w hw) with h' | h'
              · exact hl w h'
              · exact .inl h'
          | _ => simp [pyevalElement] at hres

theorem calls_settle (ih : ∀ u, D u → ∀ sheet st nd bc, Settles (fun n => U.doLasso n u (foundIn sheet st nd bc))) :
    ∀ k, CallsSettle U D (CallShallow k)
  | 0 => by
    intro args kwds hc f l hl
    have hargs : args = [] := List.eq_nil_iff_forall_not_mem.2 (fun d hd => by obtain ⟨m, hm, -⟩ := hc.1 d hd; omega)
    have hkwds : kwds = [] := List.eq_nil_iff_forall_not_mem.2 (fun d hd => by obtain ⟨m, hm, -⟩ := hc.2 d hd; omega)
    subst hargs hkwds
    refine call_settles U D hm hD (Q := fun _ _ => False) (fun _ _ _ h => h) (fun _ _ h => h.elim) ih [] [] (fun f hf => nomatch hf) ?_ f l hl
    intro names a ha f hf
    have hfs : a.filters = [] := by
      unfold elementArgs at ha
      split at ha
      · cases ha
      · rename_i arg harg
        have hnone : ∀ key, arg key = none := by
          unfold bindArgs at harg
          split at harg
          · cases harg
          · split at harg
            · cases harg
            · cases harg
              intro key
              simp [ddel]
        rw [hnone] at ha
        simp only [Option.getD_none, iterArg] at ha
        split at ha
        · cases ha
        · split at ha
          · cases ha
          · cases ha; rfl
    rw [hfs] at hf
    cases hf
  | k + 1 => by
    intro args kwds hc f l hl
    refine call_settles U D hm hD (Q := CallShallow k) (fun _ _ _ h => callShallow_ddel h _) (calls_settle ih k) ih args kwds ?_ ?_ f l hl
    · intro f hf c hfc
      obtain ⟨m, hmk, hs⟩ := hc.1 f hf
      exact parseCallSpec_shallow (shallow_le (by omega) _ hs) hfc
    · intro names a ha f hf c hfc
      exact parseCallSpec_shallow (elementArgs_shallow (callShallow_ddel hc _) ha f hf) hfc
end

theorem settles_found {S : Type} (U : Setup S) (hm : MakeNoReferences U) (hw : NoCycles U) (t : Str) (sheet : Option S)
    (st nd bc : Option Coords) : Settles (fun n => U.doLasso n t (foundIn sheet st nd bc)) := by
  have hw' : WellFounded (Relation.TransGen (Leads U)) := hw.transGen
  induction t using hw'.induction generalizing sheet st nd bc with
  | _ t ih =>
    rcases captured U t (foundIn sheet st nd bc) with ⟨e, he, -⟩ | ⟨l, p, hc, hl, -⟩
    · simp only [he]; exact settles_const _
    · simp only [hl, Ranger.runFilters]
      cases l.callSpec with
      | none => exact settles_const _
      | some c =>
        obtain ⟨k, hk⟩ := callShallow_some c.args c.kwds
        exact settles_of (calls_settle U _ hm (closed_from U t) (fun u hu => ih u hu) k c.args c.kwds hk c.func l (below_captured U hc))
          (fun n m e => by simp only [e])

theorem settles_all {S : Type} (U : Setup S) (hm : MakeNoReferences U) (hw : NoCycles U) (t : Str) (ctx : Lasso S) :
    Settles (fun n => U.doLasso n t ctx) := by
  rcases captured U t ctx with ⟨e, he, -⟩ | ⟨l, p, hc, hl, -⟩
  · simp only [he]; exact settles_const _
  · simp only [hl, Ranger.runFilters]
    cases l.callSpec with
    | none => exact settles_const _
    | some c =>
      obtain ⟨k, hk⟩ := callShallow_some c.args c.kwds
      exact settles_of (calls_settle U (fun _ => True) hm (fun _ _ _ _ => trivial) (fun u _ => settles_found U hm hw u) k c.args c.kwds hk
        c.func l (fun _ _ => .inr trivial)) (fun n m e => by simp only [e])

end Lemmas
