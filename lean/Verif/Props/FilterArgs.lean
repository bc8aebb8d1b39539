import Verif.Spec.FilterArgs
import Verif.Lemmas.Dict
/-
C142: the arguments of the element-wise filters.
-/
namespace Props
open Py Model Spec

private theorem zip_get {names : List Str} (hn : names.Nodup) : ∀ {args : List Doc} {k : Str} {v : Doc},
    dget (names.zip args) k = some v ↔ ∃ i : Nat, names[i]? = some k ∧ args[i]? = some v := by
  induction names with
  | nil => intro args k v; simp
  | cons a t ih =>
    intro args k v
    cases args with
    | nil => simp
    | cons d ds =>
      have hn' := List.nodup_cons.1 hn
      rw [List.zip_cons_cons, dget_cons]
      by_cases h : a = k
      · subst h
        rw [if_pos rfl]
        constructor
        · intro e; exact ⟨0, by simp, by simpa using e⟩
        · rintro ⟨i, h1, h2⟩
          cases i with
          | zero => simpa using h2
          | succ j =>
            simp only [List.getElem?_cons_succ] at h1
            exact absurd (List.mem_of_getElem? h1) hn'.1
      · rw [if_neg h, ih hn'.2]
        constructor
        · rintro ⟨i, h1, h2⟩; exact ⟨i + 1, by simpa using h1, by simpa using h2⟩
        · rintro ⟨i, h1, h2⟩
          cases i with
          | zero => simp at h1; exact absurd h1 h
          | succ j => exact ⟨j, by simpa using h1, by simpa using h2⟩

private theorem contains_take {names : List Str} {n : Nat} {k : Str} :
    (names.take n).contains k = true ↔ ∃ i : Nat, i < n ∧ names[i]? = some k := by
  rw [List.contains_iff_mem, List.mem_iff_getElem?]
  constructor
  · rintro ⟨i, h⟩
    rw [List.getElem?_take] at h
    split at h
    · exact ⟨i, by assumption, h⟩
    · cases h
  · rintro ⟨i, h1, h2⟩
    exact ⟨i, by rw [List.getElem?_take, if_pos h1]; exact h2⟩

theorem bindArgs_fits {names : List Str} {args : List Doc} {kwds : List (Str × Doc)} (hf : Fits names args kwds) :
    bindArgs names args kwds = .ok (fun k => match dget (names.zip args) k with
      | some d => some d
      | none => dget kwds k) := by
  unfold bindArgs
  rw [if_neg (by have := hf.few; omega)]
  refine if_neg ?_
  rw [List.any_eq_true]
  rintro ⟨kv, hkv, h⟩
  rw [Bool.or_eq_true] at h
  rcases h with h | h
  · have := hf.known kv hkv
    simp [this] at h
  · obtain ⟨i, h1, h2⟩ := contains_take.1 h
    exact hf.once kv hkv i h1 h2

theorem bindArgs_refused {names : List Str} {args : List Doc} {kwds : List (Str × Doc)} (hf : ¬ Fits names args kwds) :
    bindArgs names args kwds = .error .typeError := by
  unfold bindArgs
  by_cases h1 : names.length < args.length
  · rw [if_pos h1]
  · rw [if_neg h1]
    by_cases h2 : kwds.any (fun kv => !names.contains kv.1 || (names.take args.length).contains kv.1) = true
    · rw [if_pos h2]
    · exfalso
      rw [List.any_eq_true] at h2
      refine hf ⟨by omega, ?_, ?_⟩
      · intro kv hkv
        by_cases hm : kv.1 ∈ names
        · exact hm
        · exact absurd ⟨kv, hkv, by simp [hm]⟩ h2
      · intro kv hkv i hi he
        exact h2 ⟨kv, hkv, by rw [Bool.or_eq_true]; exact .inr (contains_take.2 ⟨i, hi, he⟩)⟩

theorem says_value {names : List Str} {args : List Doc} {kwds : List (Str × Doc)} {k : Str} {o : Option Doc}
    (hn : names.Nodup) (hk : (kwds.map Prod.fst).Nodup) (hf : Fits names args kwds) (h : SaysArg names args kwds k o) :
    (match dget (names.zip args) k with
      | some d => some d
      | none => dget kwds k) = o := by
  cases h with
  | given v hg =>
    cases hg with
    | place i h1 h2 =>
      rw [(zip_get hn).2 ⟨i, h1, h2⟩]
    | name hm =>
      cases hz : dget (names.zip args) k with
      | none => simp only; exact dget_of_mem (by simpa [dkeys] using hk) hm
      | some d =>
        obtain ⟨i, h1, h2⟩ := (zip_get hn).1 hz
        obtain ⟨hi, _⟩ := List.getElem?_eq_some_iff.1 h2
        exact absurd h1 (hf.once _ hm i hi)
  | missing hg =>
    cases hz : dget (names.zip args) k with
    | some d =>
      obtain ⟨i, h1, h2⟩ := (zip_get hn).1 hz
      exact absurd (.place i h1 h2) (hg d)
    | none =>
      simp only
      rw [dget_eq_none_iff]
      intro hm
      obtain ⟨⟨k', v⟩, hv, rfl⟩ := List.mem_map.1 hm
      exact hg v (.name hv)

private theorem texts_all (ts : List Str) : (ts.map Doc.str).all (fun x => x.text?.isSome) = true := by
  induction ts with
  | nil => rfl
  | cons t ts ih => simp only [List.map_cons, List.all_cons, ih]; rfl

private theorem texts_map (ts : List Str) : (ts.map Doc.str).filterMap Doc.text? = ts := by
  induction ts with
  | nil => rfl
  | cons t ts ih => simp only [List.map_cons, List.filterMap_cons, Doc.text?, ih]

private theorem keys_mean {o : Option Doc} {ks : Option (List Str)} (h : KeysMean o ks) :
    keysArg (o.getD .null) = .ok ks := by
  cases h with
  | missing => rfl
  | null => rfl
  | empty => rfl
  | emptyText => rfl
  | text t ht =>
    have : (Doc.str t).truthy = true := by cases t with
      | nil => exact absurd rfl ht
      | cons c cs => rfl
    simp only [keysArg, Option.getD_some, this, if_true]
  | texts ts ht =>
    have : (Doc.list (ts.map .str)).truthy = true := by cases ts with
      | nil => exact absurd rfl ht
      | cons c cs => rfl
    simp only [keysArg, Option.getD_some, this, if_true, texts_all, texts_map]

/-! A depth below zero is no limit. -/

section Depth
variable {σ : Type} (sel : Str → Bool) (pandas : Bool) (step : σ → Option Coords → Doc → Except PyErr (Option Doc × σ))

private theorem never {i : Int} (hi : i < 0) (n : Nat) : ¬ (some i = some (n : Int)) := by
  intro h; injection h with h; omega

mutual
private theorem dive_negative {i : Int} (hi : i < 0) (c : Nat) (bc : Option Coords) (s : σ) : (d : Doc) →
    dive ⟨sel, some i, pandas⟩ step c bc s d = dive ⟨sel, none, pandas⟩ step c bc s d
  | .dict kvs => by
    simp only [dive, never hi, if_false, items_negative hi c s kvs, reduceCtorEq]
  | .list xs => by
    simp only [dive, never hi, if_false, reduceCtorEq]
    cases step s bc (.list xs) with
    | error e => rfl
    | ok r =>
      obtain ⟨o, s'⟩ := r
      cases o with
      | some y => rfl
      | none => simp only [list_negative hi c bc 0 s' xs]
  | .null => by simp only [dive, diveLeaf, never hi, if_false, reduceCtorEq]
  | .bool b => by simp only [dive, diveLeaf, never hi, if_false, reduceCtorEq]
  | .int j => by simp only [dive, diveLeaf, never hi, if_false, reduceCtorEq]
  | .atom t => by simp only [dive, diveLeaf, never hi, if_false, reduceCtorEq]
  | .str t => by simp only [dive, diveLeaf, never hi, if_false, reduceCtorEq]

private theorem list_negative {i : Int} (hi : i < 0) (c : Nat) (bc : Option Coords) (j : Nat) (s : σ) : (xs : List Doc) →
    diveList ⟨sel, some i, pandas⟩ step c bc j s xs = diveList ⟨sel, none, pandas⟩ step c bc j s xs
  | [] => by simp only [diveList]
  | x :: xs => by
    simp only [diveList, dive_negative hi (c + 1) _ s x]
    cases dive ⟨sel, none, pandas⟩ step (c + 1) (updBase pandas c bc j) s x with
    | error e => rfl
    | ok r => simp only [list_negative hi c bc (j + 1) r.2 xs]

private theorem items_negative {i : Int} (hi : i < 0) (c : Nat) (s : σ) : (kvs : List (Str × Doc)) →
    diveItems ⟨sel, some i, pandas⟩ step c s kvs = diveItems ⟨sel, none, pandas⟩ step c s kvs
  | [] => by simp only [diveItems]
  | (k, x) :: kvs => by
    simp only [diveItems]
    split
    · rw [dive_negative hi (c + 1) none s x]
      cases dive ⟨sel, none, pandas⟩ step (c + 1) none s x with
      | error e => rfl
      | ok r => simp only [items_negative hi c r.2 kvs]
    · rw [items_negative hi c s kvs]
end
end Depth

variable {S : Type} (pandas : Bool) (A : SheetApi S) (jsonLoads : Str → Option Doc) (R : Ranger S) (l : Lasso S)

private theorem depth_mean (ef : EFun S) (fs : List Doc) (incl excl : Option (List Str)) {o : Option Doc} {d : Option Int}
    (h : DepthMeans o d) :
    R.elementwise pandas ef fs incl excl (depthArg (o.getD (.int (-1)))) l = R.elementwise pandas ef fs incl excl d l := by
  have main : ∀ i : Int, i < 0 → R.elementwise pandas ef fs incl excl (some i) l = R.elementwise pandas ef fs incl excl none l := by
    intro i hi
    simp only [Ranger.elementwise, dive_negative (included incl excl) pandas (R.callElement ef l) hi]
  cases h with
  | missing => exact main (-1) (by omega)
  | null => rfl
  | negative i hi => exact main i hi
  | number n => rfl
  | flag b => cases b <;> rfl

private theorem filters_mean {o : Option Doc} {fs : List Doc} (h : FiltersMean o fs) : iterArg (o.getD (.list [])) = .ok fs := by
  cases h <;> rfl

private theorem switch_mean {o : Option Doc} {b : Bool} (h : SwitchMeans o b) : (o.getD (.bool false)).truthy = b := by
  cases h with
  | missing => rfl
  | given b => cases b <;> rfl

private theorem recurse_names : recurseNames = recurseParams := rfl
private theorem pyeval_names : pyevalNames = pyevalParams := rfl
private theorem recurse_nodup : recurseParams.Nodup := by decide +kernel
private theorem pyeval_nodup : pyevalParams.Nodup := by decide +kernel

/-- C142. A call of `recurse` that fits its parameters expands the references among the elements selected by the keys and the depth that it
asks for, by place or by name: all keys and any depth if they are not given, null or empty, or if the depth is negative; a text stands for the
list of it. -/
theorem C142_recurse (args : List Doc) (kwds : List (Str × Doc)) (hk : (kwds.map Prod.fst).Nodup) (hf : Fits recurseParams args kwds)
    (of oi oe od : Option Doc) (fs : List Doc) (incl excl : Option (List Str)) (depth : Option Int)
    (sf : SaysArg recurseParams args kwds "filters".toList of) (mf : FiltersMean of fs)
    (si : SaysArg recurseParams args kwds "include".toList oi) (mi : KeysMean oi incl)
    (se : SaysArg recurseParams args kwds "exclude".toList oe) (me : KeysMean oe excl)
    (sd : SaysArg recurseParams args kwds "depth".toList od) (md : DepthMeans od depth) :
    (FilterKind.recurse : FilterKind S).func pandas A jsonLoads R l args kwds =
      (R.elementwise pandas (recurseElement (R.doLasso A jsonLoads)) fs incl excl depth l).map .lasso := by
  simp only [FilterKind.func, recurse_names, pyeval_names, elementArgs, bindArgs_fits hf, says_value recurse_nodup hk hf sf, says_value recurse_nodup hk hf si,
    says_value recurse_nodup hk hf se, says_value recurse_nodup hk hf sd, filters_mean mf, keys_mean mi, keys_mean me]
  rw [depth_mean pandas R l _ fs incl excl md]

/-- C142. The same for `pyeval`, with `eval_all`, false if it is not given. -/
theorem C142_pyeval (eval : Evaluator S) (args : List Doc) (kwds : List (Str × Doc)) (hk : (kwds.map Prod.fst).Nodup)
    (hf : Fits pyevalParams args kwds) (of oa oi oe od : Option Doc) (fs : List Doc) (all : Bool) (incl excl : Option (List Str))
    (depth : Option Int) (sf : SaysArg pyevalParams args kwds "filters".toList of) (mf : FiltersMean of fs)
    (sa : SaysArg pyevalParams args kwds "eval_all".toList oa) (ma : SwitchMeans oa all)
    (si : SaysArg pyevalParams args kwds "include".toList oi) (mi : KeysMean oi incl)
    (se : SaysArg pyevalParams args kwds "exclude".toList oe) (me : KeysMean oe excl)
    (sd : SaysArg pyevalParams args kwds "depth".toList od) (md : DepthMeans od depth) :
    (FilterKind.pyeval eval).func pandas A jsonLoads R l args kwds =
      (R.pyeval pandas eval fs all incl excl depth l).map .lasso := by
  simp only [FilterKind.func, recurse_names, pyeval_names, elementArgs, bindArgs_fits hf, says_value pyeval_nodup hk hf sf, says_value pyeval_nodup hk hf si,
    says_value pyeval_nodup hk hf se, says_value pyeval_nodup hk hf sd, says_value pyeval_nodup hk hf sa, filters_mean mf,
    keys_mean mi, keys_mean me, switch_mean ma, Ranger.pyeval]
  rw [depth_mean pandas R l _ fs incl excl md]

/-- C142. A call that does not fit is refused: too many arguments, a name that is not of a parameter, or a parameter given twice. -/
theorem C142_refused (args : List Doc) (kwds : List (Str × Doc)) :
    (¬ Fits recurseParams args kwds →
      (FilterKind.recurse : FilterKind S).func pandas A jsonLoads R l args kwds = .error .typeError) ∧
    (∀ eval, ¬ Fits pyevalParams args kwds →
      (FilterKind.pyeval eval).func pandas A jsonLoads R l args kwds = .error .typeError) := by
  constructor
  · intro h; simp only [FilterKind.func, recurse_names, pyeval_names, elementArgs, bindArgs_refused h]
  · intro eval h; simp only [FilterKind.func, recurse_names, pyeval_names, elementArgs, bindArgs_refused h]

/-- C142. Filters that are nothing to go through, such as null or a number, are refused as well. -/
theorem C142_no_list (args : List Doc) (kwds : List (Str × Doc)) (hk : (kwds.map Prod.fst).Nodup)
    (v : Doc) (hv : v = .null ∨ (∃ b, v = .bool b) ∨ (∃ i, v = .int i) ∨ ∃ t, v = .atom t) :
    (Fits recurseParams args kwds → SaysArg recurseParams args kwds "filters".toList (some v) →
      (FilterKind.recurse : FilterKind S).func pandas A jsonLoads R l args kwds = .error .typeError) ∧
    (∀ eval, Fits pyevalParams args kwds → SaysArg pyevalParams args kwds "filters".toList (some v) →
      (FilterKind.pyeval eval).func pandas A jsonLoads R l args kwds = .error .typeError) := by
  constructor
  · intro hf h
    simp only [FilterKind.func, recurse_names, pyeval_names, elementArgs, bindArgs_fits hf, says_value recurse_nodup hk hf h, Option.getD_some]
    rcases hv with rfl | ⟨b, rfl⟩ | ⟨i, rfl⟩ | ⟨t, rfl⟩ <;> rfl
  · intro eval hf h
    simp only [FilterKind.func, recurse_names, pyeval_names, elementArgs, bindArgs_fits hf, says_value pyeval_nodup hk hf h, Option.getD_some]
    rcases hv with rfl | ⟨b, rfl⟩ | ⟨i, rfl⟩ | ⟨t, rfl⟩ <;> rfl

/-- A call with a filter by place and keys and depth by name. -/
example : Fits recurseParams [.list [.str "pipe".toList]] [("depth".toList, .int 2), ("exclude".toList, .str "b".toList)] ∧
    SaysArg recurseParams [.list [.str "pipe".toList]] [("depth".toList, .int 2), ("exclude".toList, .str "b".toList)] "filters".toList
      (some (.list [.str "pipe".toList])) ∧
    SaysArg recurseParams [.list [.str "pipe".toList]] [("depth".toList, .int 2), ("exclude".toList, .str "b".toList)] "exclude".toList
      (some (.str "b".toList)) ∧
    SaysArg recurseParams [.list [.str "pipe".toList]] [("depth".toList, .int 2), ("exclude".toList, .str "b".toList)] "include".toList none := by
  refine ⟨⟨by decide +kernel, by decide +kernel, ?_⟩, .given _ (.place 0 rfl rfl), .given _ (.name (.tail _ (.head _))), .missing ?_⟩
  · intro kv hkv i hi
    have : i = 0 := by simp at hi; omega
    subst this
    simp at hkv
    rcases hkv with rfl | rfl <;> decide +kernel
  · intro v hv
    cases hv with
    | place i h1 h2 =>
      have : i = 0 := by
        obtain ⟨hi, _⟩ := List.getElem?_eq_some_iff.1 h2
        simp at hi; omega
      subst this
      revert h1; decide +kernel
    | name h => simp at h

/-- A call with an unknown name does not fit. -/
example : ¬ Fits recurseParams [] [("eval_all".toList, .bool true)] := by
  intro h
  have := h.known _ (List.mem_singleton.2 rfl)
  revert this
  decide +kernel

end Props
