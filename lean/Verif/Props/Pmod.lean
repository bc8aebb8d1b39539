import Verif.Lemmas.PmodBuild
import Verif.Lemmas.List
import Verif.Tests.ToyRegex
/-
C11-C15: merging, descending and building mappings.
-/
set_option linter.unusedSimpArgs false
namespace Props
open Py Model Spec

/-! ### C11 merging -/

/-- C11. At every key-path, the alias of the merge is the one of the overriding mappings if they
have one there, else that of the base. -/
theorem C11_merge_alias (x y : Pmod) (hx : DistinctKeys x) (hy : DistinctKeys y) (ks : List Key) :
    aliasAt (x.merge y) ks = (aliasAt y ks).or (aliasAt x ks) := aliasAt_merge ks x y hx hy

/-- C11. The merge has exactly the nodes of either. -/
theorem C11_merge_nodes (x y : Pmod) (hx : DistinctKeys x) (hy : DistinctKeys y) (ks : List Key) :
    (nodeAt (x.merge y) ks).isSome ↔ (nodeAt x ks).isSome ∨ (nodeAt y ks).isSome := by
  rw [nodeAt_merge _ _ _ hx hy]
  cases nodeAt x ks <;> cases nodeAt y ks <;> simp

/-- C11. At every key-path, the regexes of the base that are not overridden come first, in their
order; then those of the overriding mappings, in theirs. -/
theorem C11_merge_regex_order (x y : Pmod) (hx : DistinctKeys x) (hy : DistinctKeys y) (ks : List Key) :
    regxsAt (x.merge y) ks = (regxsAt x ks).filter (fun p => p ∉ regxsAt y ks) ++ regxsAt y ks := by
  rw [regxsAt_merge _ _ _ hx hy]; simp

/-- C11. Merging keeps dictionary keys distinct, so the laws apply to results of merges too. -/
theorem C11_merge_distinct (x y : Pmod) (hx : DistinctKeys x) (hy : DistinctKeys y) :
    DistinctKeys (x.merge y) := merge_distinct x y hx hy

private def pA (a : String) (s : List (Str × Pmod)) (r : List (Str × Pmod)) : Pmod := .mk (some a.toList) s r

/-- The docstring example of `_merge`: regex order `d c b a`. -/
example : regxsAt ((pA "pm1" [] [(['d'], pA "D" [] []), (['a'], pA "A" [] []), (['c'], pA "C" [] [])]).merge
    (pA "pm2" [] [(['b'], pA "BB" [] []), (['a'], pA "AA" [] [])])) [] = [['d'], ['c'], ['b'], ['a']] := by
  rfl

example : DistinctKeys (pA "pm1" [(['a'], pA "A" [] [])] [(['d'], pA "D" [] []), (['a'], pA "A" [] [])]) := by
  have leaf : ∀ a, DistinctKeys (pA a [] []) := fun a => .mk _ _ _ (by simp) (by simp) (by simp) (by simp)
  exact .mk _ _ _ (by simp) (by simp) (by simp [leaf]) (by simp [leaf])

/-! ### C12 algebra of merging -/

/-- C12. Merging is associative. -/
theorem C12_merge_assoc (x y z : Pmod) (hx : DistinctKeys x) (hy : DistinctKeys y) (hz : DistinctKeys z) :
    (x.merge y).merge z = x.merge (y.merge z) := merge_assoc x y z hx hy hz

/-- C12. Merging mappings with themselves changes nothing. -/
theorem C12_merge_idempotent (x : Pmod) (hx : DistinctKeys x) : x.merge x = x := merge_self x hx

/-- C12. The empty mappings are neutral. -/
theorem C12_merge_empty (x : Pmod) : Pmod.empty.merge x = x ∧ x.merge Pmod.empty = x :=
  ⟨merge_empty_left x, merge_empty_right x⟩

/-- C12. Merging is not commutative: the right argument wins. -/
theorem C12_merge_not_commutative : ∃ x y, DistinctKeys x ∧ DistinctKeys y ∧ x.merge y ≠ y.merge x := by
  refine ⟨.mk (some ['a']) [] [], .mk (some ['b']) [] [], ?_, ?_, ?_⟩
  · exact .mk _ _ _ (by simp) (by simp) (by simp) (by simp)
  · exact .mk _ _ _ (by simp) (by simp) (by simp) (by simp)
  · intro h
    have := congrArg Pmod.alias h
    rw [merge_alias, merge_alias] at this
    simp [Pmod.alias] at this

/-! ### C13 descending -/

private theorem applicable_eq (E : RegexLib) (pm : Pmod) (c : Str) :
    (pm.matchRegxs E c).map (·.1) ++ (dget pm.steps c).toList = applicable E pm c := by
  unfold applicable Pmod.matchRegxs
  congr 1
  induction pm.regxs with
  | nil => rfl
  | cons kv t ih =>
    simp only [List.filterMap_cons, List.filter_cons]
    cases h : E.fullmatch kv.1 c <;> simp [ih]

private theorem descend_eq (E : RegexLib) (pm : Pmod) (c : Str) : pm.descend E c =
    match pm.aliasOf E c with
    | .error e => .error e
    | .ok a => match Pmod.reduceMerge (applicable E pm c) with
      | some p => .ok (some p, a)
      | none => .ok (none, none) := by
  rw [← applicable_eq]
  simp only [Pmod.descend, Pmod.aliasOf]
  cases (dget pm.steps c).bind Pmod.alias with
  | some a => rfl
  | none =>
    simp only
    cases Pmod.lastAlias E (pm.matchRegxs E c).reverse <;> rfl

private theorem aliasOf_of_none (E : RegexLib) (pm : Pmod) (c : Str) (h : applicable E pm c = []) :
    pm.aliasOf E c = .ok none := by
  have hs : dget pm.steps c = none := by
    have := h
    unfold applicable at this
    simp at this
    exact this.2
  have hm : pm.matchRegxs E c = [] := by
    have h' := applicable_eq E pm c
    rw [h] at h'
    simpa using (List.append_eq_nil_iff.1 h').1
  simp [Pmod.aliasOf, hs, hm, Pmod.lastAlias]

/-- C13. `alias` and `descend` agree on the alias, for every child name. -/
theorem C13_alias_agrees (E : RegexLib) (pm : Pmod) (c : Str) :
    (pm.descend E c).map (·.2) = pm.aliasOf E c := by
  rw [descend_eq]
  cases hap : applicable E pm c with
  | nil => rw [aliasOf_of_none E pm c hap]; rfl
  | cons p ps => cases pm.aliasOf E c <;> rfl

/-- C13. Descending finds nothing exactly when no mapping applies to the child name; then there is
no alias either. -/
theorem C13_none_iff (E : RegexLib) (pm : Pmod) (c : Str) (a : Option Str) :
    pm.descend E c = .ok (none, a) ↔ applicable E pm c = [] ∧ a = none := by
  rw [descend_eq]
  cases hap : applicable E pm c with
  | nil => rw [aliasOf_of_none E pm c hap]; simp [Pmod.reduceMerge]; exact eq_comm
  | cons x xs => cases pm.aliasOf E c <;> simp [Pmod.reduceMerge]

private theorem lastAlias_iff (E : RegexLib) (c : Str) (regxs : List (Str × Pmod)) (a : Str) :
    Pmod.lastAlias E (regxs.filterMap (fun kv => (E.fullmatch kv.1 c).map (fun m => (kv.2, m)))).reverse
      = .ok (some a) ↔
    ∃ before pat p after m t, regxs = before ++ (pat, p) :: after ∧ E.fullmatch pat c = some m ∧
      p.alias = some t ∧ E.expand m t = .ok a ∧
      (∀ kv ∈ after, (E.fullmatch kv.1 c).isSome → kv.2.alias = none) := by
  induction regxs using Lemmas.snocInd with
  | nil => simp [Pmod.lastAlias]
  | append_singleton xs kv ih =>
    obtain ⟨pat, p⟩ := kv
    rw [List.filterMap_append, List.reverse_append]
    simp only [List.filterMap_cons, List.filterMap_nil]
    have key : ∀ (Q : Prop), (∃ before pat' p' after m t, xs ++ [(pat, p)] = before ++ (pat', p') :: after ∧
        E.fullmatch pat' c = some m ∧ p'.alias = some t ∧ E.expand m t = .ok a ∧
        (∀ kv ∈ after, (E.fullmatch kv.1 c).isSome → kv.2.alias = none)) ↔
        ((∃ m t, E.fullmatch pat c = some m ∧ p.alias = some t ∧ E.expand m t = .ok a) ∨
        (((E.fullmatch pat c).isSome → p.alias = none) ∧
          ∃ before pat' p' after m t, xs = before ++ (pat', p') :: after ∧
        E.fullmatch pat' c = some m ∧ p'.alias = some t ∧ E.expand m t = .ok a ∧
        (∀ kv ∈ after, (E.fullmatch kv.1 c).isSome → kv.2.alias = none))) := by
      intro _
      constructor
      · rintro ⟨before, pat', p', after, m, t, h1, h2, h3, h4, h5⟩
        rcases List.eq_nil_or_concat after with ha | ⟨after', z, ha⟩
        · subst ha
          have := List.append_inj' h1 rfl
          obtain ⟨_, h⟩ := this
          simp at h
          obtain ⟨e1, e2⟩ := h
          subst e1; subst e2
          exact Or.inl ⟨m, t, h2, h3, h4⟩
        · simp only [List.concat_eq_append] at ha
          subst ha
          have h1' : xs ++ [(pat, p)] = (before ++ (pat', p') :: after') ++ [z] := by simpa using h1
          have := List.append_inj' h1' rfl
          obtain ⟨h, hz⟩ := this
          simp at hz
          subst hz
          exact Or.inr ⟨fun hs => h5 (pat, p) (by simp) hs, before, pat', p', after', m, t, h, h2, h3, h4,
            fun kv hkv => h5 kv (by simp [hkv])⟩
      · rintro (⟨m, t, h2, h3, h4⟩ | ⟨h0, before, pat', p', after, m, t, h1, h2, h3, h4, h5⟩)
        · exact ⟨xs, pat, p, [], m, t, rfl, h2, h3, h4, by simp⟩
        · refine ⟨before, pat', p', after ++ [(pat, p)], m, t, by simp [h1], h2, h3, h4, ?_⟩
          intro kv hkv
          rcases List.mem_append.1 hkv with h | h
          · exact h5 kv h
          · simp at h; subst h; exact h0
    rw [key True]
    cases hm : E.fullmatch pat c with
    | none => simp [ih]
    | some m =>
      simp only [Option.map_some, List.reverse_cons, List.reverse_nil, List.nil_append,
        List.singleton_append, Pmod.lastAlias]
      cases hp : p.alias with
      | none => simp [ih]
      | some t => cases he : E.expand m t <;> simp [he]

/-- C13. The alias found is the effective one: the exact mapping's, else of the last matching
regex that has one. -/
theorem C13_alias_is_effective (E : RegexLib) (pm : Pmod) (c : Str) (a : Str) :
    pm.aliasOf E c = .ok (some a) ↔ EffAlias E pm c a := by
  unfold Pmod.aliasOf
  have hno : (dget pm.steps c).bind Pmod.alias = none ↔
      ∀ c', dget pm.steps c = some c' → c'.alias = none := by
    cases dget pm.steps c <;> simp
  constructor
  · intro h
    cases hc : (dget pm.steps c).bind Pmod.alias with
    | some x =>
      rw [hc] at h; simp at h; subst h
      cases hd : dget pm.steps c with
      | none => rw [hd] at hc; simp at hc
      | some p => rw [hd] at hc; exact .exact p x hd hc
    | none =>
      rw [hc] at h
      obtain ⟨before, pat, p, after, m, t, h1, h2, h3, h4, h5⟩ := (lastAlias_iff E c pm.regxs a).1 h
      exact .regex before pat p after m t a (hno.1 hc) h1 h2 h3 h4 h5
  · intro h
    cases h with
    | exact p _ hd ha => simp [hd, ha]
    | regex before pat p after m t _ h0 h1 h2 h3 h4 h5 =>
      rw [hno.2 h0]
      exact (lastAlias_iff E c pm.regxs a).2 ⟨before, pat, p, after, m, t, h1, h2, h3, h4, h5⟩

private theorem foldl_merge_distinct (ps : List Pmod) : ∀ (p : Pmod), DistinctKeys p →
    (∀ q ∈ ps, DistinctKeys q) → DistinctKeys (ps.foldl Pmod.merge p) := by
  induction ps with
  | nil => intro p h _; exact h
  | cons q qs ih =>
    intro p h h2
    exact ih _ (merge_distinct _ _ h (h2 q (by simp))) (fun x hx => h2 x (by simp [hx]))

private theorem foldl_merge_alias (ks : List Key) (ps : List Pmod) : ∀ (p : Pmod), DistinctKeys p →
    (∀ q ∈ ps, DistinctKeys q) →
    aliasAt (ps.foldl Pmod.merge p) ks = lastSome (aliasAt · ks) (p :: ps) := by
  induction ps with
  | nil => intro p _ _; simp [lastSome]
  | cons q qs ih =>
    intro p h h2
    rw [List.foldl_cons, ih _ (merge_distinct _ _ h (h2 q (by simp))) (fun x hx => h2 x (by simp [hx]))]
    simp only [lastSome, List.reverse_cons, List.findSome?_append]
    simp [List.findSome?_cons, aliasAt_merge ks p q h (h2 q (by simp))]
    cases List.findSome? (fun x => aliasAt x ks) qs.reverse <;> cases aliasAt q ks <;>
      cases aliasAt p ks <;> simp

private theorem regxsAt_nodup (ks : List Key) : ∀ (p : Pmod), DistinctKeys p → (regxsAt p ks).Nodup := by
  induction ks with
  | nil => intro p h; exact h.regxs_nodup
  | cons k ks ih =>
    intro p h
    cases k with
    | name n =>
      rw [regxsAt_name]
      cases e : dget p.steps n with
      | none => simp [regxsAt_empty]
      | some c => exact ih c (h.step e)
    | regx n =>
      rw [regxsAt_regx]
      cases e : dget p.regxs n with
      | none => simp [regxsAt_empty]
      | some c => exact ih c (h.regx e)

private theorem foldl_merge_regxs (ks : List Key) (ps : List Pmod) : ∀ (p : Pmod), DistinctKeys p →
    (∀ q ∈ ps, DistinctKeys q) →
    regxsAt (ps.foldl Pmod.merge p) ks = keepLast ((p :: ps).flatMap (regxsAt · ks)) := by
  induction ps with
  | nil => intro p h _; simp [keepLast_of_nodup (regxsAt_nodup ks p h)]
  | cons q qs ih =>
    intro p h h2
    have hq := h2 q (by simp)
    rw [List.foldl_cons, ih _ (merge_distinct _ _ h hq) (fun x hx => h2 x (by simp [hx]))]
    simp only [List.flatMap_cons, regxsAt_merge ks p q h hq]
    rw [keepLast_append, keepLast_append, keepLast_append (regxsAt p ks), keepLast_append (regxsAt q ks),
      keepLast_of_nodup (regxsAt_nodup ks p h), keepLast_of_nodup (regxsAt_nodup ks q hq),
      keepLast_of_nodup ((regxsAt_nodup ks p h).filter _), List.filter_append, List.filter_filter,
      List.filter_filter, List.append_assoc]
    congr 1
    apply List.filter_congr
    intro x _
    by_cases h1 : x ∈ regxsAt q ks <;> by_cases h3 : x ∈ qs.flatMap (regxsAt · ks) <;> simp [h1, h3]

private theorem applicable_distinct (E : RegexLib) (pm : Pmod) (hpm : DistinctKeys pm) (c : Str) :
    ∀ q ∈ applicable E pm c, DistinctKeys q := by
  intro q hq
  unfold applicable at hq
  rcases List.mem_append.1 hq with h | h
  · obtain ⟨kv, hkv, rfl⟩ := List.mem_map.1 h
    have := (List.mem_filter.1 hkv).1
    cases hpm with
    | mk a s r _ _ _ h4 => exact h4 _ this
  · simp at h; exact hpm.step h

/-- C13. The child mappings found by descending combine all that apply: at every key-path below,
the alias of the last applicable one that has one, and the regexes of all, later ones winning. -/
theorem C13_child_combines (E : RegexLib) (pm child : Pmod) (c : Str) (a : Option Str)
    (hpm : DistinctKeys pm) (h : pm.descend E c = .ok (some child, a)) (ks : List Key) :
    aliasAt child ks = lastSome (aliasAt · ks) (applicable E pm c) ∧
    regxsAt child ks = keepLast ((applicable E pm c).flatMap (regxsAt · ks)) := by
  have hd := applicable_distinct E pm hpm c
  rw [descend_eq] at h
  split at h
  · cases h
  · cases hap : applicable E pm c with
    | nil => rw [hap] at h; simp [Pmod.reduceMerge] at h
    | cons p ps =>
      rw [hap] at h hd
      simp [Pmod.reduceMerge] at h
      rw [← h.1]
      exact ⟨foldl_merge_alias ks ps p (hd p (by simp)) (fun q hq => hd q (by simp [hq])),
        foldl_merge_regxs ks ps p (hd p (by simp)) (fun q hq => hd q (by simp [hq]))⟩

/-- C13. Descending never leaves well-formed mappings. -/
theorem C13_child_distinct (E : RegexLib) (pm child : Pmod) (c : Str) (a : Option Str)
    (hpm : DistinctKeys pm) (h : pm.descend E c = .ok (some child, a)) : DistinctKeys child := by
  have hd := applicable_distinct E pm hpm c
  rw [descend_eq] at h
  split at h
  · cases h
  · cases hap : applicable E pm c with
    | nil => rw [hap] at h; simp [Pmod.reduceMerge] at h
    | cons p ps =>
      rw [hap] at h hd
      simp [Pmod.reduceMerge] at h
      rw [← h.1]
      exact foldl_merge_distinct ps p (hd p (by simp)) (fun q hq => hd q (by simp [hq]))

private def exPm : Pmod := .mk none [("a".toList, pA "A" [] [])]
  [("a*".toList, pA "AWord" [("x".toList, pA "X1" [] [])] []),
   ("a1*".toList, pA "A_&" [("x".toList, pA "X2" [] []), ("y".toList, pA "Y" [] [])] [])]

example : exPm.aliasOf Tests.toy "a".toList = .ok (some "A".toList) := by rfl
example : exPm.aliasOf Tests.toy "a12".toList = .ok (some "A_a12".toList) := by rfl
example : exPm.aliasOf Tests.toy "abc".toList = .ok (some "AWord".toList) := by rfl
example : exPm.descend Tests.toy "BAD".toList = .ok (none, none) := by rfl
example : ∃ child a, exPm.descend Tests.toy "a12".toList = .ok (some child, a) ∧
    aliasAt child [.name "x".toList] = some "X2".toList := ⟨_, _, rfl, rfl⟩

/-! ### C14, C15 building from tuples -/

private theorem lastSome_snoc {α β : Type} (f : α → Option β) (xs : List α) (x : α) :
    lastSome f (xs ++ [x]) = (f x).or (lastSome f xs) := by
  simp [lastSome, List.findSome?_cons]
  cases f x <;> simp

/-- C14. In mappings built from tuples, the alias at a key-path is the "to" of the last valid
tuple whose "from" spells that key-path; there is none if no tuple does. -/
theorem C14_alias_is_last_tuple (E : RegexLib) (tuples : List (Option Str × Option Str)) (pm : Pmod)
    (h : pmodsFromTuples E tuples = .ok pm) (ks : List Key) :
    aliasAt pm ks = lastSome (fun ft => if keysOf ft.1 = ks then some ft.2 else none) (validTuples tuples) := by
  rw [pmodsLoop_ok E tuples _ _ h]
  induction validTuples tuples using Lemmas.snocInd with
  | nil => simp [aliasAt_empty, lastSome]
  | append_singleton xs x ih =>
    rw [List.foldl_append, List.foldl_cons, List.foldl_nil, aliasAt_insert, lastSome_snoc, ih,
      ← keysOf_eq]
    split <;> simp

/-- C14. Mappings built from tuples are well-formed. -/
theorem C14_distinct (E : RegexLib) (tuples : List (Option Str × Option Str)) (pm : Pmod)
    (h : pmodsFromTuples E tuples = .ok pm) : DistinctKeys pm := by
  rw [pmodsLoop_ok E tuples _ _ h]
  induction validTuples tuples using Lemmas.snocInd with
  | nil => exact empty_distinct
  | append_singleton xs x ih =>
    rw [List.foldl_append, List.foldl_cons, List.foldl_nil]
    exact insert_distinct _ _ _ ih

/-- C14. Building fails only on a regex that does not compile. -/
theorem C14_total (E : RegexLib) (tuples : List (Option Str × Option Str))
    (h : ∀ ft ∈ validTuples tuples, ∀ p, Key.regx p ∈ keysOf ft.1 → E.compiles p = true) :
    ∃ pm, pmodsFromTuples E tuples = .ok pm := by
  suffices ∀ root, ∃ pm, pmodsLoop E root tuples = .ok pm from this _
  induction tuples with
  | nil => intro root; exact ⟨root, rfl⟩
  | cons ft rest ih =>
    intro root
    obtain ⟨f, t⟩ := ft
    have hrest : ∀ ft ∈ validTuples rest, ∀ p, Key.regx p ∈ keysOf ft.1 → E.compiles p = true := by
      intro ft' hft'
      refine h ft' ?_
      simp only [validTuples, List.filterMap_cons]
      split
      · exact hft'
      · exact List.mem_cons_of_mem _ hft'
    cases f with
    | none => simpa [pmodsLoop] using ih hrest root
    | some f => cases t with
      | none => simpa [pmodsLoop] using ih hrest root
      | some t =>
        simp only [pmodsLoop]
        split
        · exact ih hrest root
        · next he =>
          have hall : (iterPartsRelaxed f).all (fun s => !startsWith ['~'] s || E.compiles s.tail) = true := by
            rw [List.all_eq_true]
            intro s hs
            rcases keyOf_cases s with ⟨h1, h2⟩ | ⟨h1, h2⟩
            · have := h (f, t) (by simp only [validTuples, List.filterMap_cons, if_neg he]; simp) s.tail
                (by rw [keysOf_eq, ← h2]; exact List.mem_map_of_mem hs)
              simp [this]
            · simp [h1]
          rw [if_pos hall]
          exact ih hrest _

/-- C15. In mappings built from tuples, the regexes at a key-path are those mentioned right below
it, each once, ordered by their last mention: a pattern mentioned later takes precedence. -/
theorem C15_regex_order (E : RegexLib) (tuples : List (Option Str × Option Str)) (pm : Pmod)
    (h : pmodsFromTuples E tuples = .ok pm) (ks : List Key) :
    regxsAt pm ks = keepLast ((validTuples tuples).filterMap (fun ft => nextRegx ks (keysOf ft.1))) := by
  rw [pmodsLoop_ok E tuples _ _ h]
  induction validTuples tuples using Lemmas.snocInd with
  | nil => simp [regxsAt_empty, keepLast]
  | append_singleton xs x ih =>
    rw [List.foldl_append, List.foldl_cons, List.foldl_nil, regxsAt_insert, List.filterMap_append, ← keysOf_eq]
    simp only [List.filterMap_cons, List.filterMap_nil]
    cases hn : nextRegx ks (keysOf x.1) with
    | none => simp [ih]
    | some p => simp only [keepLast_snoc, ih]

private def exTuples : List (Option Str × Option Str) :=
  [(some "/~a*".toList, some "A1".toList), (some "/~b*".toList, some "B1".toList),
   (none, some "x".toList), (some "".toList, some "".toList),
   (some "/~a*/c".toList, some "C".toList), (some "/~a*".toList, some "A2".toList)]

example : ∃ pm, pmodsFromTuples Tests.toy exTuples = .ok pm ∧
    aliasAt pm [.name [], .regx "a*".toList] = some "A2".toList ∧
    regxsAt pm [.name []] = ["b*".toList, "a*".toList] := ⟨_, rfl, rfl, rfl⟩

end Props
