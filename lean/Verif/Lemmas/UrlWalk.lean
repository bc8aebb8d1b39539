import Verif.Lemmas.UrlPaths
/-
Lemmas about joining plain paths to the URL of the working folder.
-/
namespace Lemmas
open Py Model Spec

theorem getLastD_snoc (x : Str) (l : List Str) (s : Str) : (x :: (l ++ [s])).getLastD [] = s := by
  rw [← List.cons_append, List.getLastD_concat]

theorem pathWalk_append (h a b : List Str) : walk h (a ++ b) = walk (walk h a) b := by
  induction a generalizing h with
  | nil => rfl
  | cons s a ih =>
    simp only [List.cons_append, walk]
    split
    · exact ih h
    · split
      · exact ih _
      · exact ih _

theorem pathWalk_filter (h l : List Str) : walk h (l.filter (· ≠ [])) = walk h l := by
  induction l generalizing h with
  | nil => rfl
  | cons s l ih =>
    by_cases hs : s = []
    · subst hs
      simp only [ne_eq, not_true_eq_false, decide_false, Bool.false_eq_true, not_false_eq_true,
        List.filter_cons_of_neg, walk, true_or, if_true]
      exact ih h
    · rw [List.filter_cons_of_pos (by simpa using hs)]
      simp only [walk]
      split
      · exact ih h
      · split
        · exact ih _
        · exact ih _

theorem pathWalk_names {ns : List Str} (hn : ∀ n ∈ ns, FileName n) (h : List Str) : walk h ns = h ++ ns := by
  induction ns generalizing h with
  | nil => simp [walk]
  | cons n ns ih =>
    have h1 := hn n (by simp)
    simp only [walk]
    rw [if_neg (fun e => e.elim h1.1 h1.2.2.1), if_neg h1.2.2.2, ih (fun m hm => hn m (by simp [hm]))]
    simp

theorem pathWalk_all {P : Str → Prop} {h l : List Str} (hh : ∀ n ∈ h, P n)
    (hl : ∀ s ∈ l, s ≠ [] → s ≠ ['.'] → s ≠ ['.', '.'] → P s) : ∀ n ∈ walk h l, P n := by
  induction l generalizing h with
  | nil => exact hh
  | cons s l ih =>
    have hl' : ∀ s ∈ l, s ≠ [] → s ≠ ['.'] → s ≠ ['.', '.'] → P s := fun s hs => hl s (by simp [hs])
    simp only [walk]
    split
    · exact ih hh hl'
    · next h1 =>
      split
      · exact ih (fun n hn => hh n ((List.dropLast_sublist h).subset hn)) hl'
      · next h2 =>
        apply ih _ hl'
        intro n hn
        rcases List.mem_append.1 hn with hn | hn
        · exact hh n hn
        · simp only [List.mem_singleton] at hn
          subst hn
          exact hl n (by simp) (fun e => h1 (Or.inl e)) (fun e => h1 (Or.inr e)) h2

/-- Segments a path ends with that stand for a folder. -/
def isFolder (s : Str) : Bool := decide (s = [] ∨ s = ['.'] ∨ s = ['.', '.'])

/-- The loop of `urljoin` keeps track of the names walked along, with or without the empty segment of the
root in front. -/
theorem dotFold {l : List Str} (hl : [] ∉ l) : ∀ {st n : List Str}, (st = [] :: n ∨ st = n) →
    (l.foldl dotStep st = [] :: walk n l ∨ l.foldl dotStep st = walk n l) := by
  induction l with
  | nil => intro st n h; exact h
  | cons s l ih =>
    intro st n h
    simp only [List.mem_cons, not_or] at hl
    have ih' := @ih hl.2
    rw [List.foldl_cons]
    simp only [walk]
    by_cases h1 : s = ['.', '.']
    · rw [if_neg (by rw [h1]; decide), if_pos h1]
      apply ih'
      unfold dotStep
      rw [if_pos h1]
      rcases h with h | h
      · rw [h]
        cases n with
        | nil => right; rfl
        | cons a n => left; rfl
      · right; rw [h]
    · by_cases h2 : s = ['.']
      · rw [if_pos (Or.inr h2)]
        apply ih'
        unfold dotStep
        rw [if_neg h1, if_pos h2]
        exact h
      · rw [if_neg (fun e => e.elim (Ne.symm hl.1) h2), if_neg h1]
        apply ih'
        unfold dotStep
        rw [if_neg h1, if_neg h2]
        rcases h with h | h
        · left; rw [h]; rfl
        · right; rw [h]

/-- `p` with a slash in front, unless it has one. -/
def slashed (p : Str) : Str := if startsWith ['/'] p then p else '/' :: p

def orSlash (p : Str) : Str := if p = [] then ['/'] else p

theorem join_head {n : Str} {ns : List Str} (h : FileName n) :
    ∃ c t, join ['/'] (n :: ns) = c :: t ∧ c ≠ '/' := by
  cases n with
  | nil => exact absurd rfl h.1
  | cons c n =>
    have hc : c ≠ '/' := fun e => h.2.1 (by simp [e])
    cases ns with
    | nil => exact ⟨c, n, rfl, hc⟩
    | cons m ms => exact ⟨c, n ++ ['/'] ++ join ['/'] (m :: ms), rfl, hc⟩

theorem slashed_join {ns : List Str} (hne : ns ≠ []) (hn : ∀ n ∈ ns, FileName n) (t : Str) :
    slashed (orSlash (join ['/'] ns ++ t)) = '/' :: (join ['/'] ns ++ t) := by
  cases ns with
  | nil => exact absurd rfl hne
  | cons n ns =>
    obtain ⟨c, t', e, hc⟩ := join_head (ns := ns) (hn n (by simp))
    rw [e]
    simp [slashed, orSlash, startsWith, List.isPrefixOf, Ne.symm hc]

theorem slashed_of_root (t : Str) : slashed (orSlash ('/' :: t)) = '/' :: t := by
  simp [slashed, orSlash, startsWith]

theorem joined_folder {st ns : List Str} (h : st = [] :: ns ∨ st = ns) (hn : ∀ n ∈ ns, FileName n) :
    slashed (orSlash (join ['/'] (st ++ [[]]))) = pathTextOf ns true := by
  by_cases hne : ns = []
  · subst hne
    rcases h with h | h <;> (rw [h]; decide)
  · rcases h with h | h
    · rw [h]
      have : join ['/'] ([] :: ns ++ [[]]) = pathTextOf ns true := by
        rw [pathTextOf_eq]; simp [segsOf]
      rw [this]
      exact slashed_of_root _
    · rw [h, join_snoc _ _ hne, slashed_join hne hn]
      simp [pathTextOf, absText, hne]

theorem joined_file {st ns : List Str} (h : st = [] :: ns ∨ st = ns) (hne : ns ≠ []) (hn : ∀ n ∈ ns, FileName n) :
    slashed (orSlash (join ['/'] st)) = pathTextOf ns false := by
  rcases h with h | h
  · rw [h]
    have : join ['/'] ([] :: ns) = pathTextOf ns false := by
      rw [pathTextOf_eq]; simp [segsOf, hne]
    rw [this]
    exact slashed_of_root _
  · rw [h]
    have := slashed_join hne hn []
    simp only [List.append_nil] at this
    rw [this]
    simp [pathTextOf, absText]

/-- What the segments are joined to. -/
def segPath (segs : List Str) : Str :=
  let res := segs.foldl dotStep []
  let res := if segs.getLastD [] = ['.'] ∨ segs.getLastD [] = ['.', '.'] then res ++ [[]] else res
  orSlash (join ['/'] res)

theorem segPath_spec {l : List Str} {last : Str} (hl : [] ∉ l)
    (hn : ∀ n ∈ walk [] (l ++ [last]), FileName n) :
    slashed (segPath ([] :: (l ++ [last]))) = pathTextOf (walk [] (l ++ [last])) (isFolder last) := by
  have hlast : ([] :: (l ++ [last])).getLastD [] = last := getLastD_snoc _ _ _
  have hfold : ([] :: (l ++ [last])).foldl dotStep [] = dotStep (l.foldl dotStep [[]]) last := by
    rw [List.foldl_cons, List.foldl_append]; rfl
  have hd := dotFold hl (st := [[]]) (n := []) (Or.inl rfl)
  rw [pathWalk_append] at hn ⊢
  generalize walk [] l = W at hd hn
  generalize l.foldl dotStep [[]] = st at hd hfold
  unfold segPath
  simp only [hlast, hfold]
  by_cases h1 : last = ['.', '.']
  · have hw : walk W [last] = W.dropLast := by rw [h1]; rfl
    rw [hw] at hn ⊢
    have hi : isFolder last = true := by rw [h1]; decide
    have hs : dotStep st last = st.dropLast := by rw [h1]; rfl
    rw [if_pos (Or.inr h1), hi, hs]
    apply joined_folder _ hn
    rcases hd with h | h
    · rw [h]
      cases W with
      | nil => right; rfl
      | cons a n => left; rfl
    · right; rw [h]
  · by_cases h2 : last = ['.']
    · have hw : walk W [last] = W := by rw [h2]; rfl
      rw [hw] at hn ⊢
      have hi : isFolder last = true := by rw [h2]; decide
      have hs : dotStep st last = st := by rw [h2]; rfl
      rw [if_pos (Or.inl h2), hi, hs]
      exact joined_folder hd hn
    · rw [if_neg (fun e => e.elim h2 h1)]
      have hs : dotStep st last = st ++ [last] := by
        unfold dotStep
        rw [if_neg h1, if_neg h2]
      rw [hs]
      by_cases h3 : last = []
      · have hw : walk W [last] = W := by rw [h3]; rfl
        rw [hw] at hn ⊢
        have hi : isFolder last = true := by rw [h3]; decide
        rw [hi, h3]
        exact joined_folder hd hn
      · have hw : walk W [last] = W ++ [last] := by
          simp only [walk]
          rw [if_neg (fun e => e.elim h3 h2), if_neg h1]
        rw [hw] at hn ⊢
        have hi : isFolder last = false := by simp [isFolder, h1, h2, h3]
        rw [hi]
        apply joined_file _ (by simp) hn
        rcases hd with h | h
        · left; rw [h]; rfl
        · right; rw [h]

theorem urlunsplit_file {p : Str} (hp : p ≠ []) :
    urlunsplit ⟨fileScheme, [], p, [], []⟩ = urlText fileScheme [] (slashed p) [] := by
  have h4 : fileScheme ∈ usesNetloc := by decide
  have h5 : fileScheme ≠ [] := by decide
  unfold urlunsplit urlText slashed
  simp only [h4, h5, ne_eq, not_false_eq_true, true_and, true_or, or_true, if_true, hp]
  by_cases h : startsWith ['/'] p = true <;> simp [h]

/-! ### The segments of plain paths -/

theorem splitOn_snoc (p : Str) : ∃ a s, splitOn '/' p = a ++ [s] := by
  rcases List.eq_nil_or_concat (splitOn '/' p) with e | ⟨a, s, e⟩
  · exact absurd e (splitOn_ne_nil _ _)
  · exact ⟨a, s, by rw [e, List.concat_eq_append]⟩

/-- A path without two slashes in a row has no empty segment but the first and the last. -/
theorem empty_not_mid {a : List Str} {s p : Str} (h : splitOn '/' p = [] :: (a ++ [s]))
    (hs : ∀ a b, p ≠ a ++ '/' :: '/' :: b) : [] ∉ a := by
  intro hm
  obtain ⟨x, y, e⟩ := List.append_of_mem hm
  have hj := join_splitOn '/' p
  rw [h, e] at hj
  have key : ∀ (x : List Str) (z : List Str) (s0 : Str), z ≠ [] →
      ∃ u v, join ['/'] (s0 :: (x ++ [] :: z)) = u ++ '/' :: '/' :: v := by
    intro x
    induction x with
    | nil =>
      intro z s0 hz
      cases z with
      | nil => exact absurd rfl hz
      | cons z zs => exact ⟨s0, join ['/'] (z :: zs), by simp [join]⟩
    | cons x0 xs ih =>
      intro z s0 hz
      obtain ⟨u, v, e⟩ := ih z x0 hz
      refine ⟨s0 ++ '/' :: u, v, ?_⟩
      simp only [List.cons_append, join] at e ⊢
      rw [e]; simp
  obtain ⟨u, v, e'⟩ := key x (y ++ [s]) [] (by simp)
  rw [List.append_assoc] at hj
  simp only [List.cons_append] at hj
  rw [e'] at hj
  exact hs u v hj.symm

theorem filterMid_snoc (s0 : Str) (l : List Str) (s : Str) :
    filterMid (s0 :: (l ++ [s])) = s0 :: (l.filter (· ≠ []) ++ [s]) := by
  cases l with
  | nil => simp [filterMid]
  | cons a l =>
    simp only [List.cons_append, filterMid]
    have h1 : (a :: (l ++ [s])).dropLast = a :: l := by
      rw [← List.cons_append, List.dropLast_concat]
    have h2 : (a :: (l ++ [s])).getLastD [] = s := getLastD_snoc _ _ _
    rw [h1, h2]

/-- The URL path that joining a path to the working folder gives, in terms of its segments. -/
theorem joinUrlPath_segs {cwd : List Str} {p : Str} {a : List Str} {s : Str} (hc : ∀ n ∈ cwd, FileName n)
    (hs : splitOn '/' p = a ++ [s]) (hd : p.head? = some '/' → ∀ a b, p ≠ a ++ '/' :: '/' :: b) :
    ∃ l, [] ∉ l ∧ joinUrlPath (basePath cwd) p = segPath ([] :: (l ++ [s])) ∧
      walk [] (l ++ [s]) = walk (if p.head? = some '/' then [] else cwd.map quote) (splitOn '/' p) := by
  by_cases hp : p.head? = some '/'
  · obtain ⟨t, rfl⟩ : ∃ t, p = '/' :: t := by
      cases p with
      | nil => simp at hp
      | cons c t => simp at hp; exact ⟨t, by rw [hp]⟩
    rw [splitOn_sep] at hs ⊢
    obtain ⟨a', s', e⟩ := splitOn_snoc t
    have hh : a = [] :: a' ∧ s = s' := by
      rw [e, ← List.cons_append] at hs
      have := List.append_inj' hs (by simp)
      exact ⟨this.1.symm, by have := this.2; simp at this; exact this.symm⟩
    obtain ⟨rfl, rfl⟩ := hh
    refine ⟨a', ?_, ?_, ?_⟩
    · exact empty_not_mid (s := s) (p := '/' :: t) (by rw [splitOn_sep, e]) (hd hp)
    · have h1 : startsWith ['/'] ('/' :: t) = true := by simp [startsWith]
      unfold joinUrlPath
      simp only [h1, if_true, splitOn_sep, e]
      rfl
    · rw [if_pos hp, e]
      simp only [walk, true_or, if_true]
  · have h1 : startsWith ['/'] p = false := by
      cases p with
      | nil => rfl
      | cons c t =>
        have : c ≠ '/' := by simpa using hp
        simp [startsWith, List.isPrefixOf, Ne.symm this]
    have hq : ∀ n ∈ cwd.map quote, FileName n := by
      intro n hn
      obtain ⟨m, hm, rfl⟩ := List.mem_map.1 hn
      exact fileName_quote (hc m hm)
    have hqf : (cwd.map quote).filter (· ≠ []) = cwd.map quote := by
      rw [List.filter_eq_self]
      intro n hn
      simpa using (hq n hn).1
    refine ⟨cwd.map quote ++ a.filter (· ≠ []), ?_, ?_, ?_⟩
    · intro hm
      rcases List.mem_append.1 hm with hm | hm
      · exact (hq _ hm).1 rfl
      · simp at hm
    · unfold joinUrlPath
      simp only [h1, Bool.false_eq_true, if_false]
      by_cases hcw : cwd = []
      · subst hcw
        have : splitOn '/' (basePath []) = [[]] := rfl
        simp only [this, hs, List.map_nil, List.nil_append]
        have h2 : ([[]] : List Str).getLastD [] = [] := rfl
        simp only [h2, ne_eq, not_true_eq_false, if_false, List.cons_append, List.nil_append, filterMid_snoc]
        rfl
      · have : splitOn '/' (basePath cwd) = [] :: (cwd.map quote ++ [[]]) := by
          unfold basePath
          rw [if_neg hcw, splitOn_pathTextOf _ hq]
          simp [segsOf]
        simp only [this, hs]
        have h2 : ([] :: (cwd.map quote ++ [[]])).getLastD [] = [] := getLastD_snoc _ _ _
        simp only [h2, ne_eq, not_true_eq_false, if_false]
        have h3 : [] :: (cwd.map quote ++ [[]]) ++ (a ++ [s]) = [] :: ((cwd.map quote ++ [[]] ++ a) ++ [s]) := by simp
        rw [h3, filterMid_snoc]
        have h4 : (cwd.map quote ++ [[]] ++ a).filter (· ≠ []) = cwd.map quote ++ a.filter (· ≠ []) := by
          rw [List.filter_append, List.filter_append, hqf]; simp
        simp only [ne_eq] at h4 ⊢
        rw [h4]
        rfl
    · rw [if_neg hp, hs, List.append_assoc, pathWalk_append, pathWalk_names hq, List.nil_append, pathWalk_append,
        pathWalk_filter, ← pathWalk_append]

end Lemmas
