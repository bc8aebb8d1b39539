import Verif.Lemmas.PmodBuild
import Verif.Lemmas.Paths
set_option linter.unusedSimpArgs false
namespace Model
open Py Spec

theorem unescapePart_plain {s : Str} (h : '~' ∉ s) : unescapePart s = s := by
  unfold unescapePart
  rw [replace2_of_not_mem h, replace2_of_not_mem h]

theorem mem_join_of_mem {c : Char} {ps : List Str} {p : Str} (hp : p ∈ ps) (hc : c ∈ p) :
    c ∈ join ['/'] ps := by
  induction ps with
  | nil => simp at hp
  | cons a t ih =>
    cases t with
    | nil => simp [join] at *; subst hp; exact hc
    | cons b t =>
      simp only [join, List.mem_append]
      rcases List.mem_cons.1 hp with e | e
      · subst e; exact Or.inl (Or.inl hc)
      · exact Or.inr (ih e)

theorem not_mem_splitOn {c : Char} {s p : Str} (h : c ∉ s) (hp : p ∈ splitOn '/' s) : c ∉ p := by
  intro hc
  apply h
  rw [← join_splitOn '/' s]
  exact mem_join_of_mem hp hc

theorem iterPartsRelaxed_plain {s : Str} (h : '~' ∉ s) : iterPartsRelaxed s = splitOn '/' s := by
  unfold iterPartsRelaxed
  have : ∀ p ∈ splitOn '/' s, unescapePart p = id p := fun p hp =>
    unescapePart_plain (not_mem_splitOn h hp)
  rw [List.map_congr_left this, List.map_id]

theorem endsWith_slash (s : Str) : endsWith ['/'] s = (s.getLast? == some '/') := by
  unfold endsWith
  rw [List.isSuffixOf]
  simp only [List.reverse_cons, List.reverse_nil, List.nil_append]
  rw [← List.head?_reverse]
  cases s.reverse with
  | nil => rfl
  | cons c t =>
    by_cases h : '/' = c
    · subst h; simp [List.isPrefixOf]
    · have h2 : (c == '/') = false := by simpa using Ne.symm h
      have h3 : ('/' == c) = false := by simpa using h
      simp [List.isPrefixOf, h2, h3]

theorem dropFolderSlash_eq {s : Str} (h : s = ['/'] ∨ s.getLast? ≠ some '/') : dropFolderSlash s = s := by
  unfold dropFolderSlash
  rw [endsWith_slash]
  rcases h with h | h
  · subst h; rfl
  · have : (s.getLast? == some '/') = false := by simpa using h
    simp [this]

theorem stepParts_none {s : Str} (h : Plain s) : stepParts s none = [s] := by
  unfold stepParts
  simp only
  rw [dropFolderSlash_eq (Or.inr _), iterPartsRelaxed_plain h.2, splitOn_of_not_mem h.1]
  intro e
  exact h.1 (List.mem_of_getLast? e)

theorem stepParts_contribution {s : Str} (hs : Plain s) (a : Option Str) (ha : ∀ x, a = some x → PlainAlias x) :
    stepParts s a = contribution s a := by
  cases a with
  | none => exact stepParts_none hs
  | some x =>
    obtain ⟨h1, h2⟩ := ha x rfl
    unfold stepParts contribution
    simp only
    rw [dropFolderSlash_eq h2, iterPartsRelaxed_plain h1]
    cases x with
    | nil => rfl
    | cons c t =>
      by_cases h : c = '.'
      · subst h; simp [startsWith, List.isPrefixOf]
      · simp [startsWith, List.isPrefixOf, h, Ne.symm h]

theorem descend_none_alias {E : RegexLib} {pm : Pmod} {s : Str} {a : Option Str}
    (h : pm.descend E s = .ok (none, a)) : a = none := by
  unfold Pmod.descend at h
  simp only at h
  split at h
  · cases h
  · split at h
    · cases h
    · injection h with h; injection h with _ h; exact h.symm

theorem descend_aliasOf {E : RegexLib} {pm : Pmod} {s : Str} {p : Option Pmod} {a : Option Str}
    (h : pm.descend E s = .ok (p, a)) : pm.aliasOf E s = .ok a := by
  unfold Pmod.descend at h
  unfold Pmod.aliasOf
  simp only at h
  cases hc : (dget pm.steps s).bind Pmod.alias with
  | some x =>
    rw [hc] at h
    simp only at h
    cases hd : dget pm.steps s with
    | none => rw [hd] at hc; simp at hc
    | some c =>
      rw [hd] at h
      cases hm : (pm.matchRegxs E s).map (·.1) with
      | nil => rw [hm] at h; simp [Pmod.reduceMerge] at h; simp [h.2]
      | cons y ys => rw [hm] at h; simp [Pmod.reduceMerge] at h; simp [h.2]
  | none =>
    rw [hc] at h
    simp only at h ⊢
    cases hl : Pmod.lastAlias E (pm.matchRegxs E s).reverse with
    | error e => rw [hl] at h; cases h
    | ok x =>
      rw [hl] at h
      simp only at h
      cases hr : Pmod.reduceMerge ((pm.matchRegxs E s).map (·.1) ++ (dget pm.steps s).toList) with
      | some q => rw [hr] at h; injection h with h; injection h with _ h; rw [h]
      | none =>
        rw [hr] at h; injection h with h; injection h with _ h
        cases hm : (pm.matchRegxs E s) with
        | nil => rw [hm] at hl; simp [Pmod.lastAlias] at hl; rw [← hl, ← h]
        | cons y ys => rw [hm] at hr; simp [Pmod.reduceMerge] at hr

/-- The loop adds the contributions of the steps in order. -/
theorem mapLoop_eq {E : RegexLib} {pm : Option Pmod} {steps : List Str} {as : List (Option Str)}
    (h : AliasesAlong E pm steps as) : ∀ (alias : Option Str) (nsteps : List Str),
    (pm = none → alias = none) →
    mapLoop E pm alias nsteps steps =
      .ok (nsteps ++ (steps.zip as).flatMap (fun sa => stepParts sa.1 sa.2)) := by
  induction h with
  | nil pm => intro alias nsteps _; simp [mapLoop]
  | off s ss as h ih =>
    intro alias nsteps ha
    have ha := ha rfl
    subst ha
    cases ss with
    | nil => cases h; simp [mapLoop]
    | cons s2 ss =>
      rw [mapLoop]
      · rw [ih none _ (fun _ => rfl)]
        simp
      · simp
  | on pm pm' s a ss as hd h ih =>
    intro alias nsteps _
    cases ss with
    | nil =>
      cases h
      simp only [mapLoop, descend_aliasOf hd]
      simp
    | cons s2 ss =>
      rw [mapLoop]
      · simp only [hd]
        rw [ih a _ (fun e => by subst e; exact descend_none_alias hd)]
        simp
      · simp

theorem splitOn_pathText {ps : List Str} (hne : ps ≠ []) (h : ∀ p ∈ ps, Plain p) :
    splitOn '/' (pathText ps) = ps := splitOn_join ps hne (fun p hp => (h p hp).1)

theorem mem_join {c : Char} {ps : List Str} (h : c ∈ join ['/'] ps) : c = '/' ∨ ∃ p ∈ ps, c ∈ p := by
  induction ps with
  | nil => simp [join] at h
  | cons a t ih =>
    cases t with
    | nil => simp [join] at h; exact Or.inr ⟨a, by simp, h⟩
    | cons b t =>
      simp only [join, List.mem_append, List.mem_singleton] at h
      rcases h with (h | h) | h
      · exact Or.inr ⟨a, by simp, h⟩
      · exact Or.inl h
      · rcases ih h with h | ⟨p, hp, hc⟩
        · exact Or.inl h
        · exact Or.inr ⟨p, List.mem_cons_of_mem _ hp, hc⟩

theorem tilde_not_mem_pathText {ps : List Str} (h : ∀ p ∈ ps, Plain p) : '~' ∉ pathText ps := by
  intro hc
  rcases mem_join hc with e | ⟨p, hp, hc⟩
  · exact absurd e (by decide)
  · exact (h p hp).2 hc

theorem join_snoc (ps : List Str) (q : Str) (h : ps ≠ []) :
    join ['/'] (ps ++ [q]) = join ['/'] ps ++ '/' :: q := by
  induction ps with
  | nil => exact absurd rfl h
  | cons a t ih =>
    cases t with
    | nil => simp [join]
    | cons b t =>
      have := ih (by simp)
      simp only [List.cons_append, join] at this ⊢
      rw [this]; simp

/-- A path whose last step is not empty does not end with a slash. -/
theorem dropFolderSlash_pathText {ps : List Str} (h : ∀ p ∈ ps, Plain p)
    (hl : ps.getLast? ≠ some [] ∨ ps.length ≤ 2 ∧ ps.head? = some []) : dropFolderSlash (pathText ps) = pathText ps := by
  apply dropFolderSlash_eq
  rcases List.eq_nil_or_concat ps with e | ⟨qs, q, e⟩
  · subst e; right; simp [pathText, join]
  · simp only [List.concat_eq_append] at e
    subst e
    unfold pathText
    rw [lit_slash]
    by_cases hq : q = []
    · subst hq
      rcases hl with hl | ⟨hl, hh⟩
      · simp at hl
      · cases qs with
        | nil => right; simp [join]
        | cons a t =>
          cases t with
          | nil =>
            simp at hh; subst hh
            left; rfl
          | cons b t => simp at hl
    · right
      have hlast : (join ['/'] (qs ++ [q])).getLast? = q.getLast? := by
        by_cases hqs : qs = []
        · subst hqs; simp [join]
        · rw [join_snoc _ _ hqs, List.getLast?_append]
          cases q with
          | nil => exact absurd rfl hq
          | cons c t => simp [List.getLast?_cons]
      rw [hlast]
      intro e
      exact (h q (by simp)).1 (List.mem_of_getLast? e)

end Model
