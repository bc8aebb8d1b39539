import Verif.Model.NormPaths
import Verif.Spec.Urls
import Verif.Lemmas.Urls
import Verif.Props.Urls
import Verif.Props.NormPaths
set_option linter.unusedSimpArgs false
/-
C115 paths as paths of URLs.
-/
namespace Props
open Py Model Spec Lemmas

private theorem quote_no {c : Char} (p : Str) (h : quoteSafe c = false) (h2 : c ≠ '%') : c ∉ quote p := by
  intro hm
  rcases mem_quote hm with e | e
  · rw [h] at e; exact absurd e (by simp)
  · exact h2 e

private theorem isDir_plain {u : Str} (h1 : '\\' ∉ u) (h2 : '\n' ∉ u) (h : isDirText u = true) : u.getLast? = some '/' := by
  rw [← List.head?_reverse]
  unfold isDirText at h
  have m1 : '\\' ∉ u.reverse := by simpa using h1
  have m2 : '\n' ∉ u.reverse := by simpa using h2
  generalize u.reverse = r at h m1 m2
  split at h
  · simp at m2
  · cases r with
    | nil => simp [endsInSlash] at h
    | cons y r =>
      cases r with
      | nil => simp [endsInSlash] at h
      | cons x r =>
        simp only [endsInSlash, isSlash, Bool.and_eq_true, Bool.or_eq_true, decide_eq_true_eq] at h
        have := h.1
        simp only [List.mem_cons, List.not_mem_nil, or_false, not_or, List.head?_cons] at *
        rcases this with e | e
        · rw [e]
        · exact absurd e.symm m1.1

/-- The last characters that are harmless. -/
private theorem isDir_last {p : Str} (h1 : p.getLast? ≠ some '\\') (h2 : p.getLast? ≠ some '\n') (h : isDirText p = true) :
    p.getLast? = some '/' := by
  rw [← List.head?_reverse] at *
  unfold isDirText at h
  generalize p.reverse = r at h h1 h2
  split at h
  · simp at h2
  · cases r with
    | nil => simp [endsInSlash] at h
    | cons y r =>
      cases r with
      | nil => simp [endsInSlash] at h
      | cons x r =>
        simp only [endsInSlash, isSlash, Bool.and_eq_true, Bool.or_eq_true, decide_eq_true_eq] at h
        have := h.1
        simp only [List.mem_cons, List.not_mem_nil, or_false, List.head?_cons] at *
        rcases this with e | e
        · rw [e]
        · exact absurd (by rw [e]) h1

private theorem quote_last {p : Str} (h : p.getLast? = some '/') : (quote p).getLast? = some '/' := by
  rcases List.eq_nil_or_concat p with e | ⟨t, c, e⟩
  · subst e; simp at h
  · subst e
    simp only [List.concat_eq_append, List.getLast?_concat, Option.some.injEq] at h
    subst h
    rw [List.concat_eq_append, quote_append, quote_slash]
    simp [quote]

private theorem last_quote {p : Str} (h : (quote p).getLast? = some '/') : p.getLast? = some '/' := by
  rcases List.eq_nil_or_concat p with e | ⟨t, c, e⟩
  · subst e; simp [quote] at h
  · subst e
    rw [List.concat_eq_append, quote_append] at h
    rw [List.concat_eq_append, List.getLast?_concat]
    have hq : quote [c] ≠ [] := fun e => by simpa using quote_eq_nil.1 e
    rw [List.getLast?_append, Option.or_of_isSome (by simpa using hq)] at h
    have hm := List.mem_of_getLast? h
    have := slash_mem_quote hm
    simp only [List.mem_cons, List.not_mem_nil, or_false] at this
    rw [← this]

private theorem urlpath_eq {p : Str} (hu : ¬ uncPrefix <+: p) (h1 : p.getLast? ≠ some '\\') (h2 : p.getLast? ≠ some '\n') :
    path2urlpath p = quote p := by
  have e : startsWith uncPrefix p = false := by
    cases h : startsWith uncPrefix p with
    | false => rfl
    | true => exact absurd (List.isPrefixOf_iff_prefix.1 h) hu
  unfold path2urlpath
  simp only [e, Bool.false_eq_true, if_false]
  rw [if_neg]
  simp only [Bool.and_eq_true, not_and, Bool.not_eq_true, bne_eq_false_iff_eq]
  intro hd
  exact quote_last (isDir_last h1 h2 hd)

private theorem back_eq (U : Utf8Lib) (p : Str) (hu : ¬ uncPrefix <+: p)
    (h1 : p.getLast? ≠ some '\\') (h2 : p.getLast? ≠ some '\n') :
    urlpath2path U (path2urlpath p) = if p.length > 200 then p ++ uncPrefix else p := by
  rw [urlpath_eq hu h1 h2]
  unfold urlpath2path
  simp only [unquote_reads U (reads_quote p)]
  have e : (if (isDirText (quote p) && p.getLast? != some '/') = true then p ++ ['/'] else p) = p := by
    rw [if_neg]
    simp only [Bool.and_eq_true, not_and, Bool.not_eq_true, bne_eq_false_iff_eq]
    intro hd
    exact last_quote (isDir_plain (quote_no p (by decide) (by decide)) (quote_no p (by decide) (by decide)) hd)
  rw [e]

/-- **C115** The path of a URL that is made of a path gives back that path. What is missing: paths of more than 200
characters, paths that end with a backslash or a newline, and the prefix of long paths. -/
theorem C115_back_partial (U : Utf8Lib) (p : Str) (hl : p.length ≤ 200) (hu : ¬ "\\\\?\\".toList <+: p)
    (h1 : p.getLast? ≠ some '\\') (h2 : p.getLast? ≠ some '\n') : urlpath2path U (path2urlpath p) = p := by
  rw [back_eq U p hu h1 h2, if_neg (by omega)]

/-- What comes back, of any path. -/
private theorem back_any (U : Utf8Lib) (p : Str) :
    let q := if startsWith uncPrefix p then p.drop 3 else p
    let r := if isDirText q && q.getLast? != some '/' then q ++ ['/'] else q
    urlpath2path U (path2urlpath p) = if r.length > 200 then r ++ uncPrefix else r := by
  intro q r
  have hu : path2urlpath p = quote r := by
    show (if isDirText q && (quote q).getLast? != some '/' then quote q ++ ['/'] else quote q) = quote r
    have e : ((quote q).getLast? != some '/') = (q.getLast? != some '/') := by
      rw [Bool.eq_iff_iff]
      simp only [bne_iff_ne, ne_eq]
      exact ⟨fun h e => h (quote_last e), fun h e => h (last_quote e)⟩
    rw [e]
    show _ = quote (if isDirText q && q.getLast? != some '/' then q ++ ['/'] else q)
    split
    · rw [quote_append, quote_slash]; rfl
    · rfl
  rw [hu]
  unfold urlpath2path
  simp only [unquote_reads U (reads_quote r)]
  have e : (if (isDirText (quote r) && r.getLast? != some '/') = true then r ++ ['/'] else r) = r := by
    rw [if_neg]
    simp only [Bool.and_eq_true, not_and, Bool.not_eq_true, bne_eq_false_iff_eq]
    intro hd
    exact last_quote (isDir_plain (quote_no r (by decide) (by decide)) (quote_no r (by decide) (by decide)) hd)
  rw [e]

/-- **C115** Exactly which paths come back, of all paths: those of at most 200 characters, without the prefix of long
paths, that do not end like that of a folder unless with a slash. -/
theorem C115_back_exact (U : Utf8Lib) (p : Str) :
    urlpath2path U (path2urlpath p) = p ↔
      p.length ≤ 200 ∧ ¬ "\\\\?\\".toList <+: p ∧ (FolderEnd p → p.getLast? = some '/') := by
  have hb := back_any U p
  simp only at hb
  rw [hb]
  have hpre : startsWith uncPrefix p = true ↔ "\\\\?\\".toList <+: p := List.isPrefixOf_iff_prefix
  have hf : (isDirText p && p.getLast? != some '/') = true ↔ ¬ (FolderEnd p → p.getLast? = some '/') := by
    rw [Bool.and_eq_true, isDirText_folder, bne_iff_ne]
    exact ⟨fun h h2 => h.2 (h2 h.1), fun h => ⟨Classical.byContradiction fun h1 => h (fun h2 => absurd h2 h1),
      fun h1 => h (fun _ => h1)⟩⟩
  by_cases hu : startsWith uncPrefix p = true
  · rw [if_pos hu]
    constructor
    · intro e
      exfalso
      have hlen : 4 ≤ p.length := (List.isPrefixOf_iff_prefix.1 hu).length_le
      have hd : (p.drop 3).length = p.length - 3 := List.length_drop
      have h4 : uncPrefix.length = 4 := rfl
      have := congrArg List.length e
      split at this <;> split at this <;> simp only [List.length_append, List.length_cons, List.length_nil, hd, h4] at this <;> omega
    · rintro ⟨-, h, -⟩
      exact absurd (hpre.1 hu) h
  · rw [if_neg hu]
    by_cases hs : (isDirText p && p.getLast? != some '/') = true
    · rw [if_pos hs]
      constructor
      · intro e
        exfalso
        have h4 : uncPrefix.length = 4 := rfl
        have := congrArg List.length e
        split at this <;> simp only [List.length_append, List.length_cons, List.length_nil, h4] at this <;> omega
      · rintro ⟨-, -, h⟩
        exact absurd h (hf.1 hs)
    · rw [if_neg hs]
      have h3 : FolderEnd p → p.getLast? = some '/' := Classical.byContradiction fun h => hs (hf.2 h)
      constructor
      · intro e
        refine ⟨?_, fun h => hu (hpre.2 h), h3⟩
        split at e
        · have h4 : uncPrefix.length = 4 := rfl
          have := congrArg List.length e
          simp only [List.length_append, h4] at this
          omega
        · omega
      · rintro ⟨h, -, -⟩
        rw [if_neg (by omega)]

/-- **C115** Paths of any length have different URLs. What is missing: the prefix of long paths, and paths that end like
that of a folder without a slash. -/
theorem C115_different_partial (p q : Str) (hu : ¬ "\\\\?\\".toList <+: p) (hq : ¬ "\\\\?\\".toList <+: q)
    (h1 : FolderEnd p → p.getLast? = some '/') (h2 : FolderEnd q → q.getLast? = some '/')
    (h : path2urlpath p = path2urlpath q) : p = q := by
  have key : ∀ p : Str, ¬ uncPrefix <+: p → (FolderEnd p → p.getLast? = some '/') → path2urlpath p = quote p := by
    intro p hu hf
    have e : startsWith uncPrefix p = false := by
      cases h : startsWith uncPrefix p with
      | false => rfl
      | true => exact absurd (List.isPrefixOf_iff_prefix.1 h) hu
    unfold path2urlpath
    simp only [e, Bool.false_eq_true, if_false]
    rw [if_neg]
    simp only [Bool.and_eq_true, not_and, Bool.not_eq_true, bne_eq_false_iff_eq]
    intro hd
    exact quote_last (hf ((isDirText_folder p).1 hd))
  rw [key p hu h1, key q hq h2] at h
  rw [← unquote_reads anyUtf8 (reads_quote p), h, unquote_reads anyUtf8 (reads_quote q)]

/-- **C115** Whatever the path, only letters, digits, `_`, `.`, `-`, `~`, slashes and percent signs are in its URL. -/
theorem C115_characters (p : Str) (c : Char) (h : c ∈ path2urlpath p) :
    ('a' ≤ c ∧ c ≤ 'z') ∨ ('A' ≤ c ∧ c ≤ 'Z') ∨ ('0' ≤ c ∧ c ≤ '9') ∨ c ∈ "_.-~/%".toList := by
  have key : quoteSafe c = true ∨ c = '%' := by
    unfold path2urlpath at h
    generalize (if startsWith uncPrefix p then p.drop 3 else p) = q at h
    simp only at h
    split at h
    · rcases List.mem_append.1 h with h | h
      · exact mem_quote h
      · simp only [List.mem_cons, List.not_mem_nil, or_false] at h; subst h; exact .inl (by decide)
    · exact mem_quote h
  rcases key with h | h
  · simp only [quoteSafe, Bool.or_eq_true, decide_eq_true_eq] at h
    rcases h with (h | h) | h
    · simp only [isAsciiLetter, Bool.or_eq_true, Bool.and_eq_true, decide_eq_true_eq] at h
      exact h.elim .inl (fun h => .inr (.inl h))
    · simp only [isAsciiDigit, Bool.and_eq_true, decide_eq_true_eq] at h
      exact .inr (.inr (.inl h))
    · right; right; right
      simp only [List.mem_cons, List.not_mem_nil, or_false] at h
      rcases h with h | h | h | h | h <;> subst h <;> decide
  · subst h; right; right; right; decide

/-- **C115** fails otherwise: a longer path gets the prefix of long paths put at its end, by the way back; files whose
names end with a backslash or a newline after a slash become folders, with the URL of these; and of the prefix one
backslash is left, as if the path began with it. -/
theorem C115_refuted (U : Utf8Lib) :
    (∀ p, 200 < p.length → ¬ "\\\\?\\".toList <+: p → p.getLast? ≠ some '\\' → p.getLast? ≠ some '\n' →
      urlpath2path U (path2urlpath p) = p ++ "\\\\?\\".toList) ∧
    urlpath2path U (path2urlpath "a\\".toList) = "a\\/".toList ∧
    urlpath2path U (path2urlpath "a/\n".toList) = "a/\n/".toList ∧
    path2urlpath "\\\\?\\a".toList = "%5Ca".toList ∧ path2urlpath "\\\\?\\a".toList = path2urlpath "\\a".toList ∧
    path2urlpath "a\\".toList = path2urlpath "a\\/".toList := by
  refine ⟨fun p hl hu h1 h2 => ?_, ?_, ?_, by decide +kernel, by decide +kernel, by decide +kernel⟩
  · rw [back_eq U p hu h1 h2, if_pos hl]; rfl
  · have e : path2urlpath "a\\".toList = quote "a\\/".toList := by decide +kernel
    have hd : isDirText (quote "a\\/".toList) = true := by decide +kernel
    rw [e]; unfold urlpath2path
    simp only [unquote_reads U (reads_quote _), hd]
    decide
  · have e : path2urlpath "a/\n".toList = quote "a/\n/".toList := by decide +kernel
    have hd : isDirText (quote "a/\n/".toList) = true := by decide +kernel
    rw [e]; unfold urlpath2path
    simp only [unquote_reads U (reads_quote _), hd]
    decide

/-- A path with blanks, letters that are not ASCII and a last slash. -/
example : path2urlpath "/a b/é/".toList = "/a%20b/%C3%A9/".toList ∧ "/a b/é/".toList.length ≤ 200 ∧
    ¬ "\\\\?\\".toList <+: "/a b/é/".toList ∧ "/a b/é/".toList.getLast? ≠ some '\\' ∧
    "/a b/é/".toList.getLast? ≠ some '\n' := by decide +kernel

/-- A path that comes back although it ends with a backslash, and one that does not. -/
example (U : Utf8Lib) : urlpath2path U (path2urlpath "a\\\\".toList) = "a\\\\".toList ∧
    urlpath2path U (path2urlpath "b/a\\".toList) ≠ "b/a\\".toList := by
  rw [ne_eq, C115_back_exact, C115_back_exact, ← isDirText_folder, ← isDirText_folder]
  decide +kernel

end Props
