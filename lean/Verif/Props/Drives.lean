import Verif.Props.NormPaths
import Verif.Props.Urls
import Verif.Spec.Drives
/-
URLs of paths with drive letters (C114).
-/
namespace Props
open Py Model Spec Lemmas

theorem replace1_slashes (p : Str) : replace1 '\\' ['/'] p = slashes p := by
  induction p with
  | nil => rfl
  | cons c p ih =>
    simp only [replace1, ih, slashes, List.map_cons]
    split <;> rfl

theorem walk_below (x : Str) {segs : List Str} : ∀ {h : List Str}, StaysBelow h.length segs →
    walk (x :: h) segs = x :: walk h segs := by
  induction segs with
  | nil => intro h _; rfl
  | cons s segs ih =>
    intro h hb
    simp only [StaysBelow] at hb
    simp only [walk]
    by_cases h1 : s = [] ∨ s = ['.']
    · rw [if_pos h1] at hb ⊢
      rw [if_pos h1]
      exact ih hb
    · rw [if_neg h1] at hb ⊢
      rw [if_neg h1]
      by_cases h2 : s = ['.', '.']
      · rw [if_pos h2] at hb ⊢
        rw [if_pos h2]
        have hne : h ≠ [] := List.ne_nil_of_length_pos hb.1
        rw [List.dropLast_cons_of_ne_nil hne]
        apply ih
        rw [List.length_dropLast]
        exact hb.2
      · rw [if_neg h2] at hb ⊢
        rw [if_neg h2, List.cons_append]
        apply ih
        simpa using hb

theorem driveLetter_of {c : Char} (h : ('a' ≤ c ∧ c ≤ 'z') ∨ ('A' ≤ c ∧ c ≤ 'Z')) : driveLetter c = true := by
  unfold driveLetter isAsciiLetter
  rcases h with h | h <;> simp [h.1, h.2]

/-- The text of a drive and a path on it, as the path of a URL. -/
def drivePath (c : Char) (r : Str) : Str := '/' :: c :: ':' :: '/' :: r

theorem letter_not {c x : Char} (h : ('a' ≤ c ∧ c ≤ 'z') ∨ ('A' ≤ c ∧ c ≤ 'Z')) (hx : isAsciiLetter x = false) : c ≠ x := by
  rintro rfl
  have : isAsciiLetter c = true := by
    unfold isAsciiLetter
    rcases h with h | h <;> simp [h.1, h.2]
  rw [this] at hx
  exact absurd hx (by decide)

theorem drivePath_chars {c : Char} {r p : Str} (h : OnDrive c r p) :
    ∀ x ∈ drivePath c r, x ∉ ['#', '?', '\\', '\t', '\r', '\n'] := by
  intro x hx
  simp only [drivePath, List.mem_cons] at hx
  rcases hx with rfl | rfl | rfl | rfl | hx
  · decide
  · intro hm
    simp only [List.mem_cons, List.not_mem_nil, or_false] at hm
    rcases hm with e | e | e | e | e | e <;> exact letter_not h.letter (by decide) e
  · decide
  · decide
  · exact h.chars x hx

theorem shape_drive {path : Str} (h : ∀ x ∈ path, x ∉ ['#', '?', '\\', '\t', '\r', '\n']) (hr : ∃ t, path = '/' :: t) :
    Shape fileScheme [] path [] :=
  ⟨⟨'f', _, rfl, by decide⟩, by decide, by decide, by decide, by simp, h, hr, by simp⟩

/-- The drive and the rest are found. -/
theorem joined_drive {c : Char} {r p : Str} (h : OnDrive c r p) :
    ∃ slash rest, driveMatch (slashes p) = some (c, slash, rest) ∧
      fileScheme ++ [':', '/', '/', '/'] ++ (if slash then slashes p else c :: ':' :: '/' :: rest) =
        urlText fileScheme [] (drivePath c r) [] := by
  have hnl : '\n' ∉ r := fun hm => h.chars _ hm (by decide)
  have hdot : dotStar r = some r := by
    unfold dotStar
    have : r.getLast? ≠ some '\n' := fun e => hnl (List.mem_of_getLast? e)
    simp [this, hnl]
  rcases h.text with e | ⟨e, hr⟩
  · refine ⟨true, r, ?_, ?_⟩
    · rw [e, driveMatch, if_pos (driveLetter_of h.letter)]
      simp [hdot]
    · rw [e]; simp [urlText, drivePath]
  · refine ⟨false, r, ?_, ?_⟩
    · rw [e]
      unfold driveMatch
      simp only [driveLetter_of h.letter, if_true]
      split
      · next r' => exact absurd rfl hr
      · rw [hdot]; rfl
    · simp [urlText, drivePath]

/-- The URL of a path on a drive. -/
theorem drive_url {ok : Str → Bool} {cwd p : Str} {c : Char} {r : Str} {slash : Bool} (hok : ok [] = true)
    (h : OnDrive c r p) (hs : slash = true ↔ OneSlash (c :: ':' :: '/' :: r)) :
    path2url ok cwd p = some ("file://".toList ++ pathTextOf (walk [[c, ':']] (splitOn '/' r)) slash) := by
  have hp0 : p ≠ [] := by
    rintro rfl
    rcases h.text with e | ⟨e, -⟩ <;> simp [slashes] at e
  have hunc : startsWith uncPrefix p = false := by
    cases p with
    | nil => exact absurd rfl hp0
    | cons x t =>
      have hx : x ≠ '\\' := by
        rintro rfl
        have hc : c ≠ '/' := letter_not h.letter (by decide)
        rcases h.text with e | ⟨e, -⟩ <;>
        · simp only [slashes, List.map_cons, if_true, List.cons.injEq] at e
          exact hc e.1.symm
      simp [startsWith, uncPrefix, List.isPrefixOf, Ne.symm hx]
  obtain ⟨sl, rest, hm, hj⟩ := joined_drive h
  have hch := drivePath_chars h
  have hsimple : Simple (drivePath c r) := ⟨fun hx => hch _ hx (by decide), fun hx => hch _ hx (by decide)⟩
  have hcs : '/' ≠ c := Ne.symm (letter_not h.letter (by decide))
  have hroot : rootSlashes (drivePath c r) = ['/'] := by
    simp [rootSlashes, drivePath, startsWith, List.isPrefixOf, hcs]
  have hkept : kept (drivePath c r) = walk [[c, ':']] (splitOn '/' r) := by
    rw [kept_rooted (by rw [hroot]; decide)]
    unfold meant
    have e : drivePath c r = '/' :: ([c, ':'] ++ '/' :: r) := rfl
    have h3 : '/' ∉ [c, ':'] := by simp [hcs]
    have h4 : ([c, ':'] : Str) ≠ [] := by simp
    have h5 : ([c, ':'] : Str) ≠ ['.'] := by simp
    have h6 : ([c, ':'] : Str) ≠ ['.', '.'] := by simp
    rw [e, splitOn_sep, splitOn_append _ _ h3]
    simp only [List.head?_cons, if_true, walk, true_or, h4, h5, h6, or_self, if_false, List.nil_append]
  have hone : OneSlash (drivePath c r) ↔ slash = true := by
    rw [hs]
    constructor
    · rintro ⟨a, x, e, hx⟩
      cases a with
      | nil => simp [drivePath] at e
      | cons y a =>
        simp only [drivePath, List.cons_append, List.cons.injEq] at e
        exact ⟨a, x, e.2, hx⟩
    · rintro ⟨a, x, e, hx⟩
      exact ⟨'/' :: a, x, by rw [drivePath, e]; rfl, hx⟩
  have hn : normpath (drivePath c r) = pathTextOf (walk [[c, ':']] (splitOn '/' r)) slash := by
    obtain ⟨tail, e, ht⟩ := normpath_eq (drivePath c r)
    rw [e, hroot, hkept]
    rw [isDirText_iff hsimple, hone, hroot, hkept] at ht
    unfold normText pathTextOf absText
    rw [if_neg (by simp)]
    congr 1
    have : tail = true ↔ slash = true ∧ walk [[c, ':']] (splitOn '/' r) ≠ [] := by
      rw [ht]; simp
    cases tail with
    | true => rw [if_pos (this.1 rfl)]; rfl
    | false => rw [if_neg (fun e => absurd (this.2 e) (by decide))]; rfl
  have hres : ∀ x ∈ pathTextOf (walk [[c, ':']] (splitOn '/' r)) slash, x ∉ ['#', '?', '\\', '\t', '\r', '\n'] := by
    intro x hx
    rcases mem_pathTextOf hx with e | ⟨n, h1, h2⟩
    · subst e; decide
    · have := pathWalk_all (P := fun n => ∀ x ∈ n, x ∉ ['#', '?', '\\', '\t', '\r', '\n']) (h := [[c, ':']])
        (l := splitOn '/' r) (by
          intro m hm x hx
          simp only [List.mem_singleton] at hm
          subst hm
          apply hch
          simp only [List.mem_cons, List.not_mem_nil, or_false] at hx
          rcases hx with rfl | rfl <;> simp [drivePath]) (by
          intro s hs _ _ _ x hx
          apply h.chars
          rw [← join_splitOn '/' r]
          exact mem_join_of_mem hs hx)
      exact this n h1 x h2
  unfold path2url
  rw [if_neg hp0, hunc]
  simp only [Bool.false_eq_true, if_false]
  rw [replace1_slashes, hm]
  simp only [hj]
  rw [urlsplit_urlText (shape_drive hch ⟨_, rfl⟩) hok]
  simp only [hn]
  rw [replace1_noop (fun hc => hres _ hc (by decide)), urlunsplit_urlText (shape_drive hres ⟨_, rfl⟩)]
  unfold urlText
  rw [if_pos rfl, List.append_nil]
  rfl

/-- **C114** The URL of a path with a drive letter is that of the file on the drive: slashes and backslashes are the
same, what is not absolute is taken from the root of the drive, `.` and `..` are walked along, and a last slash stays.
What is missing: paths that lead above the root of the drive, and characters that mean something in URLs. -/
theorem C114_drive_partial (ok : Str → Bool) (cwd p : Str) (c : Char) (r : Str) (slash : Bool) (hok : ok [] = true)
    (h : OnDrive c r p) (hs : slash = true ↔ OneSlash (c :: ':' :: '/' :: r)) (hb : StaysBelow 0 (splitOn '/' r)) :
    path2url ok cwd p = some (driveUrl c (walk [] (splitOn '/' r)) slash) := by
  rw [drive_url hok h hs, walk_below _ (by simpa using hb)]
  have e : "file:///".toList = "file://".toList ++ ['/'] := by decide
  unfold driveUrl pathTextOf absText
  rw [e]
  cases slash with
  | true => rw [if_pos ⟨rfl, by simp⟩]; rfl
  | false => rw [if_neg (fun h => absurd h.1 (by decide))]; rfl

/-- **C114** The prefix `\\?\` of long paths counts as the root. -/
theorem C114_prefix (ok : Str → Bool) (cwd p : Str) :
    path2url ok cwd ("\\\\?\\".toList ++ p) = path2url ok cwd ('/' :: slashes p) := by
  have e : "\\\\?\\".toList = uncPrefix := by decide
  have hb : '\\' ∉ '/' :: slashes p := by
    simp only [List.mem_cons, slashes, List.mem_map, not_or]
    refine ⟨by decide, ?_⟩
    rintro ⟨c, -, hc⟩
    split at hc
    · exact absurd hc (by decide)
    · next hne => exact hne hc
  have h1 : startsWith uncPrefix (uncPrefix ++ p) = true := by simp [startsWith]
  have h2 : startsWith uncPrefix ('/' :: slashes p) = false := startsWith_unc hb
  have h3 : (uncPrefix ++ p).drop 3 = '\\' :: p := rfl
  have h4 : replace1 '\\' ['/'] ('\\' :: p) = '/' :: slashes p := by
    rw [replace1_slashes]; rfl
  have h5 : replace1 '\\' ['/'] ('/' :: slashes p) = '/' :: slashes p := replace1_noop hb
  rw [e]
  have h6 : uncPrefix ++ p ≠ [] := by simp [uncPrefix]
  have h7 : '/' :: slashes p ≠ [] := by simp
  unfold path2url
  rw [if_neg h6, if_neg h7]
  simp only [h1, h2, h3, h4, h5, if_true, Bool.false_eq_true, if_false]

/-- **C114** fails for paths that lead above the root of a drive, where they leave it, and for characters that mean
something in URLs. -/
theorem C114_refuted :
    let url (p : String) := path2url (fun _ => true) "/w".toList p.toList
    url "C:\\..\\a" = some "file:///a".toList ∧ url "C:/a#b" = some "file:///C:/a#b".toList ∧
    url "C:/a#b/../c" = some "file:///C:/a#b/../c".toList := by
  decide +kernel

example : OnDrive 'D' "foo/../bar/".toList "D:foo\\..\\bar\\".toList ∧
    OneSlash ('D' :: ':' :: '/' :: "foo/../bar/".toList) ∧ StaysBelow 0 (splitOn '/' "foo/../bar/".toList) ∧
    path2url (fun _ => true) "/w".toList "D:foo\\..\\bar\\".toList = some "file:///D:/bar/".toList ∧
    driveUrl 'D' ["bar".toList] true = "file:///D:/bar/".toList := by
  refine ⟨⟨Or.inr (by decide), by decide, Or.inr (by decide)⟩, ⟨"D:/foo/../ba".toList, 'r', by decide, by decide⟩, ?_,
    by decide +kernel, by decide⟩
  have : splitOn '/' "foo/../bar/".toList = ["foo".toList, "..".toList, "bar".toList, []] := by decide
  rw [this]
  simp [StaysBelow]

end Props
