import Verif.Lemmas.Urls
import Verif.Lemmas.List
/-
Lemmas about splitting, joining and normalising URLs whose paths are made of file names.
-/
namespace Lemmas
open Py Model Spec

/-! ### Cutting and cleaning -/

theorem replace1_noop {o : Char} {w a : Str} (h : o ∉ a) : replace1 o w a = a := by
  induction a with
  | nil => rfl
  | cons c a ih =>
    simp only [List.mem_cons, not_or] at h
    simp [replace1, Ne.symm h.1, ih h.2]


theorem cut_none {c : Char} {s : Str} (h : c ∉ s) : cut c s = none := by
  induction s with
  | nil => rfl
  | cons x xs ih =>
    simp only [List.mem_cons, not_or] at h
    simp [cut, Ne.symm h.1, ih h.2]

theorem cut_append {c : Char} (a b : Str) (h : c ∉ a) : cut c (a ++ c :: b) = some (a, b) := by
  induction a with
  | nil => simp [cut]
  | cons x xs ih =>
    simp only [List.mem_cons, not_or] at h
    simp [cut, Ne.symm h.1, ih h.2]

theorem cut_some {c : Char} {s a b : Str} (h : cut c s = some (a, b)) : s = a ++ c :: b := by
  induction s generalizing a b with
  | nil => simp [cut] at h
  | cons x xs ih =>
    simp only [cut] at h
    split at h
    · next e =>
      simp only [Option.some.injEq, Prod.mk.injEq] at h
      rw [← h.1, ← h.2, e]; rfl
    · cases hc : cut c xs with
      | none => rw [hc] at h; simp at h
      | some ab =>
        rw [hc] at h
        simp only [Option.map_some, Option.some.injEq, Prod.mk.injEq] at h
        have := ih (a := ab.1) (b := ab.2) hc
        rw [← h.1, ← h.2, this]; rfl

theorem cleanUrl_id {s : Str} (hf : ∀ c t, s = c :: t → 32 < c.toNat)
    (hu : ∀ c ∈ s, c ∉ ['\t', '\r', '\n']) : cleanUrl s = s := by
  unfold cleanUrl
  have h1 : s.dropWhile isC0Space = s := by
    cases s with
    | nil => rfl
    | cons c t =>
      have := hf c t rfl
      simp [List.dropWhile, isC0Space, show ¬ c.toNat ≤ 32 by omega]
  rw [h1, List.filter_eq_self]
  intro c hc
  simpa [isUnsafe] using hu c hc

/-- The shape of a URL with a host, perhaps an empty one, and a path. -/
structure Shape (s host path q : Str) : Prop where
  letter : ∃ c t, s = c :: t ∧ isAsciiLetter c = true
  scheme : s.all schemeChar = true
  lower : lower s = s
  net : host ≠ [] ∨ s ∈ usesNetloc
  hostChars : ∀ c ∈ host, c ∉ ['/', '?', '#', '\\', '\t', '\r', '\n']
  pathChars : ∀ c ∈ path, c ∉ ['#', '?', '\\', '\t', '\r', '\n']
  rooted : ∃ t, path = '/' :: t
  query : ∀ c ∈ q, c ∉ ['#', '\\', '\t', '\r', '\n']

/-- The text of a URL. -/
def urlText (s host path q : Str) : Str :=
  s ++ ':' :: '/' :: '/' :: (host ++ (path ++ (if q = [] then [] else '?' :: q)))

theorem schemeChar_not {c x : Char} (h : schemeChar c = true) (hx : schemeChar x = false) : c ≠ x := by
  intro e; subst e; rw [h] at hx; exact absurd hx (by simp)

theorem schemeChar_clean {c : Char} (h : schemeChar c = true) :
    32 < c.toNat ∧ c ∉ ['\t', '\r', '\n', '\\', ':', '#', '?'] := by
  refine ⟨?_, ?_⟩
  · simp only [schemeChar, isAsciiLetter, isAsciiDigit, Bool.or_eq_true, Bool.and_eq_true, decide_eq_true_eq,
      List.mem_cons, List.not_mem_nil, or_false, Char.le_def, UInt32.le_iff_toNat_le] at h
    show 32 < c.val.toNat
    rcases h with ((⟨h, _⟩ | ⟨h, _⟩) | ⟨h, _⟩) | h | h | h
    · have : ('a' : Char).val.toNat = 97 := rfl
      omega
    · have : ('A' : Char).val.toNat = 65 := rfl
      omega
    · have : ('0' : Char).val.toNat = 48 := rfl
      omega
    all_goals (subst h; decide)
  · intro hc
    simp only [List.mem_cons, List.not_mem_nil, or_false] at hc
    rcases hc with e | e | e | e | e | e | e <;> (subst e; revert h; decide)

theorem takeNetloc_host (host rest : Str) (hh : ∀ c ∈ host, c ∉ ['/', '?', '#', '\\', '\t', '\r', '\n'])
    (hr : ∃ t, rest = '/' :: t) :
    takeNetloc ('/' :: '/' :: (host ++ rest)) = (host, rest) := by
  obtain ⟨t, rfl⟩ := hr
  have hall : ∀ c ∈ host, (!netlocEnd c) = true := by
    intro c hc
    have := hh c hc
    simp only [List.mem_cons, not_or] at this
    simp [netlocEnd, this.1, this.2.1, this.2.2.1]
  simp only [takeNetloc, Prod.mk.injEq]
  constructor
  · rw [List.takeWhile_append_of_pos hall]; simp [netlocEnd]
  · rw [List.dropWhile_append_of_pos hall]; simp [netlocEnd]

theorem urlText_clean {s host path q : Str} (h : Shape s host path q) :
    cleanUrl (urlText s host path q) = urlText s host path q := by
  apply cleanUrl_id
  · obtain ⟨c, t, e, hc⟩ := h.letter
    intro c' t' e'
    unfold urlText at e'
    rw [e] at e'
    have : c = c' := by simp at e'; exact e'.1
    subst this
    apply (schemeChar_clean _).1
    simp [schemeChar, hc]
  · intro c hc hbad
    unfold urlText at hc
    simp only [List.mem_append, List.mem_cons] at hc
    simp only [List.mem_cons, List.not_mem_nil, or_false] at hbad
    rcases hc with hc | hc | hc | hc | hc | hc | hc
    · have := (schemeChar_clean (List.all_eq_true.mp h.scheme c hc)).2
      simp only [List.mem_cons, not_or] at this
      rcases hbad with e | e | e
      · exact this.1 e
      · exact this.2.1 e
      · exact this.2.2.1 e
    · subst hc; revert hbad; decide
    · subst hc; revert hbad; decide
    · subst hc; revert hbad; decide
    · have := h.hostChars c hc
      simp only [List.mem_cons, not_or] at this
      rcases hbad with e | e | e
      · exact this.2.2.2.2.1 e
      · exact this.2.2.2.2.2.1 e
      · exact this.2.2.2.2.2.2.1 e
    · have := h.pathChars c hc
      simp only [List.mem_cons, not_or] at this
      rcases hbad with e | e | e
      · exact this.2.2.2.1 e
      · exact this.2.2.2.2.1 e
      · exact this.2.2.2.2.2.1 e
    · split at hc
      · simp at hc
      · rcases List.mem_cons.1 hc with hc | hc
        · subst hc; revert hbad; decide
        · have := h.query c hc
          simp only [List.mem_cons, not_or] at this
          rcases hbad with e | e | e
          · exact this.2.2.1 e
          · exact this.2.2.2.1 e
          · exact this.2.2.2.2.1 e

/-- Splitting a URL gives its parts. -/
theorem urlsplit_urlText {ok : Str → Bool} {dflt s host path q : Str} (h : Shape s host path q)
    (hok : ok host = true) :
    urlsplit ok dflt (urlText s host path q) = some ⟨s, host, path, q, []⟩ := by
  unfold urlsplit
  rw [urlText_clean h]
  have hcolon : ':' ∉ s := by
    intro hc
    have := (schemeChar_clean (List.all_eq_true.mp h.scheme _ hc)).2
    revert this; decide
  have h1 : takeScheme dflt (urlText s host path q) =
      (s, '/' :: '/' :: (host ++ (path ++ (if q = [] then [] else '?' :: q)))) := by
    obtain ⟨c, t, e, hc⟩ := h.letter
    have hcut := cut_append s ('/' :: '/' :: (host ++ (path ++ (if q = [] then [] else '?' :: q)))) hcolon
    unfold urlText
    unfold takeScheme
    split
    · next h0 => rw [e] at h0; simp at h0
    · next c' t' h0 =>
      have : c = c' := by rw [e] at h0; simp at h0; exact h0.1
      subst this
      rw [if_pos hc, hcut]
      simp [h.scheme, h.lower]
  rw [h1]
  simp only
  have h2 : ∃ t, (path ++ (if q = [] then [] else '?' :: q)) = '/' :: t := by
    obtain ⟨t, e⟩ := h.rooted
    exact ⟨t ++ (if q = [] then [] else '?' :: q), by rw [e]; rfl⟩
  rw [takeNetloc_host host _ h.hostChars h2]
  simp only
  have hp1 : '#' ∉ path := fun hc => (h.pathChars _ hc) (by decide)
  have hp2 : '?' ∉ path := fun hc => (h.pathChars _ hc) (by decide)
  have hq : '#' ∉ (path ++ (if q = [] then [] else '?' :: q)) := by
    intro hc
    rcases List.mem_append.1 hc with hc | hc
    · exact hp1 hc
    · split at hc
      · simp at hc
      · rcases List.mem_cons.1 hc with hc | hc
        · exact absurd hc (by decide)
        · exact (h.query _ hc) (by decide)
  unfold cutOr
  rw [cut_none hq]
  simp only [Option.getD_none]
  by_cases hq0 : q = []
  · subst hq0
    simp only [if_true, List.append_nil]
    rw [cut_none hp2]
    simp [hok]
  · rw [if_neg hq0, cut_append _ _ hp2]
    simp [hok]

/-- Putting the parts together again. -/
theorem urlunsplit_urlText {s host path q : Str} (h : Shape s host path q) :
    urlunsplit ⟨s, host, path, q, []⟩ = urlText s host path q := by
  obtain ⟨c, t, e, _⟩ := h.letter
  have hs : s ≠ [] := by rw [e]; simp
  obtain ⟨t', e'⟩ := h.rooted
  unfold urlunsplit urlText
  have h1 : startsWith ['/'] path = true := by rw [e']; rfl
  have h2 : host ≠ [] ∨ (s ≠ [] ∧ s ∈ usesNetloc) ∨ startsWith ['/', '/'] path = true := h.net.imp_right (fun hn => .inl ⟨hs, hn⟩)
  rw [if_pos h2]
  simp only [hs, h1, ne_eq, not_false_eq_true, if_true]
  by_cases hq : q = [] <;> simp [hq]

/-- Normalising the path of a URL, the rest staying as it is. -/
theorem reassemble {ok : Str → Bool} {s host path q : Str} (h : Shape s host path q) (hok : ok host = true)
    (hn : normpath path = path) :
    (match urlsplit ok [] (urlText s host path q) with
      | none => none
      | some parts => some (urlunsplit { parts with path := replace1 '\\' ['/'] (normpath parts.path) })) =
      some (urlText s host path q) := by
  rw [urlsplit_urlText h hok]
  simp only [hn]
  rw [replace1_noop (fun hc => (h.pathChars _ hc) (by decide)), urlunsplit_urlText h]

/-! ### Paths made of names -/

/-- File names without the characters that URLs treat specially, `%` excepted. -/
def UrlName (n : Str) : Prop := FileName n ∧ ∀ c ∈ n, c ∉ ['#', '?', '\\', '\t', '\r', '\n']

theorem urlName_quote {n : Str} (h : FileName n) : UrlName (quote n) := by
  refine ⟨fileName_quote h, ?_⟩
  intro c hc hbad
  simp only [List.mem_cons, List.not_mem_nil, or_false] at hbad
  rcases mem_quote hc with hs | hs
  · rcases hbad with e | e | e | e | e | e <;> (subst e; revert hs; decide)
  · subst hs; revert hbad; decide

/-- The segments of the text of a path. -/
def segsOf (ns : List Str) (slash : Bool) : List Str :=
  [] :: (ns ++ (if slash = true ∨ ns = [] then [[]] else []))

theorem pathTextOf_eq (ns : List Str) (slash : Bool) : pathTextOf ns slash = join ['/'] (segsOf ns slash) := by
  unfold pathTextOf segsOf absText
  cases ns with
  | nil => simp [join]
  | cons n ns =>
    cases slash with
    | false => simp [join]
    | true =>
      have := join_snoc (n :: ns) [] (by simp)
      simp only [List.cons_append] at this
      simp [join, this]

theorem splitOn_pathTextOf {ns : List Str} (slash : Bool) (h : ∀ n ∈ ns, FileName n) :
    splitOn '/' (pathTextOf ns slash) = segsOf ns slash := by
  rw [pathTextOf_eq]
  apply splitOn_join _ (by simp [segsOf])
  intro p hp
  simp only [segsOf, List.mem_cons, List.mem_append] at hp
  rcases hp with hp | hp | hp
  · simp [hp]
  · exact (h p hp).2.1
  · split at hp
    · simp at hp; simp [hp]
    · simp at hp

theorem mem_pathTextOf {c : Char} {ns : List Str} {slash : Bool} (h : c ∈ pathTextOf ns slash) :
    c = '/' ∨ ∃ n ∈ ns, c ∈ n := by
  unfold pathTextOf absText at h
  simp only [List.cons_append, List.mem_cons, List.mem_append] at h
  rcases h with h | h | h
  · exact Or.inl h
  · exact mem_join h
  · split at h
    · simp at h; exact Or.inl h
    · simp at h

/-- The last character of a path with names. -/
theorem absText_last {ns : List Str} (hne : ns ≠ []) (h : ∀ n ∈ ns, UrlName n) :
    ∃ a c, absText ns = a ++ [c] ∧ c ≠ '/' ∧ c ≠ '\\' ∧ c ≠ '\n' := by
  rcases List.eq_nil_or_concat ns with e | ⟨qs, q, e⟩
  · exact absurd e hne
  · simp only [List.concat_eq_append] at e
    subst e
    have hq := h q (by simp)
    rcases List.eq_nil_or_concat q with e | ⟨b, c, e⟩
    · exact absurd e hq.1.1
    · simp only [List.concat_eq_append] at e
      have hc : c ∈ q := by rw [e]; simp
      have hcc : c ≠ '/' ∧ c ≠ '\\' ∧ c ≠ '\n' := by
        refine ⟨fun e' => hq.1.2.1 (e' ▸ hc), ?_, ?_⟩ <;>
        · intro e'
          have := hq.2 c hc
          rw [e'] at this
          exact this (by decide)
      by_cases hqs : qs = []
      · subst hqs
        exact ⟨'/' :: b, c, by simp [absText, join, e], hcc⟩
      · refine ⟨'/' :: (join ['/'] qs ++ '/' :: b), c, ?_, hcc⟩
        unfold absText
        rw [join_snoc _ _ hqs, e]; simp

theorem isDirText_snoc {a : Str} {c : Char} (h1 : c ≠ '/') (h2 : c ≠ '\\') (h3 : c ≠ '\n') :
    isDirText (a ++ [c]) = false := by
  have hs : isSlash c = false := by simp [isSlash, h1, h2]
  unfold isDirText
  simp only [List.reverse_append, List.reverse_cons, List.reverse_nil, List.nil_append, List.cons_append]
  split
  · next e => exact absurd (List.cons.inj e).1 h3
  · cases a.reverse <;> simp [endsInSlash, hs]

theorem isDirText_snoc_slash {a : Str} {c : Char} (h1 : c ≠ '/') (h2 : c ≠ '\\') :
    isDirText (a ++ [c] ++ ['/']) = true := by
  have hs : isSlash c = false := by simp [isSlash, h1, h2]
  unfold isDirText
  simp only [List.reverse_append, List.reverse_cons, List.reverse_nil, List.nil_append, List.cons_append]
  simp [endsInSlash, isSlash, h1, h2]

theorem isDirText_pathTextOf {ns : List Str} {slash : Bool} (h : ∀ n ∈ ns, UrlName n) :
    isDirText (pathTextOf ns slash) = true ↔ slash = true ∧ ns ≠ [] := by
  by_cases hn : ns = []
  · subst hn; simp [pathTextOf, absText, join, isDirText, endsInSlash]
  · obtain ⟨a, c, e, h1, h2, h3⟩ := absText_last hn h
    unfold pathTextOf
    rw [e]
    cases slash with
    | false => simp [isDirText_snoc h1 h2 h3]
    | true => simp only [hn, ne_eq, not_false_eq_true, and_self, if_true, iff_true]
              exact isDirText_snoc_slash h1 h2

theorem foldl_normStep {ns : List Str} (h : ∀ n ∈ ns, FileName n) :
    ∀ acc, ns.foldl (normStep true) acc = acc ++ ns := by
  induction ns with
  | nil => intro acc; simp
  | cons n ns ih =>
    intro acc
    have hn := h n (by simp)
    have : normStep true acc n = acc ++ [n] := by
      unfold normStep
      rw [if_neg (fun e => e.elim hn.1 hn.2.2.1), if_pos (Or.inl hn.2.2.2)]
    rw [List.foldl_cons, this, ih (fun m hm => h m (by simp [hm]))]
    simp

theorem rootSlashes_pathTextOf {ns : List Str} {slash : Bool} (h : ∀ n ∈ ns, FileName n) :
    rootSlashes (pathTextOf ns slash) = ['/'] := by
  unfold pathTextOf absText
  cases ns with
  | nil => simp [join, rootSlashes, startsWith]
  | cons n ns =>
    have hn := h n (by simp)
    cases n with
    | nil => exact absurd rfl hn.1
    | cons c n =>
      have hc : c ≠ '/' := fun e => hn.2.1 (by simp [e])
      have : ∃ t, join ['/'] ((c :: n) :: ns) = c :: t := by
        cases ns with
        | nil => exact ⟨n, rfl⟩
        | cons m ms => exact ⟨n ++ ['/'] ++ join ['/'] (m :: ms), rfl⟩
      obtain ⟨t, e⟩ := this
      rw [e]
      simp [rootSlashes, startsWith, Ne.symm hc]

theorem osNormpath_pathTextOf {ns : List Str} {slash : Bool} (h : ∀ n ∈ ns, FileName n) :
    osNormpath (pathTextOf ns slash) = absText ns := by
  unfold osNormpath
  have h0 : pathTextOf ns slash ≠ [] := by simp [pathTextOf, absText]
  have h1 : startsWith ['/'] (pathTextOf ns slash) = true := by simp [pathTextOf, absText, startsWith]
  rw [if_neg h0, rootSlashes_pathTextOf h, splitOn_pathTextOf slash h, h1]
  have h2 : (segsOf ns slash).foldl (normStep true) [] = ns := by
    unfold segsOf
    rw [List.foldl_cons, List.foldl_append]
    have : normStep true [] [] = [] := by simp [normStep]
    rw [this, foldl_normStep h]
    split <;> simp [normStep]
  rw [h2]
  simp [absText]

theorem normpath_pathTextOf {ns : List Str} {slash : Bool} (h : ∀ n ∈ ns, UrlName n) :
    normpath (pathTextOf ns slash) = pathTextOf ns slash := by
  unfold normpath
  rw [osNormpath_pathTextOf (fun n hn => (h n hn).1)]
  by_cases hd : slash = true ∧ ns ≠ []
  · have h1 := (isDirText_pathTextOf (slash := slash) h).mpr hd
    obtain ⟨a, c, e, hc, _⟩ := absText_last hd.2 h
    have h2 : (absText ns).getLast? ≠ some '/' := by rw [e]; simp [hc]
    simp only [h1, Bool.true_and, bne_iff_ne, ne_eq, h2, not_false_eq_true, if_true]
    unfold pathTextOf
    rw [if_pos hd]
  · have h1 : isDirText (pathTextOf ns slash) = false := by
      cases hh : isDirText (pathTextOf ns slash) with
      | false => rfl
      | true => exact absurd ((isDirText_pathTextOf h).mp hh) hd
    simp only [h1, Bool.false_and]
    unfold pathTextOf
    rw [if_neg hd]; simp

/-- The shape of URLs whose path is made of names. -/
theorem shape_names {s host q : Str} {ns : List Str} {slash : Bool} (hn : ∀ n ∈ ns, UrlName n)
    (letter : ∃ c t, s = c :: t ∧ isAsciiLetter c = true) (scheme : s.all schemeChar = true)
    (low : lower s = s) (net : host ≠ [] ∨ s ∈ usesNetloc)
    (hostChars : ∀ c ∈ host, c ∉ ['/', '?', '#', '\\', '\t', '\r', '\n'])
    (query : ∀ c ∈ q, c ∉ ['#', '\\', '\t', '\r', '\n']) :
    Shape s host (pathTextOf ns slash) q := by
  refine ⟨letter, scheme, low, net, hostChars, ?_, ⟨_, rfl⟩, query⟩
  intro c hc
  rcases mem_pathTextOf hc with e | ⟨n, h1, h2⟩
  · subst e; decide
  · exact (hn n h1).2 c h2

theorem shape_file {ns : List Str} {slash : Bool} (hn : ∀ n ∈ ns, UrlName n) :
    Shape fileScheme [] (pathTextOf ns slash) [] :=
  shape_names hn ⟨'f', _, rfl, by decide⟩ (by decide) (by decide) (.inr (by decide)) (by simp) (by simp)

/-- The canonical URL of a local path. -/
def canon (ns : List Str) (slash : Bool) : Str := urlText fileScheme [] (pathTextOf ns slash) []

theorem urlparse_canon {ok : Str → Bool} {dflt : Str} {ns : List Str} {slash : Bool} (hn : ∀ n ∈ ns, UrlName n)
    (hok : ok [] = true) :
    urlparse ok dflt (canon ns slash) = some (⟨fileScheme, [], pathTextOf ns slash, [], []⟩, []) := by
  unfold urlparse canon
  rw [urlsplit_urlText (shape_file hn) hok]
  have : fileScheme ∉ usesParams := by decide
  simp [this]

theorem foldl_dotStep {ns : List Str} (h : ∀ n ∈ ns, n ≠ ['.'] ∧ n ≠ ['.', '.']) :
    ∀ acc, ns.foldl dotStep acc = acc ++ ns := by
  induction ns with
  | nil => intro acc; simp
  | cons n ns ih =>
    intro acc
    have hn := h n (by simp)
    have : dotStep acc n = acc ++ [n] := by
      unfold dotStep
      rw [if_neg hn.2, if_neg hn.1]
    rw [List.foldl_cons, this, ih (fun m hm => h m (by simp [hm]))]
    simp

theorem segsOf_names {ns : List Str} {slash : Bool} (h : ∀ n ∈ ns, FileName n) :
    ∀ s ∈ segsOf ns slash, s ≠ ['.'] ∧ s ≠ ['.', '.'] := by
  intro s hs
  simp only [segsOf, List.mem_cons, List.mem_append] at hs
  rcases hs with hs | hs | hs
  · subst hs; decide
  · exact ⟨(h s hs).2.2.1, (h s hs).2.2.2⟩
  · split at hs
    · simp only [List.mem_singleton] at hs; subst hs; decide
    · simp at hs

theorem getLastD_mem {l : List Str} (h : l ≠ []) : l.getLastD [] ∈ l := by
  cases l with
  | nil => exact absurd rfl h
  | cons a t => rw [List.getLastD_cons]; exact List.getLastD_mem_cons

/-- A URL path of names is what joining it to any base leaves it. -/
theorem joinUrlPath_names {b : Str} {ns : List Str} {slash : Bool} (h : ∀ n ∈ ns, FileName n) :
    joinUrlPath b (pathTextOf ns slash) = pathTextOf ns slash := by
  have h1 : startsWith ['/'] (pathTextOf ns slash) = true := by simp [pathTextOf, absText, startsWith]
  have h2 := segsOf_names (slash := slash) h
  have h3 := h2 _ (getLastD_mem (l := segsOf ns slash) (by simp [segsOf]))
  unfold joinUrlPath
  simp only [h1, if_true, splitOn_pathTextOf slash h]
  have h4 : ¬((segsOf ns slash).getLastD [] = ['.'] ∨ (segsOf ns slash).getLastD [] = ['.', '.']) :=
    fun e => e.elim h3.1 h3.2
  simp only [h4, if_false]
  rw [foldl_dotStep h2, List.nil_append, ← pathTextOf_eq]
  simp [pathTextOf, absText]

/-! ### The URL of the working folder -/

theorem takeNetloc_none {p : Str} (h : ∀ t, p ≠ '/' :: '/' :: t) : takeNetloc p = ([], p) := by
  unfold takeNetloc
  split
  · next rest => exact absurd rfl (h rest)
  · rfl

theorem takeScheme_none {dflt p : Str} (h : ∀ a b, p = a ++ ':' :: b → '/' ∈ a) : takeScheme dflt p = (dflt, p) := by
  unfold takeScheme
  split
  · rfl
  · next c t =>
    split
    · split
      · next a b hc =>
        have := h a b (cut_some hc)
        have hs : a.all schemeChar = false := by
          rw [Bool.eq_false_iff]
          intro hall
          have := List.all_eq_true.mp hall _ this
          revert this; decide
        simp [hs]
      · rfl
    · rfl

/-- A text that is only a path, read with the scheme of local files. -/
theorem urlparse_path {ok : Str → Bool} {p : Str} (hok : ok [] = true)
    (chars : ∀ c ∈ p, c ∉ ['#', '?', '\t', '\r', '\n']) (first : ∀ c t, p = c :: t → 32 < c.toNat)
    (colon : ∀ a b, p = a ++ ':' :: b → '/' ∈ a) (slashes : ∀ t, p ≠ '/' :: '/' :: t) :
    urlparse ok fileScheme p = some (⟨fileScheme, [], p, [], []⟩, []) := by
  have hp1 : '#' ∉ p := fun hc => chars _ hc (by decide)
  have hp2 : '?' ∉ p := fun hc => chars _ hc (by decide)
  have hcl : cleanUrl p = p := by
    apply cleanUrl_id first
    intro c hc hbad
    apply chars c hc
    simp only [List.mem_cons, List.not_mem_nil, or_false] at hbad ⊢
    rcases hbad with e | e | e <;> simp [e]
  unfold urlparse urlsplit
  rw [hcl, takeScheme_none colon]
  simp only
  rw [takeNetloc_none slashes]
  simp only
  unfold cutOr
  rw [cut_none hp1]
  simp only [Option.getD_none]
  rw [cut_none hp2]
  have : fileScheme ∉ usesParams := by decide
  simp [hok, this]

theorem pathTextOf_slashes {ns : List Str} {slash : Bool} (h : ∀ n ∈ ns, FileName n) :
    ∀ t, pathTextOf ns slash ≠ '/' :: '/' :: t := by
  intro t e
  unfold pathTextOf absText at e
  cases ns with
  | nil => simp [join] at e
  | cons n ns =>
    have hn := h n (by simp)
    cases n with
    | nil => exact absurd rfl hn.1
    | cons c n =>
      have : ∃ t, join ['/'] ((c :: n) :: ns) = c :: t := by
        cases ns with
        | nil => exact ⟨n, rfl⟩
        | cons m ms => exact ⟨n ++ ['/'] ++ join ['/'] (m :: ms), rfl⟩
      obtain ⟨t', e'⟩ := this
      rw [e'] at e
      simp only [List.cons_append, List.cons.injEq, true_and] at e
      exact hn.2.1 (by simp [e.1])

/-- The path of the URL of the working folder. -/
def basePath (cwd : List Str) : Str := if cwd = [] then [] else pathTextOf (cwd.map quote) true

theorem urlparse_fileColon {ok : Str → Bool} (hok : ok [] = true) :
    urlparse ok [] (fileScheme ++ [':']) = some (⟨fileScheme, [], [], [], []⟩, []) := by
  have : urlsplit ok [] (fileScheme ++ [':']) = if ok [] then some ⟨fileScheme, [], [], [], []⟩ else none := rfl
  unfold urlparse
  rw [this, if_pos hok]; rfl

/-- Joining a path to the URL of a local folder. -/
theorem urljoin_file {ok : Str → Bool} {base u bp p : Str} (h1 : base ≠ []) (h2 : u ≠ [])
    (hb : urlparse ok [] base = some (⟨fileScheme, [], bp, [], []⟩, []))
    (hu : urlparse ok fileScheme u = some (⟨fileScheme, [], p, [], []⟩, [])) (hp : p ≠ []) :
    urljoin ok base u = some (urlunsplit ⟨fileScheme, [], joinUrlPath bp p, [], []⟩) := by
  have h3 : fileScheme ∈ usesRelative := by decide
  have h4 : fileScheme ∈ usesNetloc := by decide
  unfold urljoin
  rw [if_neg h1, if_neg h2, hb]
  simp only [hu]
  rw [if_neg (by rintro (h | h); exact h rfl; exact h h3), if_neg (by rintro ⟨_, h⟩; exact h rfl)]
  simp only [if_pos h4]
  rw [if_neg (fun h => hp h.1)]
  rfl

theorem base_url {ok : Str → Bool} {cwd : List Str} (hok : ok [] = true) (h : ∀ n ∈ cwd, FileName n) :
    ∃ base, urljoin ok (fileScheme ++ [':']) (quote (absText cwd ++ ['/'])) = some base ∧ base ≠ [] ∧
      urlparse ok [] base = some (⟨fileScheme, [], basePath cwd, [], []⟩, []) := by
  have hf := urlparse_fileColon hok
  by_cases hc : cwd = []
  · subst hc
    refine ⟨fileScheme ++ [':', '/', '/'], ?_, by decide, ?_⟩
    · have hs : urlparse ok fileScheme ['/', '/'] = some (⟨fileScheme, [], [], [], []⟩, []) := by
        have : urlsplit ok fileScheme ['/', '/'] = if ok [] then some ⟨fileScheme, [], [], [], []⟩ else none := rfl
        unfold urlparse
        rw [this, if_pos hok]; rfl
      have hq : quote (absText [] ++ ['/']) = ['/', '/'] := rfl
      unfold urljoin
      rw [hq, hf, if_neg (by decide), if_neg (by decide)]
      simp only [hs]
      rfl
    · have : urlsplit ok [] (fileScheme ++ [':', '/', '/']) =
          if ok [] then some ⟨fileScheme, [], [], [], []⟩ else none := rfl
      unfold urlparse
      rw [this, if_pos hok]; rfl
  · have hq : ∀ n ∈ cwd.map quote, UrlName n := by
      intro n hn
      obtain ⟨m, hm, rfl⟩ := List.mem_map.1 hn
      exact urlName_quote (h m hm)
    have he : quote (absText cwd ++ ['/']) = pathTextOf (cwd.map quote) true := by
      unfold pathTextOf absText
      rw [quote_append, quote_slash, quote_join]
      simp [hc]
      rfl
    have hp : urlparse ok fileScheme (pathTextOf (cwd.map quote) true) =
        some (⟨fileScheme, [], pathTextOf (cwd.map quote) true, [], []⟩, []) := by
      apply urlparse_path hok
      · intro c hc
        rw [← he] at hc
        intro hbad
        simp only [List.mem_cons, List.not_mem_nil, or_false] at hbad
        rcases mem_quote hc with hs | hs
        · rcases hbad with e | e | e | e | e <;> (subst e; revert hs; decide)
        · subst hs; revert hbad; decide
      · intro c t e
        have : c = '/' := by
          unfold pathTextOf absText at e
          simp at e; exact e.1.symm
        subst this; decide
      · intro a b e
        cases a with
        | nil => unfold pathTextOf absText at e; simp at e
        | cons x a =>
          unfold pathTextOf absText at e
          simp only [List.cons_append, List.cons.injEq] at e
          simp [← e.1]
      · exact pathTextOf_slashes (fun n hn => (hq n hn).1)
    refine ⟨canon (cwd.map quote) true, ?_, by simp [canon, urlText, fileScheme], ?_⟩
    · have h2 : pathTextOf (cwd.map quote) true ≠ [] := by simp [pathTextOf, absText]
      rw [he, urljoin_file (by decide) h2 hf hp h2, joinUrlPath_names (fun n hn => (hq n hn).1),
        urlunsplit_urlText (shape_file hq)]
      rfl
    · rw [urlparse_canon hq hok, basePath, if_neg hc]

end Lemmas
