import Verif.Lemmas.UrlWalk
/-
Lemmas about what is opened for the URL of a plain path.
-/
namespace Lemmas
open Py Model Spec

theorem startsWith_unc {p : Str} (h : '\\' ∉ p) : startsWith uncPrefix p = false := by
  cases p with
  | nil => rfl
  | cons c t =>
    simp only [List.mem_cons, not_or] at h
    simp [startsWith, uncPrefix, List.isPrefixOf, h.1]

theorem driveMatch_none {p : Str} (colon : ∀ a b, p = a ++ ':' :: b → '/' ∈ a) : driveMatch p = none := by
  unfold driveMatch
  split
  · next c rest =>
    have := colon [c] rest rfl
    simp only [List.mem_singleton] at this
    subst this
    rfl
  · rfl

theorem orSlash_ne_nil (p : Str) : orSlash p ≠ [] := by
  unfold orSlash
  split
  · simp
  · next h => exact h

/-- The last steps of `path2url`, for a URL of names. -/
theorem finish_canon {ok : Str → Bool} {ns : List Str} {slash : Bool} (hok : ok [] = true)
    (hn : ∀ n ∈ ns, UrlName n) :
    (match urlsplit ok [] (canon ns slash) with
      | none => none
      | some parts => some (urlunsplit { parts with path := replace1 '\\' ['/'] (normpath parts.path) })) =
      some (canon ns slash) :=
  reassemble (shape_file hn) hok (normpath_pathTextOf hn)

theorem canon_chars {ns : List Str} {slash : Bool} (hn : ∀ n ∈ ns, UrlName n) : '\\' ∉ canon ns slash := by
  intro hc
  unfold canon urlText at hc
  simp only [List.mem_append, List.mem_cons, if_true, List.not_mem_nil, or_false, false_or] at hc
  rcases hc with hc | hc | hc | hc | hc
  · revert hc; decide
  · revert hc; decide
  · revert hc; decide
  · revert hc; decide
  · exact (shape_file (slash := slash) hn).pathChars _ hc (by decide)

/-- The URL of the URL of a local path is that URL. -/
theorem path2url_canon {ok : Str → Bool} {cwd ns : List Str} {slash : Bool} (hok : ok [] = true)
    (hc : ∀ n ∈ cwd, FileName n) (hn : ∀ n ∈ ns, UrlName n) :
    path2url ok (absText cwd) (canon ns slash) = some (canon ns slash) := by
  have h0 : canon ns slash ≠ [] := by simp [canon, urlText, fileScheme]
  have hb := canon_chars (slash := slash) hn
  have hd : driveMatch (canon ns slash) = none := by simp [canon, urlText, fileScheme, driveMatch]
  obtain ⟨base, h1, h2, h3⟩ := base_url hok hc
  have hp : pathTextOf ns slash ≠ [] := by simp [pathTextOf, absText]
  have hj := urljoin_file h2 h0 h3 (urlparse_canon hn hok) hp
  rw [joinUrlPath_names (fun n h => (hn n h).1), urlunsplit_urlText (shape_file hn)] at hj
  unfold path2url
  rw [if_neg h0, startsWith_unc hb]
  simp only [Bool.false_eq_true, if_false]
  rw [replace1_noop hb, hd, h1]
  simp only [hj]
  exact finish_canon hok hn

theorem plain_seg {p s : Str} (hp : PlainPath p) (hs : s ∈ splitOn '/' p) :
    '/' ∉ s ∧ (∀ c ∈ s, c ∉ ['#', '?', '%', '\\', '\t', '\r', '\n']) := by
  refine ⟨not_mem_of_mem_splitOn hs, ?_⟩
  intro c hc hbad
  have : c ∈ p := by
    rw [← join_splitOn '/' p]
    exact mem_join_of_mem hs hc
  exact hp.chars c this hbad

theorem plain_urlName {p s : Str} (hp : PlainPath p) (hs : s ∈ splitOn '/' p) (h1 : s ≠ []) (h2 : s ≠ ['.'])
    (h3 : s ≠ ['.', '.']) : UrlName s := by
  obtain ⟨ha, hb⟩ := plain_seg hp hs
  refine ⟨⟨h1, ha, h2, h3⟩, ?_⟩
  intro c hc hbad
  apply hb c hc
  simp only [List.mem_cons, List.not_mem_nil, or_false] at hbad ⊢
  rcases hbad with e | e | e | e | e | e <;> simp [e]

/-- The names in the URL of a path. -/
def urlNames (cwd : List Str) (p : Str) : List Str :=
  walk (if p.head? = some '/' then [] else cwd.map quote) (splitOn '/' p)

theorem urlNames_good {cwd : List Str} {p : Str} (hc : ∀ n ∈ cwd, FileName n) (hp : PlainPath p) :
    ∀ n ∈ urlNames cwd p, UrlName n := by
  apply pathWalk_all
  · intro n hn
    split at hn
    · simp at hn
    · obtain ⟨m, hm, rfl⟩ := List.mem_map.1 hn
      exact urlName_quote (hc m hm)
  · intro s hs h1 h2 h3
    exact plain_urlName hp hs h1 h2 h3

/-- The URL of a plain path. -/
theorem path2url_plain {ok : Str → Bool} {cwd : List Str} {p : Str} {a : List Str} {s : Str} (hok : ok [] = true)
    (hc : ∀ n ∈ cwd, FileName n) (hp : PlainPath p) (hs : splitOn '/' p = a ++ [s]) :
    path2url ok (absText cwd) p = some (canon (urlNames cwd p) (isFolder s)) := by
  have hb : '\\' ∉ p := fun h => hp.chars _ h (by decide)
  obtain ⟨base, h1, h2, h3⟩ := base_url hok hc
  have hu : urlparse ok fileScheme p = some (⟨fileScheme, [], p, [], []⟩, []) := by
    apply urlparse_path hok _ hp.first hp.colon
    · intro t e
      exact hp.slashes (by rw [e]; rfl) [] t e
    · intro c hc hbad
      apply hp.chars c hc
      simp only [List.mem_cons, List.not_mem_nil, or_false] at hbad ⊢
      rcases hbad with e | e | e | e | e <;> simp [e]
  have hj := urljoin_file h2 hp.nonempty h3 hu hp.nonempty
  obtain ⟨l, hl, he, hw⟩ := joinUrlPath_segs hc hs hp.slashes
  have hgood := urlNames_good hc hp
  have hsp := segPath_spec (l := l) (last := s) hl (by
    rw [hw]; exact fun n hn => (hgood n hn).1)
  have hne : joinUrlPath (basePath cwd) p ≠ [] := by
    rw [he]
    exact orSlash_ne_nil _
  rw [urlunsplit_file hne, he, hsp, hw] at hj
  unfold path2url
  rw [if_neg hp.nonempty, startsWith_unc hb]
  simp only [Bool.false_eq_true, if_false]
  rw [replace1_noop hb, driveMatch_none hp.colon, h1]
  simp only [hj]
  exact finish_canon hok hgood

/-! ### What is opened -/

/-- Texts read name by name. -/
def ReadsL (us ns : List Str) : Prop :=
  ∃ l : List (Str × Str), us = l.map Prod.fst ∧ ns = l.map Prod.snd ∧ ∀ x ∈ l, Reads x.1 x.2

theorem readsL_walk {us ns segs : List Str} (h : ReadsL us ns) (hs : ∀ s ∈ segs, '%' ∉ s) :
    ReadsL (walk us segs) (walk ns segs) := by
  induction segs generalizing us ns with
  | nil => exact h
  | cons s segs ih =>
    have hs' : ∀ s ∈ segs, '%' ∉ s := fun x hx => hs x (by simp [hx])
    simp only [walk]
    split
    · exact ih h hs'
    · split
      · apply ih _ hs'
        obtain ⟨l, h1, h2, h3⟩ := h
        exact ⟨l.dropLast, by rw [h1, List.map_dropLast], by rw [h2, List.map_dropLast],
          fun x hx => h3 x ((List.dropLast_sublist l).subset hx)⟩
      · apply ih _ hs'
        obtain ⟨l, h1, h2, h3⟩ := h
        refine ⟨l ++ [(s, s)], by rw [h1]; simp, by rw [h2]; simp, ?_⟩
        intro x hx
        rcases List.mem_append.1 hx with hx | hx
        · exact h3 x hx
        · simp only [List.mem_singleton] at hx
          subst hx
          exact Reads.refl (hs s (by simp))

theorem reads_join {us ns : List Str} (h : ReadsL us ns) : Reads (join ['/'] us) (join ['/'] ns) := by
  obtain ⟨l, rfl, rfl, h3⟩ := h
  induction l with
  | nil => exact .nil
  | cons x l ih =>
    cases l with
    | nil => exact h3 x (by simp)
    | cons y l =>
      have ih' := ih (fun z hz => h3 z (by simp [hz]))
      simp only [List.map_cons, join] at ih' ⊢
      exact ((h3 x (by simp)).append (.plain (by decide) .nil)).append ih'

theorem reads_pathTextOf {us ns : List Str} (h : ReadsL us ns) (slash : Bool) :
    Reads (pathTextOf us slash) (pathTextOf ns slash) := by
  have he : us = [] ↔ ns = [] := by
    obtain ⟨l, rfl, rfl, _⟩ := h
    simp
  unfold pathTextOf absText
  apply Reads.append
  · exact .plain (by decide) (reads_join h)
  · by_cases hu : us = []
    · simp [hu, he.mp hu]; exact .nil
    · have hn : ns ≠ [] := fun e => hu (he.mpr e)
      by_cases hs : slash = true
      · simp [hu, hn, hs]; exact .plain (by decide) .nil
      · simp [hs]; exact .nil

theorem readsL_quote (ns : List Str) : ReadsL (ns.map quote) ns := by
  refine ⟨ns.map (fun n => (quote n, n)), by simp [Function.comp_def], by simp [Function.comp_def], ?_⟩
  intro x hx
  obtain ⟨n, _, rfl⟩ := List.mem_map.1 hx
  exact reads_quote n

/-- The local path of a URL path, before the prefix of long ones. -/
theorem urlpath2path_canon {U : Utf8Lib} {us ns : List Str} {slash : Bool} (hu : ∀ n ∈ us, UrlName n)
    (h : ReadsL us ns) :
    urlpath2path U (pathTextOf us slash) =
      if (pathTextOf ns slash).length > 200 then pathTextOf ns slash ++ uncPrefix else pathTextOf ns slash := by
  unfold urlpath2path
  rw [unquote_reads U (reads_pathTextOf h slash)]
  have he : us = [] ↔ ns = [] := by
    obtain ⟨l, rfl, rfl, _⟩ := h
    simp
  have hg : (isDirText (pathTextOf us slash) && (pathTextOf ns slash).getLast? != some '/') = false := by
    cases hd : isDirText (pathTextOf us slash) with
    | false => rfl
    | true =>
      obtain ⟨h1, h2⟩ := (isDirText_pathTextOf hu).mp hd
      have hn : ns ≠ [] := fun e => h2 (he.mpr e)
      simp [pathTextOf, h1, hn]
  simp only [hg, Bool.false_eq_true, if_false]

theorem openBook_canon {ok : Str → Bool} {U : Utf8Lib} {us ns : List Str} {slash : Bool} (hok : ok [] = true)
    (hu : ∀ n ∈ us, UrlName n) (h : ReadsL us ns) :
    openBook ok U (canon us slash) = some (.file
      (if (pathTextOf ns slash).length > 200 then pathTextOf ns slash ++ uncPrefix else pathTextOf ns slash)) := by
  unfold openBook
  rw [urlparse_canon hu hok]
  simp only [ne_eq, not_true_eq_false, if_false, if_true]
  rw [urlpath2path_canon hu h]

theorem readsL_urlNames {cwd : List Str} {p : Str} (hp : PlainPath p) : ReadsL (urlNames cwd p) (meant cwd p) := by
  unfold urlNames meant
  apply readsL_walk
  · split
    · exact ⟨[], rfl, rfl, by simp⟩
    · exact readsL_quote cwd
  · intro s hs hc
    exact (plain_seg hp hs).2 _ hc (by decide)

/-! ### Remote URLs -/

theorem urlparse_remote {ok : Str → Bool} {dflt s host path q : Str} (h : Shape s host path q)
    (hok : ok host = true) (hs : ';' ∉ path) :
    urlparse ok dflt (urlText s host path q) = some (⟨s, host, path, q, []⟩, []) := by
  unfold urlparse
  rw [urlsplit_urlText h hok]
  have hcut : cut ';' ((splitOn '/' path).getLastD []) = none := by
    apply cut_none
    intro hc
    apply hs
    rw [← join_splitOn '/' path]
    exact mem_join_of_mem (getLastD_mem (splitOn_ne_nil _ _)) hc
  simp only [Option.map_some]
  split
  · unfold splitParams
    simp only [hcut]
  · rfl

theorem urlText_chars {s host path q : Str} (h : Shape s host path q) : '\\' ∉ urlText s host path q := by
  intro hc
  unfold urlText at hc
  simp only [List.mem_append, List.mem_cons] at hc
  rcases hc with hc | hc | hc | hc | hc | hc | hc
  · exact (schemeChar_clean (List.all_eq_true.mp h.scheme _ hc)).2 (by decide)
  · revert hc; decide
  · revert hc; decide
  · revert hc; decide
  · exact h.hostChars _ hc (by decide)
  · exact h.pathChars _ hc (by decide)
  · split at hc
    · simp at hc
    · rcases List.mem_cons.1 hc with hc | hc
      · revert hc; decide
      · exact h.query _ hc (by decide)

theorem path2url_remote {ok : Str → Bool} {cwd ns : List Str} {slash : Bool} {s host q : Str}
    (hok : ok [] = true) (hokh : ok host = true) (hc : ∀ n ∈ cwd, FileName n) (hn : ∀ n ∈ ns, UrlName n)
    (h : Shape s host (pathTextOf ns slash) q) (h2 : ∃ a b t, s = a :: b :: t) (hf : s ≠ fileScheme) :
    path2url ok (absText cwd) (urlText s host (pathTextOf ns slash) q) =
      some (urlText s host (pathTextOf ns slash) q) := by
  obtain ⟨a, b, t, es⟩ := h2
  have h0 : urlText s host (pathTextOf ns slash) q ≠ [] := by rw [es]; simp [urlText]
  have hb := urlText_chars h
  have hd : driveMatch (urlText s host (pathTextOf ns slash) q) = none := by
    have hbc : b ≠ ':' := by
      intro e
      have := (schemeChar_clean (List.all_eq_true.mp h.scheme b (by rw [es]; simp))).2
      rw [e] at this
      exact this (by decide)
    rw [es]
    unfold driveMatch urlText
    split
    · next e =>
      simp only [List.cons_append, List.cons.injEq] at e
      exact absurd e.2.1 hbc
    · rfl
  obtain ⟨base, h1, hne, h3⟩ := base_url hok hc
  have hp : ∃ r, urlparse ok fileScheme (urlText s host (pathTextOf ns slash) q) = some r ∧ r.1.scheme = s := by
    unfold urlparse
    rw [urlsplit_urlText h hokh]
    simp only [Option.map_some]
    split
    · exact ⟨_, rfl, rfl⟩
    · exact ⟨_, rfl, rfl⟩
  obtain ⟨⟨u, params⟩, hr, hrs⟩ := hp
  simp only at hrs
  have hj : urljoin ok base (urlText s host (pathTextOf ns slash) q) =
      some (urlText s host (pathTextOf ns slash) q) := by
    unfold urljoin
    rw [if_neg hne, if_neg h0, h3]
    simp only [hr, hrs]
    rw [if_pos (Or.inl hf)]
  unfold path2url
  rw [if_neg h0, startsWith_unc hb]
  simp only [Bool.false_eq_true, if_false]
  rw [replace1_noop hb, hd, h1]
  simp only [hj]
  exact reassemble h hokh (normpath_pathTextOf hn)

end Lemmas
