import Verif.Lemmas.NormPaths
/-
Normalised paths (C112).
-/
namespace Props
open Py Model Spec Lemmas

theorem rooted_iff (p : Str) : p.head? = some '/' ↔ rootSlashes p ≠ [] := by
  have : p.head? = some '/' ↔ startsWith ['/'] p = true := by
    cases p with
    | nil => simp [startsWith]
    | cons c t =>
      simp only [startsWith, List.isPrefixOf, Bool.and_true, beq_iff_eq, List.head?_cons, Option.some.injEq]
      exact ⟨Eq.symm, Eq.symm⟩
  rw [this, (root_mem p).2, decide_eq_true_iff]

/-- **C112** A normalised path means the same file as the given one, in every working folder. -/
theorem C112_meaning (cwd : List Str) (p : Str) : meant cwd (normpath p) = meant cwd p := by
  obtain ⟨tail, e, ht⟩ := normpath_eq p
  obtain ⟨hr, hst⟩ := root_mem p
  rw [e, meant_normText cwd hr (fun x hx => kept_elem hx) (fun h => (ht.1 h).2)]
  unfold meant
  have hiff : (p.head? = some '/') ↔ ¬ rootSlashes p = [] := rooted_iff p
  by_cases h : rootSlashes p = []
  · rw [if_pos h, if_neg (fun e => hiff.1 e h)]
    apply walk_kept
    intro e
    rw [hst, h] at e
    exact absurd e (by decide)
  · rw [if_neg h, if_pos (hiff.2 h)]
    exact walk_kept (fun _ => rfl)

/-- **C112** Nothing can be left out of a normalised path. -/
theorem C112_form (p : Str) : NormalPath (normpath p) := by
  obtain ⟨tail, e, ht⟩ := normpath_eq p
  obtain ⟨hr, hst⟩ := root_mem p
  obtain ⟨ups, names, hk, h0, hn⟩ := (stack_kept p).form
  refine ⟨rootSlashes p, ups, names, if tail then ['/'] else [], hr, ?_, hn, by cases tail <;> simp, ?_, ?_⟩
  · intro h
    exact h0 (by rw [hst]; exact decide_eq_true h)
  · intro h
    cases tail with
    | false => simp at h
    | true =>
      rcases (ht.1 rfl).2 with h1 | h1
      · exact Or.inl h1
      · by_cases hro : rootSlashes p = []
        · exact Or.inl hro
        · refine Or.inr (fun e => h1 ?_)
          rw [hk, h0 (by rw [hst]; exact decide_eq_true hro), e]
          rfl
  · rw [e, hk]
    unfold normText
    have : (List.replicate ups dd ++ names = []) ↔ ups = 0 ∧ names = [] := by
      simp [List.replicate_eq_nil_iff]
    simp only [this]
    rfl

/-- **C112** Normalising again changes nothing. What is missing: paths with backslashes or newlines, see below. -/
theorem C112_again_partial (p : Str) (h : Simple p) : normpath (normpath p) = normpath p := by
  obtain ⟨tail, e, ht⟩ := normpath_eq p
  obtain ⟨hr, hst⟩ := root_mem p
  have hel : ∀ x ∈ kept p, x ≠ [] ∧ '/' ∉ x := fun x hx => kept_elem hx
  have hs := simple_normText h tail
  have hstack : Stack (decide (rootSlashes p ≠ [])) (kept p) := hst ▸ stack_kept p
  have hn := osNormpath_normText (tail := tail) hr hstack (fun h => (ht.1 h).2)
  have hl := normText_final _ _ hr hel
  rw [e]
  unfold normpath
  rw [hn]
  have hd := isDirText_iff hs
  cases tail with
  | true =>
    have hg : (normText (rootSlashes p) (kept p)).getLast? ≠ some '/' := by
      intro e
      have h1 := hl.1 e
      rcases (ht.1 rfl).2 with h2 | h2
      · exact h1.1 h2
      · exact h2 h1.2
    have hne : normText (rootSlashes p) (kept p) ≠ [] := by
      unfold normText
      split
      · simp
      · next hh =>
        intro e
        simp only [List.append_eq_nil_iff, join_eq_nil (fun x hx => (hel x hx).1)] at e
        exact hh e
    have : isDirText (normText (rootSlashes p) (kept p) ++ if true = true then ['/'] else []) = true := by
      rw [hd]
      rcases List.eq_nil_or_concat (normText (rootSlashes p) (kept p)) with e | ⟨a, c, e⟩
      · exact absurd e hne
      · rw [List.concat_eq_append] at e
        rw [e] at hg ⊢
        refine ⟨a, c, by simp, fun hc => hg ?_⟩
        rw [List.getLast?_concat, hc]
    rw [this]
    simp [hg]
  | false =>
    have : isDirText (normText (rootSlashes p) (kept p) ++ if false = true then ['/'] else []) = true →
        (normText (rootSlashes p) (kept p)).getLast? = some '/' := by
      intro hh
      obtain ⟨a, c, e, -⟩ := hd.1 hh
      simp only [Bool.false_eq_true, if_false, List.append_nil] at e
      rw [e]
      simp
    by_cases hb : isDirText (normText (rootSlashes p) (kept p) ++ if false = true then ['/'] else []) = true
    · simp [this hb]
    · simp only [Bool.not_eq_true] at hb
      rw [hb]
      simp

/-- The segments kept of a path that begins with a slash are the names it means. -/
theorem kept_rooted {p : Str} (h : rootSlashes p ≠ []) : kept p = meant [] p := by
  obtain ⟨hr, hst⟩ := root_mem p
  obtain ⟨ups, names, hk, h0, hn⟩ := (stack_kept p).form
  have hw := C112_meaning [] p
  obtain ⟨tail, e, ht⟩ := normpath_eq p
  rw [e, meant_normText [] hr (fun x hx => kept_elem hx) (fun h => (ht.1 h).2), if_neg h] at hw
  rw [← hw, hk, h0 (by rw [hst]; exact decide_eq_true h)]
  simpa using (pathWalk_names hn []).symm

/-- **C112** A normalised path ends with a slash if and only if the given one does or it is that of the root. What is
missing: several slashes at the end, backslashes and newlines, see below. -/
theorem C112_slash_partial (p : Str) (h : Simple p) (h2 : ¬ ∃ a, p = a ++ ['/', '/']) :
    (∃ a, normpath p = a ++ ['/']) ↔ (∃ a, p = a ++ ['/']) ∨ (p.head? = some '/' ∧ meant [] p = []) := by
  obtain ⟨tail, e, ht⟩ := normpath_eq p
  obtain ⟨hr, hst⟩ := root_mem p
  have hel : ∀ x ∈ kept p, x ≠ [] ∧ '/' ∉ x := fun x hx => kept_elem hx
  have hl := normText_final _ _ hr hel
  have snoc : ∀ q : Str, (∃ a, q = a ++ ['/']) ↔ q.getLast? = some '/' := by
    intro q
    constructor
    · rintro ⟨a, rfl⟩; simp
    · intro hq
      rcases List.eq_nil_or_concat q with e | ⟨a, c, e⟩
      · rw [e] at hq; simp at hq
      · rw [List.concat_eq_append] at e
        rw [e, List.getLast?_concat] at hq
        exact ⟨a, by rw [e, Option.some.inj hq]⟩
  rw [snoc, e]
  constructor
  · intro hg
    cases tail with
    | true =>
      obtain ⟨a, c, e, -⟩ := (isDirText_iff h).1 (ht.1 rfl).1
      exact Or.inl ⟨a ++ [c], by rw [e]; simp⟩
    | false =>
      simp only [Bool.false_eq_true, if_false, List.append_nil] at hg
      obtain ⟨h3, h4⟩ := hl.1 hg
      exact Or.inr ⟨(rooted_iff p).2 h3, by rw [← kept_rooted h3]; exact h4⟩
  · rintro (⟨a, rfl⟩ | ⟨h3, h4⟩)
    rotate_left
    · have h5 := (rooted_iff p).1 h3
      rw [← kept_rooted h5] at h4
      cases tail with
      | true => simp
      | false => simpa using hl.2 ⟨h5, h4⟩
    rcases List.eq_nil_or_concat a with e | ⟨b, c, e⟩
    · subst e
      cases tail with
      | true => simp
      | false => decide
    · rw [List.concat_eq_append] at e
      subst e
      have hc : c ≠ '/' := by
        rintro rfl
        exact h2 ⟨b, by simp⟩
      have hone : OneSlash (b ++ [c] ++ ['/']) := ⟨b, c, by simp, hc⟩
      cases tail with
      | true => simp
      | false =>
        simp only [Bool.false_eq_true, if_false, List.append_nil]
        apply hl.2
        refine ⟨fun h3 => ?_, ?_⟩
        · have := ht.2 ⟨(isDirText_iff h).2 hone, Or.inl h3⟩
          exact absurd this (by decide)
        · cases hk : kept (b ++ [c] ++ ['/']) with
          | nil => rfl
          | cons x l =>
            have := ht.2 ⟨(isDirText_iff h).2 hone, Or.inr (by rw [hk]; simp)⟩
            exact absurd this (by decide)

/-- **C112** Exactly when normalising again changes nothing, of all paths. -/
theorem C112_again_exact (p : Str) : normpath (normpath p) = normpath p ↔ ¬ OddEnd (normpath p) := by
  obtain ⟨tail, e, ht⟩ := normpath_eq p
  obtain ⟨hr, hst⟩ := root_mem p
  have hel : ∀ x ∈ kept p, x ≠ [] ∧ '/' ∉ x := fun x hx => kept_elem hx
  have hstack : Stack (decide (rootSlashes p ≠ [])) (kept p) := hst ▸ stack_kept p
  have hn := osNormpath_normText (tail := tail) hr hstack (fun h => (ht.1 h).2)
  have hl := normText_final _ _ hr hel
  have hne : normText (rootSlashes p) (kept p) ≠ [] := by
    unfold normText
    split
    · simp
    · next hh =>
      intro e
      simp only [List.append_eq_nil_iff, join_eq_nil (fun x hx => (hel x hx).1)] at e
      exact hh e
  have hroot : (normText (rootSlashes p) (kept p)).getLast? = some '/' →
      normText (rootSlashes p) (kept p) = ['/'] ∨ normText (rootSlashes p) (kept p) = ['/', '/'] := by
    intro hg
    obtain ⟨h1, h2⟩ := hl.1 hg
    unfold normText
    rw [if_neg (fun h => h1 h.1), h2]
    simp only [List.mem_cons, List.not_mem_nil, or_false] at hr
    rcases hr with h | h | h
    · exact absurd h h1
    · exact Or.inl (by rw [h]; rfl)
    · exact Or.inr (by rw [h]; rfl)
  rw [e]
  unfold normpath
  rw [hn]
  generalize hN : normText (rootSlashes p) (kept p) = n at *
  have hd := isDirText_exact (n ++ if tail = true then ['/'] else [])
  cases tail with
  | true =>
    have hg : n.getLast? ≠ some '/' := by
      intro e
      have h1 := hl.1 e
      rcases (ht.1 rfl).2 with h2 | h2
      · exact h1.1 h2
      · exact h2 h1.2
    simp only [if_true] at hd ⊢
    obtain ⟨a, y, rfl⟩ : ∃ a y, n = a ++ [y] := by
      rcases List.eq_nil_or_concat n with e | ⟨a, c, e⟩
      · exact absurd e hne
      · exact ⟨a, c, by rw [e, List.concat_eq_append]⟩
    have hy : y ≠ '/' := fun h => hg (by rw [h]; simp)
    have hd2 : isDirText (a ++ [y] ++ ['/']) = true ↔ y ≠ '\\' := by
      rw [hd]
      constructor
      · rintro (⟨b, c, s, e1, h1, h2, -⟩ | ⟨b, c, s, e1, -⟩)
        · have := List.append_inj' (t₁ := [y, '/']) (t₂ := [c, s]) (by simpa using e1) rfl
          have := (List.cons.inj this.2).1
          rw [this]; exact h2
        · have := congrArg List.getLast? e1
          simp at this
      · intro h
        exact Or.inl ⟨a, y, '/', by simp, hy, h, Or.inl rfl⟩
    have ho : OddEnd (a ++ [y] ++ ['/']) ↔ y = '\\' := by
      constructor
      · rintro (⟨b, e1⟩ | ⟨b, c, e1, -⟩ | ⟨b, c, s, e1, -⟩)
        · have := List.append_inj' (t₁ := [y, '/']) (t₂ := ['\\', '/']) (by simpa using e1) rfl
          exact (List.cons.inj this.2).1
        · have := congrArg List.getLast? e1
          simp at this
        · have := congrArg List.getLast? e1
          simp at this
      · rintro rfl
        exact Or.inl ⟨a, by simp⟩
    rw [ho]
    by_cases h : y = '\\'
    · have : isDirText (a ++ [y] ++ ['/']) = false := by
        rw [Bool.eq_false_iff]; exact fun h1 => hd2.1 h1 h
      rw [this]
      simp [h]
    · rw [hd2.2 h]
      simp [h, hy]
  | false =>
    simp only [Bool.false_eq_true, if_false, List.append_nil] at hd ⊢
    by_cases hg : n.getLast? = some '/'
    · have hno : ¬ OddEnd n := by
        rintro (⟨b, e1⟩ | ⟨b, c, e1, -⟩ | ⟨b, c, s, e1, -⟩)
        · rcases hroot hg with h | h
          · rw [h] at e1
            have := congrArg List.length e1
            simp at this
          · rw [h] at e1
            have := List.append_inj' (s₁ := []) (t₁ := ['/', '/']) e1 rfl
            exact absurd this.2 (by decide)
        · rw [e1] at hg; simp at hg
        · rw [e1] at hg; simp at hg
      simp [hg, hno]
    · have ho : isDirText n = true ↔ OddEnd n := by
        rw [hd]
        constructor
        · rintro (⟨b, c, s, e1, h1, h2, h3⟩ | ⟨b, c, s, e1, h⟩)
          · rcases h3 with rfl | rfl
            · rw [e1] at hg; simp at hg
            · exact Or.inr (Or.inl ⟨b, c, e1, h1, h2⟩)
          · exact Or.inr (Or.inr ⟨b, c, s, e1, h⟩)
        · rintro (⟨b, e1⟩ | ⟨b, c, e1, h1, h2⟩ | ⟨b, c, s, e1, h⟩)
          · rw [e1] at hg; simp at hg
          · exact Or.inl ⟨b, c, '\\', e1, h1, h2, Or.inr rfl⟩
          · exact Or.inr ⟨b, c, s, e1, h⟩
      rw [← ho]
      cases isDirText n <;> simp [hg]

theorem isDirText_folder (p : Str) : isDirText p = true ↔ FolderEnd p := by
  rw [isDirText_exact]
  constructor
  · rintro (⟨a, c, s, e, h⟩ | ⟨a, c, s, e, h⟩)
    · exact ⟨a, c, s, Or.inl e, h⟩
    · exact ⟨a, c, s, Or.inr e, h⟩
  · rintro ⟨a, c, s, e | e, h⟩
    · exact Or.inl ⟨a, c, s, e, h⟩
    · exact Or.inr ⟨a, c, s, e, h⟩

/-- **C112** Exactly which paths end with a slash when normalised, of all paths. -/
theorem C112_slash_exact (p : Str) :
    (∃ a, normpath p = a ++ ['/']) ↔ FolderEnd p ∨ (p.head? = some '/' ∧ meant [] p = []) := by
  obtain ⟨tail, e, ht⟩ := normpath_eq p
  obtain ⟨hr, hst⟩ := root_mem p
  have hl := normText_final _ _ hr (fun x hx => kept_elem hx (p := p))
  rw [← isDirText_folder, e]
  cases tail with
  | true => exact ⟨fun _ => Or.inl (ht.1 rfl).1, fun _ => ⟨_, rfl⟩⟩
  | false =>
    simp only [Bool.false_eq_true, if_false, List.append_nil]
    constructor
    · rintro ⟨a, ea⟩
      obtain ⟨h1, h2⟩ := hl.1 (by rw [ea]; simp)
      exact Or.inr ⟨(rooted_iff p).2 h1, by rw [← kept_rooted h1]; exact h2⟩
    · intro h
      have hroot : rootSlashes p ≠ [] ∧ kept p = [] := by
        rcases h with h | ⟨h1, h2⟩
        · constructor
          · exact fun h1 => absurd (ht.2 ⟨h, Or.inl h1⟩) (by decide)
          · cases hk : kept p with
            | nil => rfl
            | cons x l => exact absurd (ht.2 ⟨h, Or.inr (by rw [hk]; simp)⟩) (by decide)
        · have h3 := (rooted_iff p).1 h1
          exact ⟨h3, by rw [kept_rooted h3]; exact h2⟩
      have hg := hl.2 hroot
      rcases List.eq_nil_or_concat (normText (rootSlashes p) (kept p)) with e | ⟨a, c, e⟩
      · rw [e] at hg; simp at hg
      · rw [List.concat_eq_append] at e
        rw [e, List.getLast?_concat] at hg
        exact ⟨a, by rw [e, Option.some.inj hg]⟩

/-- Both sides of the exact statements. -/
example : OddEnd (normpath "b\\/c/..".toList) ∧ FolderEnd "a\\".toList ∧ FolderEnd "a/\n".toList ∧
    FolderEnd "x\\y/z/".toList ∧ normpath (normpath "x\\y/./z/".toList) = normpath "x\\y/./z/".toList := by
  refine ⟨Or.inr (Or.inl ⟨[], 'b', by decide +kernel, by decide, by decide⟩),
    ⟨[], 'a', '\\', Or.inl rfl, by decide, by decide, by decide⟩,
    ⟨[], 'a', '/', Or.inr rfl, by decide, by decide, by decide⟩,
    ⟨"x\\y/".toList, 'z', '/', Or.inl (by decide), by decide, by decide, by decide⟩, by decide +kernel⟩

/-! ### Absolute paths -/

theorem splitOn_mid (a b : Str) : splitOn '/' (a ++ '/' :: b) = splitOn '/' a ++ splitOn '/' b := by
  induction a with
  | nil => simp [splitOn]
  | cons c a ih =>
    simp only [List.cons_append, splitOn]
    split
    · rw [ih]; rfl
    · rw [ih]
      cases h : splitOn '/' a with
      | nil => exact absurd h (splitOn_ne_nil _ _)
      | cons x l => rfl

theorem root_two (p : Str) : rootSlashes p = ['/', '/'] ↔ TwoSlashes p := by
  unfold TwoSlashes
  match p with
  | [] => simp [rootSlashes, startsWith]
  | [c] =>
    by_cases hc : c = '/'
    · subst hc; simp [rootSlashes, startsWith]
    · simp [rootSlashes, startsWith, List.isPrefixOf, Ne.symm hc]
  | [c, d] =>
    by_cases hc : c = '/'
    · by_cases hd : d = '/'
      · subst hc; subst hd; simp [rootSlashes, startsWith]
      · subst hc; simp [rootSlashes, startsWith, List.isPrefixOf, Ne.symm hd, hd]
    · simp [rootSlashes, startsWith, List.isPrefixOf, Ne.symm hc, hc]
  | c :: d :: e :: t =>
    by_cases hc : c = '/'
    · by_cases hd : d = '/'
      · by_cases he : e = '/'
        · subst hc; subst hd; subst he; simp [rootSlashes, startsWith, List.isPrefixOf]
        · subst hc; subst hd; simp [rootSlashes, startsWith, List.isPrefixOf, Ne.symm he, he]
      · subst hc; simp [rootSlashes, startsWith, List.isPrefixOf, Ne.symm hd, hd]
    · simp [rootSlashes, startsWith, List.isPrefixOf, Ne.symm hc, hc]

/-- What `os.path.abspath` normalises: a path that begins with a slash and means the same. -/
theorem joined {cwd : List Str} (hc : ∀ n ∈ cwd, FileName n) (p : Str) :
    let q := if startsWith ['/'] p then p else osJoin (absText cwd) p
    rootSlashes q ≠ [] ∧ meant [] q = meant cwd p ∧ (rootSlashes q = ['/', '/'] ↔ TwoSlashes p) := by
  intro q
  by_cases hs : startsWith ['/'] p = true
  · have hq : q = p := if_pos hs
    have h1 : rootSlashes p ≠ [] := by
      have := (root_mem p).2
      rw [hs] at this
      simpa using this.symm
    rw [hq]
    refine ⟨h1, ?_, root_two p⟩
    unfold meant
    rw [if_pos ((rooted_iff p).2 h1), if_pos ((rooted_iff p).2 h1)]
  · have hq : q = osJoin (absText cwd) p := if_neg hs
    have h1 : rootSlashes p = [] := by
      have := (root_mem p).2
      simp only [hs] at this
      simpa using this
    have h2 : ¬ TwoSlashes p := fun h => by
      rw [← root_two, h1] at h
      exact absurd h (by decide)
    have h3 : ¬ p.head? = some '/' := fun e => (rooted_iff p).1 e h1
    have hm : meant cwd p = walk cwd (splitOn '/' p) := by unfold meant; rw [if_neg h3]
    rw [hq, hm]
    unfold osJoin
    rw [if_neg hs]
    by_cases he : cwd = []
    · subst he
      have e1 : absText [] = ['/'] := rfl
      rw [e1]
      simp only [List.isEmpty_cons, Bool.false_or]
      rw [if_pos (by decide)]
      have hr : rootSlashes (['/'] ++ p) = ['/'] := by
        cases p with
        | nil => decide
        | cons c t =>
          have : '/' ≠ c := fun e => h3 (by rw [← e]; rfl)
          simp [rootSlashes, startsWith, List.isPrefixOf, this]
      refine ⟨by rw [hr]; decide, ?_, by rw [hr]; exact ⟨fun e => absurd e (by decide), fun e => absurd e h2⟩⟩
      unfold meant
      simp only [List.cons_append, List.nil_append, List.head?_cons, if_true, splitOn_sep, walk, true_or]
    · obtain ⟨c, t, e, hcc⟩ := join_first he (fun x hx => ⟨(hc x hx).1, (hc x hx).2.1⟩)
      obtain ⟨b, d, e', hd⟩ := join_final he (fun x hx => ⟨(hc x hx).1, (hc x hx).2.1⟩)
      have hend : endsWith ['/'] (absText cwd) = false := by
        unfold endsWith absText
        rw [e', Bool.eq_false_iff]
        intro hx
        rw [List.isSuffixOf_iff_suffix] at hx
        obtain ⟨y, hy⟩ := hx
        have : y ++ ['/'] = ('/' :: b) ++ [d] := by simpa using hy
        exact hd (by simpa using (List.append_inj' this rfl).2.symm)
      rw [if_neg (by rw [hend]; simp [absText])]
      have hr : rootSlashes (absText cwd ++ '/' :: p) = ['/'] := by
        unfold absText
        rw [e]
        simp [rootSlashes, startsWith, List.isPrefixOf, Ne.symm hcc]
      refine ⟨by rw [hr]; decide, ?_, by rw [hr]; exact ⟨fun e => absurd e (by decide), fun e => absurd e h2⟩⟩
      unfold meant
      rw [splitOn_mid, pathWalk_append]
      have hw : walk [] (splitOn '/' (absText cwd)) = cwd := by
        unfold absText
        rw [splitOn_sep, splitOn_join _ he (fun x hx => (hc x hx).2.1)]
        simpa [walk] using pathWalk_names hc []
      simp only [absText, List.cons_append, List.head?_cons, if_true] at hw ⊢
      rw [hw]

/-- **C112** The absolute path, of all paths: a last slash is put after those that end like that of a folder. -/
theorem C112_absolute_exact (cwd : List Str) (hc : ∀ n ∈ cwd, FileName n) (p : Str) (slash : Bool)
    (hs : slash = true ↔ FolderEnd p) :
    (¬ TwoSlashes p → abspath (absText cwd) p = pathTextOf (meant cwd p) slash) ∧
    (TwoSlashes p → abspath (absText cwd) p = '/' :: pathTextOf (meant cwd p) slash) := by
  obtain ⟨h1, h2, h3⟩ := joined hc p
  have hd : isDirText p = slash := by
    have := isDirText_folder p
    rw [← hs] at this
    cases h4 : isDirText p <;> cases slash <;> simp [h4] at this ⊢
  unfold abspath osAbspath
  generalize (if startsWith ['/'] p then p else osJoin (absText cwd) p) = q at h1 h2 h3
  have hk := kept_rooted h1
  rw [h2] at hk
  have hl := normText_final (rootSlashes q) (kept q) (root_mem q).1 (fun x hx => kept_elem hx)
  have key : (if isDirText p && (osNormpath q).getLast? != some '/' then osNormpath q ++ ['/'] else osNormpath q) =
      rootSlashes q ++ join ['/'] (meant cwd p) ++ (if slash = true ∧ meant cwd p ≠ [] then ['/'] else []) := by
    rw [osNormpath_eq, hd]
    rw [hk] at hl ⊢
    have hn : normText (rootSlashes q) (meant cwd p) = rootSlashes q ++ join ['/'] (meant cwd p) := by
      unfold normText
      rw [if_neg (fun e => h1 e.1)]
    by_cases hm : meant cwd p = []
    · rw [hl.2 ⟨h1, hm⟩, hn]
      simp [hm]
    · have : (normText (rootSlashes q) (meant cwd p)).getLast? ≠ some '/' := fun e => hm (hl.1 e).2
      have hb : ((normText (rootSlashes q) (meant cwd p)).getLast? != some '/') = true := by simpa using this
      rw [hb, hn]
      cases slash <;> simp [hm]
  simp only [key]
  constructor
  · intro h4
    have : rootSlashes q = ['/'] := by
      rcases root_cases q with ⟨e, -⟩ | ⟨e, -⟩ | ⟨e, -⟩
      · exact absurd e h1
      · exact e
      · exact absurd (h3.1 e) h4
    rw [this]
    rfl
  · intro h4
    rw [h3.2 h4]
    rfl

/-- **C112** An absolute path is the text of the names that the given path means in the working folder, with a last
slash where the given one has one; two slashes at the beginning stay. What is missing: several slashes at the end,
which are lost, backslashes and newlines. -/
theorem C112_absolute_partial (cwd : List Str) (hc : ∀ n ∈ cwd, FileName n) (p : Str) (h : Simple p) (slash : Bool)
    (hs : slash = true ↔ OneSlash p) :
    (¬ TwoSlashes p → abspath (absText cwd) p = pathTextOf (meant cwd p) slash) ∧
    (TwoSlashes p → abspath (absText cwd) p = '/' :: pathTextOf (meant cwd p) slash) :=
  C112_absolute_exact cwd hc p slash (by rw [hs, ← isDirText_iff h, isDirText_folder])

/-- **C112** fails for other paths: of several slashes at the end none is kept; a file whose name ends with a
backslash becomes a folder, and a file again when normalised once more; as does a file whose name ends with a newline
after a slash. -/
theorem C112_refuted :
    normpath "a//".toList = "a".toList ∧
    normpath "a\\".toList = "a\\/".toList ∧ normpath "a\\/".toList = "a\\".toList ∧
    normpath "a/\n".toList = "a/\n/".toList ∧ abspath "/w".toList "a\\".toList = "/w/a\\/".toList := by
  decide +kernel

example : normpath "../../x/./y/..//z/".toList = "../../x/z/".toList ∧ normpath "a/..".toList = ".".toList ∧
    normpath "/..//a/../..".toList = "/".toList ∧ normpath "./".toList = "./".toList ∧
    abspath "/w/d".toList "../e/".toList = "/w/e/".toList ∧ abspath "/w/d".toList "//e".toList = "//e".toList ∧
    abspath "/".toList "..".toList = "/".toList := by decide +kernel

/-- Where the hypotheses hold. -/
example : Simple "../e/".toList ∧ OneSlash "../e/".toList ∧ ¬ (∃ a, "../e/".toList = a ++ ['/', '/']) ∧
    ¬ TwoSlashes "../e/".toList ∧ TwoSlashes "//e".toList ∧ (∀ n ∈ ["w".toList, "d".toList], FileName n) := by
  refine ⟨by unfold Simple; decide, ⟨"../".toList, 'e', by decide, by decide⟩, ?_, ?_, ⟨"e".toList, by decide, by decide⟩, by
    unfold FileName; decide⟩
  · rintro ⟨a, e⟩
    have := congrArg List.reverse e
    simp at this
  · rintro ⟨t, e, -⟩
    simp at e

end Props
