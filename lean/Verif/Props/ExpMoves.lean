import Verif.Lemmas.ExpMoves
/-
C40: expansion moves.
-/
set_option linter.unusedSimpArgs false
namespace Props
open Py Model Spec

/-- C40. Expansion moves written as counted directions and runs of uncounted ones parse to exactly these,
in this order, a missing count meaning unlimited. -/
theorem C40_reads (items : List ExpItem) (h : ∀ it ∈ items, it.Ok) (ha : NoAdjRuns items) :
    parseExpMoves (expString items) = .ok (items.map ExpItem.meaning) := by
  unfold parseExpMoves
  simp only [norm_string h]
  rw [split_items _ (by
    intro it hit
    obtain ⟨i, hi, rfl⟩ := List.mem_map.1 hit
    exact norm_item (h i hi)) (norm_adj ha) _ (Nat.le_refl _), pieces_items h]

example : expString [.run "l".toList, .counted 'u' "1".toList, .run "ur".toList, .counted 'd' "?".toList] =
    "lu1urd?".toList := by decide

example : parseExpMoves "lu1urd?".toList =
    .ok [⟨[.L], none⟩, ⟨[.U], some 1⟩, ⟨[.U, .R], none⟩, ⟨[.D], some 1⟩] :=
  C40_reads [.run "l".toList, .counted 'u' "1".toList, .run "ur".toList, .counted 'd' "?".toList]
    (by
      intro it hit
      simp only [List.mem_cons, List.not_mem_nil, or_false] at hit
      rcases hit with rfl | rfl | rfl | rfl
      · exact ⟨by decide, by decide⟩
      · exact ⟨by decide, by decide, by decide⟩
      · exact ⟨by decide, by decide⟩
      · exact ⟨by decide, by decide, by decide⟩) trivial

private theorem takeRun (p : Char → Bool) (s : Str) :
    ∃ a b, s = a ++ b ∧ (∀ c ∈ a, p c = true) ∧ ∀ c, b.head? = some c → p c = false := by
  induction s with
  | nil => exact ⟨[], [], rfl, by simp, by simp⟩
  | cons x s ih =>
    by_cases hx : p x = true
    · obtain ⟨a, b, e, h1, h2⟩ := ih
      refine ⟨x :: a, b, by rw [e]; rfl, ?_, h2⟩
      intro c hc
      rcases List.mem_cons.1 hc with rfl | hc
      · exact hx
      · exact h1 c hc
    · exact ⟨[], x :: s, rfl, by simp, by intro c hc; simp at hc; subst hc; simpa using hx⟩

/-- C40. Every text of directions and counts that does not begin with a count has such a reading. -/
theorem C40_reading_exists (s : Str) (h : ExpString s) :
    ∃ items : List ExpItem, (∀ it ∈ items, it.Ok) ∧ NoAdjRuns items ∧ expString items = s := by
  suffices H : ∀ n (s : Str), s.length ≤ n → ExpString s →
      ∃ items : List ExpItem, (∀ it ∈ items, it.Ok) ∧ NoAdjRuns items ∧ expString items = s from
    H s.length s (Nat.le_refl _) h
  intro n
  induction n with
  | zero =>
    intro s hs _
    have : s = [] := List.length_eq_zero_iff.1 (by omega)
    exact ⟨[], by simp, trivial, by rw [this]; rfl⟩
  | succ n ih =>
    intro s hs ⟨h1, h2⟩
    match s with
    | [] => exact ⟨[], by simp, trivial, rfl⟩
    | x :: s =>
      have hx := h2 x rfl
      -- the letters, then the count after them
      obtain ⟨a, b, e, ha, hb⟩ := takeRun (fun c => (letterDir c).isSome) s
      obtain ⟨m, u, e2, hm, hu⟩ := takeRun isCountChar b
      have hmem : ∀ c ∈ m ++ u, (letterDir c).isSome ∨ isCountChar c = true := by
        intro c hc; apply h1; rw [e, e2]; simp at hc ⊢; exact .inr (.inr hc)
      have hcl : ∀ c, isCountChar c = true → (letterDir c).isSome → False := by
        intro c hc hl
        have hup := letterDir_up hl
        unfold isCountChar at hc
        simp [hup.2.2] at hc
        have := isDigitU_upper hc
        rw [this] at hup
        rw [(isUp_facts hup.1).2.1] at hc; simp at hc
      have hu' : ExpString u := by
        refine ⟨fun c hc => hmem c (by simp [hc]), ?_⟩
        intro c hc
        rcases hmem c (by simp [List.mem_of_mem_head? hc]) with hl | hl
        · exact hl
        · rw [hu c hc] at hl; simp at hl
      have hlen : s.length = a.length + (m.length + u.length) := by rw [e, e2]; simp
      simp only [List.length_cons] at hs
      obtain ⟨items, i1, i2, i3⟩ := ih u (by omega) hu'
      by_cases hme : m = []
      · -- no count: everything is letters
        have hue : u = [] := by
          cases u with
          | nil => rfl
          | cons y u =>
            have h3 := hu'.2 y rfl
            have h4 := hb y (by rw [e2, hme]; rfl)
            rw [h3] at h4; simp at h4
        refine ⟨[.run (x :: a)], ?_, trivial, ?_⟩
        · intro it hit
          simp at hit; subst hit
          refine ⟨by simp, ?_⟩
          intro c hc
          rcases List.mem_cons.1 hc with rfl | hc
          · exact hx
          · exact ha c hc
        · simp [expString, ExpItem.text, e, e2, hme, hue]
      · rcases (show a = [] ∨ ∃ a' y, a = a' ++ [y] from by
          rcases List.eq_nil_or_concat a with h | ⟨l, b, h⟩
          · exact .inl h
          · exact .inr ⟨l, b, by simpa using h⟩) with rfl | ⟨a', y, rfl⟩
        · refine ⟨.counted x m :: items, ?_, i2, ?_⟩
          · intro it hit
            rcases List.mem_cons.1 hit with rfl | hit
            · exact ⟨hx, hme, hm⟩
            · exact i1 it hit
          · simp only [expString, List.flatMap_cons] at i3 ⊢
            rw [i3, e, e2]; rfl
        · refine ⟨.run (x :: a') :: .counted y m :: items, ?_, i2, ?_⟩
          · intro it hit
            simp only [List.mem_cons] at hit
            rcases hit with rfl | rfl | hit
            · refine ⟨by simp, ?_⟩
              intro c hc
              rcases List.mem_cons.1 hc with rfl | hc
              · exact hx
              · exact ha c (by simp [hc])
            · exact ⟨ha y (by simp), hme, hm⟩
            · exact i1 it hit
          · simp only [expString, List.flatMap_cons] at i3 ⊢
            rw [i3, e, e2]; simp [ExpItem.text]

private theorem search_spec (r : Re) : ∀ (s pre post : Str) (c : Caps), r.search s = some (pre, post, c) →
    ∃ mid, s = pre ++ (mid ++ post) := by
  intro s
  induction s with
  | nil =>
    intro pre post c h
    rw [Re.search] at h
    cases hm : r.match? [] with
    | none => rw [hm] at h; simp at h
    | some x =>
      rw [hm] at h
      simp at h
      have := run_suffix (match_run (s' := x.1) (c' := x.2) (by rw [hm]))
      simp at this
      exact ⟨[], by simp [← h.1, ← h.2.1, this]⟩
  | cons y t ih =>
    intro pre post c h
    rw [Re.search] at h
    cases hm : r.match? (y :: t) with
    | some x =>
      rw [hm] at h
      simp at h
      obtain ⟨mid, hmid⟩ := run_suffix (match_run (s' := x.1) (c' := x.2) (by rw [hm]))
      exact ⟨mid, by rw [h.1, ← h.2.1]; exact hmid.symm⟩
    | none =>
      rw [hm] at h
      simp at h
      obtain ⟨p, q, cc, h1, h2, h3, h4⟩ := h
      obtain ⟨mid, e⟩ := ih _ _ _ h1
      exact ⟨mid, by rw [← h2, ← h3]; simp [e]⟩

private theorem split_flatten (r : Re) : ∀ (n : Nat) (s : Str), (r.splitGrp n s).flatten = s := by
  intro n
  induction n with
  | zero => intro s; simp [Re.splitGrp]
  | succ n ih =>
    intro s
    rw [Re.splitGrp]
    cases hs : r.search s with
    | none => simp
    | some x =>
      obtain ⟨pre, post, c⟩ := x
      obtain ⟨mid, e⟩ := search_spec r _ _ _ _ hs
      subst e
      simp only [List.flatten_cons, ih]
      have e1 : (pre ++ (mid ++ post)).drop pre.length = mid ++ post := by simp
      have e2 : (pre ++ (mid ++ post)).length - pre.length - post.length = mid.length := by simp
      rw [e1, e2, List.take_left']
      rfl

private theorem piece_shape {v : Str} {g : ExpGroup} (h : parsePiece v = some g) :
    (∃ x t, v = x :: t ∧ isLURD x = true) ∧ ∀ c ∈ v, isLURD c = true ∨ c = '?' ∨ isDigitU c = true ∨ c = '\n' := by
  unfold parsePiece at h
  cases hm : reExpParse.match? v with
  | none => rw [hm] at h; simp at h
  | some p =>
    obtain ⟨s', c'⟩ := p
    have hr := match_run hm
    unfold reExpParse at hr
    simp only [Re.seqs] at hr
    cases hr with
    | seq h1 h2 =>
      cases h1 with
      | grp h1 =>
        obtain ⟨_, t, hne, e, ht⟩ := run_plus_cls h1
        have hfirst : ∃ x t', v = x :: t' ∧ isLURD x = true := by
          cases t with
          | nil => exact absurd rfl hne
          | cons x t => exact ⟨x, _, by rw [e]; rfl, ht x (by simp)⟩
        refine ⟨hfirst, ?_⟩
        cases h2 with
        | seq h2 h3 =>
          cases h3 with
          | eos h3 =>
            have hend : ∀ c ∈ s', c = '\n' := by
              simp [atEnd] at h3
              rcases h3 with rfl | rfl <;> simp
            rcases run_opt h2 with h4 | ⟨rfl, _⟩
            · cases h4 with
              | grp h4 =>
                cases h4 with
                | altL h4 =>
                  obtain ⟨_, y, e2, hy⟩ := run_cls h4
                  intro c hc
                  rw [e, e2] at hc
                  simp at hc
                  rcases hc with hc | rfl | hc
                  · exact .inl (ht c hc)
                  · simp at hy; exact .inr (.inl hy)
                  · exact .inr (.inr (.inr (hend c hc)))
                | altR h4 =>
                  obtain ⟨_, w, _, e2, hw⟩ := run_plus_cls h4
                  intro c hc
                  rw [e, e2] at hc
                  simp at hc
                  rcases hc with hc | hc | hc
                  · exact .inl (ht c hc)
                  · exact .inr (.inr (.inl (hw c hc)))
                  · exact .inr (.inr (.inr (hend c hc)))
            · intro c hc
              rw [e] at hc
              simp at hc
              rcases hc with hc | hc
              · exact .inl (ht c hc)
              · exact .inr (.inr (.inr (hend c hc)))

private theorem pieces_all {vs : List Str} {gs : List ExpGroup} (h : parsePieces vs = some gs) :
    ∀ v ∈ vs, ∃ g, parsePiece v = some g := by
  induction vs generalizing gs with
  | nil => simp
  | cons v vs ih =>
    rw [parsePieces] at h
    cases h1 : parsePiece v with
    | none => rw [h1] at h; simp at h
    | some g =>
      cases h2 : parsePieces vs with
      | none => rw [h1, h2] at h; simp at h
      | some gs' =>
        intro w hw
        rcases List.mem_cons.1 hw with rfl | hw
        · exact ⟨g, h1⟩
        · exact ih h2 w hw

private theorem norm_mem {s : Str} {x : Char} (hx : x ∈ s) (hq : upperChar x ≠ '?') :
    upperChar x ∈ replace1 '?' ['1'] (upper s) := by
  induction s with
  | nil => simp at hx
  | cons y s ih =>
    simp only [upper, List.map_cons, replace1, List.mem_append] at ih ⊢
    rcases List.mem_cons.1 hx with rfl | hx
    · left; rw [if_neg hq]; simp
    · right; exact ih hx

private theorem upper_other {x : Char} : upperChar x = x ∨ (65 ≤ (upperChar x).toNat ∧ (upperChar x).toNat ≤ 90) := by
  by_cases h1 : 0x61 ≤ x.toNat ∧ x.toNat ≤ 0x7a
  · right
    have := toNat_upper_az h1
    simp only [upperChar, h1, and_self, if_true]; omega
  · by_cases h2 : x.toNat = 0x131
    · right; simp [upperChar, h1, h2]
    · by_cases h3 : x.toNat = 0x17f
      · right; simp [upperChar, h1, h2, h3]
      · left; simp [upperChar, h1, h2, h3]

private theorem letterDir_of_lurd {x : Char} (h : isLURD x = true) : (letterDir x).isSome := by
  have key : ∀ x ∈ "LURDlurd".toList, (letterDir x).isSome := by decide
  exact key x (by simpa [isLURD] using h)

theorem letterDir_of_upper {x : Char} (h : isLURD (upperChar x) = true) : (letterDir x).isSome := by
  rcases upper_other (x := x) with e | ⟨e1, e2⟩
  · rw [e] at h; exact letterDir_of_lurd h
  · have hU : upperChar x ∈ "LURD".toList := by
      have : upperChar x ∈ "LURDlurd".toList := by simpa [isLURD] using h
      have key : ∀ y ∈ "LURDlurd".toList, y.toNat ≤ 90 → y ∈ "LURD".toList := by decide
      exact key _ this e2
    rcases lurd_cases rfl hU with e | e
    · rw [e]; exact letterDir_of_lurd (by
        have key : ∀ y ∈ "LURD".toList, isLURD y = true := by decide
        exact key _ hU)
    · rw [e]; exact letterDir_of_lurd (by
        have key : ∀ y ∈ "LURD".toList, isLURD (lowerChar y) = true := by decide
        exact key _ hU)

private theorem digit_range_not_upper {y : Char} (h : isDigitU y = true) : ¬ (65 ≤ y.toNat ∧ y.toNat ≤ 90) := by
  have key : ∀ n ∈ List.range' 65 26, ∀ z ∈ ndZeros, ¬ (z ≤ n ∧ n < z + 10) := by decide
  intro hh
  exact isDigitU_not h y.toNat (key _ (by simp [List.mem_range'_1]; omega)) rfl

/-- C40. Any other text is refused, line breaks aside. -/
theorem C40_rejects (s : Str) (h : ¬ ExpString s) (hnl : '\n' ∉ s) : parseExpMoves s = .error .valueError := by
  unfold parseExpMoves
  generalize ht : replace1 '?' ['1'] (upper s) = t
  simp only
  cases hp : parsePieces ((reExpSplit.splitGrp t.length t).filter (fun v => v ≠ [])) with
  | none => rfl
  | some gs =>
    exfalso
    have hall := pieces_all hp
    apply h
    refine ⟨?_, ?_⟩
    · intro x hx
      by_cases hc : isCountChar x = true
      · exact .inr hc
      left
      have hxq : x ≠ '?' := by rintro rfl; exact hc rfl
      have hxd : isDigitU x = false := by
        cases hd : isDigitU x with
        | false => rfl
        | true => exact absurd (by simp [isCountChar, hd]) hc
      have hq : upperChar x ≠ '?' := by
        rcases upper_other (x := x) with e | ⟨e1, e2⟩
        · rw [e]; exact hxq
        · intro e; rw [e] at e1; exact absurd e1 (by decide)
      have hm := norm_mem hx hq
      rw [ht, ← split_flatten reExpSplit t.length t] at hm
      obtain ⟨v, hv, hyv⟩ := List.mem_flatten.1 hm
      have hvne : v ≠ [] := by intro e; rw [e] at hyv; simp at hyv
      obtain ⟨g, hg⟩ := hall v (by simp [hv, hvne])
      rcases (piece_shape hg).2 _ hyv with hl | hl | hl | hl
      · exact letterDir_of_upper hl
      · exact absurd hl hq
      · rcases upper_other (x := x) with e | e
        · rw [e, hxd] at hl; simp at hl
        · exact absurd e (digit_range_not_upper hl)
      · rcases upper_other (x := x) with e | ⟨e1, e2⟩
        · rw [e] at hl; subst hl; exact absurd hx hnl
        · rw [hl] at e1; exact absurd e1 (by decide)
    · intro x hx
      match s, hx with
      | y :: s, hx =>
        simp at hx; subst hx
        -- the first character of the normalised text
        have hfirst : ∃ z t', t = z :: t' ∧ (isLURD z = true → (letterDir y).isSome) := by
          by_cases hq : upperChar y = '?'
          · exact ⟨'1', replace1 '?' ['1'] (upper s), by rw [← ht]; simp [upper, replace1, hq], by
              intro hh; exact absurd hh (by decide)⟩
          · exact ⟨upperChar y, replace1 '?' ['1'] (upper s), by rw [← ht]; simp [upper, replace1, hq],
              letterDir_of_upper⟩
        obtain ⟨z, t', rfl, hz⟩ := hfirst
        apply hz
        by_cases hzl : isLURD z = true
        · exact hzl
        exfalso
        have hzl : isLURD z = false := by simpa using hzl
        -- the first piece begins with it
        have hpiece : ∃ v rest, reExpSplit.splitGrp (z :: t').length (z :: t') = v :: rest ∧ ∃ w, v = z :: w := by
          rw [List.length_cons, Re.splitGrp, Re.search, split_none' hzl]
          cases hs : reExpSplit.search t' with
          | none => exact ⟨_, _, rfl, t', rfl⟩
          | some x =>
            obtain ⟨pre, post, c⟩ := x
            exact ⟨_, _, rfl, pre, rfl⟩
        obtain ⟨v, rest, e, w, rfl⟩ := hpiece
        obtain ⟨g, hg⟩ := hall (z :: w) (by rw [e]; simp)
        obtain ⟨x', w', e', hx'⟩ := (piece_shape hg).1
        simp at e'
        rw [← e'.1, hzl] at hx'; simp at hx'

example : ¬ ExpString "1LURD".toList := by
  intro h
  exact absurd (h.2 '1' rfl) (by decide)

/-- C40, line breaks. A line break right after a run of directions is overlooked. -/
theorem C40_newline_refuted : parseExpMoves "L\n".toList = .ok [⟨[.L], none⟩] := by rfl

end Props
