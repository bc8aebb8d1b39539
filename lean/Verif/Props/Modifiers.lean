import Verif.Spec.Modifiers
import Verif.Props.ParseSound
set_option linter.unusedSimpArgs false
/-
C143: which moves and modifiers a reference may have.
-/
namespace Props
open Py Model Spec

/-! ### Moves -/

private theorem upperChar_dir {c : Char} (u : Char) (hu : u ∈ "LURD".toList) : upperChar c = u ↔ c = u ∨ c = lowerChar u := by
  constructor
  · intro h
    by_cases h1 : 0x61 ≤ c.toNat ∧ c.toNat ≤ 0x7a
    · right
      have e : c.toNat = 0x20 + (c.toNat - 0x20) := by omega
      have h2 : Char.ofNat (c.toNat - 0x20) = u := by simpa [upperChar, h1] using h
      have h3 : u.toNat = c.toNat - 0x20 := by
        rw [← h2, toNat_ofNat_valid (by left; omega)]
      rw [lowerChar, if_pos (by omega)]
      rw [h3, show c.toNat - 0x20 + 0x20 = c.toNat by omega]
      exact (Char.ofNat_toNat c).symm
    · left
      simp only [upperChar, h1, if_false] at h
      split at h
      · subst h; exact absurd hu (by decide)
      · split at h
        · subst h; exact absurd hu (by decide)
        · exact h
  · intro h
    simp at hu
    rcases hu with rfl | rfl | rfl | rfl <;> rcases h with rfl | rfl <;> decide

private theorem moves_iff (m : Str) : upper m ∈ allMoves ↔ MovesText m := by
  constructor
  · intro h
    simp only [allMoves, List.map_cons, List.map_nil, List.mem_cons, List.not_mem_nil, or_false] at h
    have key : ∀ (w : Str), upper m = w → (∀ u ∈ w, u ∈ "LURD".toList) → m.length = w.length ∧
        ∀ (i : Nat) c u, m[i]? = some c → w[i]? = some u → c = u ∨ c = lowerChar u := by
      rintro w rfl hw
      refine ⟨by simp [upper], ?_⟩
      intro i c u hc hu
      have hcu : upperChar c = u := by simpa [upper, hc] using hu
      refine (upperChar_dir u ?_).1 hcu
      exact hw _ (List.mem_of_getElem? hu)
    have fin : ∀ (w : Str), upper m = w → (∀ u ∈ w, u ∈ "LURD".toList) →
        (∃ u, w = [u]) ∨ (∃ u v, w = [u, v] ∧ ((u ∈ "LR".toList ∧ v ∈ "UD".toList) ∨ (u ∈ "UD".toList ∧ v ∈ "LR".toList))) →
        MovesText m := by
      intro w hw hl hs
      obtain ⟨k1, k2⟩ := key w hw hl
      rcases hs with ⟨u, rfl⟩ | ⟨u, v, rfl, hs⟩
      · match m, k1 with
        | [c], _ =>
          have := k2 0 c u rfl rfl
          have hu := hl u (by simp)
          refine .one c ?_
          simp at hu
          unfold Sideways Upright
          rcases hu with rfl | rfl | rfl | rfl <;> rcases this with rfl | rfl <;> decide
      · match m, k1 with
        | [c, d], _ =>
          have h1 := k2 0 c u rfl rfl
          have h2 := k2 1 d v rfl rfl
          refine .two c d ?_
          simp at hs
          unfold Sideways Upright
          rcases hs with ⟨rfl | rfl, rfl | rfl⟩ | ⟨rfl | rfl, rfl | rfl⟩ <;> rcases h1 with rfl | rfl <;>
            rcases h2 with rfl | rfl <;> decide
    rcases h with h | h | h | h | h | h | h | h | h | h | h | h
    all_goals first
      | exact fin _ h (by decide) (.inl ⟨_, rfl⟩)
      | exact fin _ h (by decide) (.inr ⟨_, _, rfl, by decide⟩)
  · intro h
    cases h with
    | one c h =>
      simp [Sideways, Upright] at h
      rcases h with h | h <;> rcases h with rfl | rfl | rfl | rfl <;> decide
    | two a b h =>
      simp [Sideways, Upright] at h
      rcases h with ⟨h1, h2⟩ | ⟨h1, h2⟩ <;> rcases h1 with rfl | rfl | rfl | rfl <;>
        rcases h2 with rfl | rfl | rfl | rfl <;> decide

/-! ### Cells -/

private def cellChar (x : Char) : Prop := IsLetterU x ∨ isDigitU x = true ∨ x ∈ "123456789_^.-RrCc".toList

private theorem special_char {dot : Bool} {s : Str} (h : IsSpecial dot s) : ∀ x ∈ s, cellChar x := by
  intro x hx
  rcases h with rfl | rfl | ⟨_, rfl⟩ <;> simp at hx <;> subst hx <;> exact .inr (.inr (by decide))

private theorem num_char {s : Str} (h : IsNumU s) : ∀ x ∈ s, cellChar x := by
  intro x hx
  obtain ⟨d, t, rfl, hd, ht⟩ := h
  rcases List.mem_cons.1 hx with rfl | hx
  · refine .inr (.inr ?_)
    revert hd
    have : ∀ y ∈ "123456789".toList, y ∈ "123456789_^.-RrCc".toList := by decide
    exact this _
  · exact .inr (.inl (ht x hx))

private theorem rc_char {s : Str} (h : IsRCNumU s) : ∀ x ∈ s, cellChar x := by
  intro x hx
  rcases h with h | ⟨t, rfl, h⟩ | h
  · exact num_char h x hx
  · rcases List.mem_cons.1 hx with rfl | hx
    · exact .inr (.inr (by decide))
    · exact num_char h x hx
  · exact special_char h x hx

private theorem cell_char {dot : Bool} {c : CellText} (h : c.Written dot) : ∀ x ∈ c.text, cellChar x := by
  intro x hx
  cases c with
  | a1 col row =>
    obtain ⟨h1, h2⟩ := h
    rcases List.mem_append.1 hx with hx | hx
    · rcases h1 with ⟨_, h1⟩ | h1
      · exact .inl (h1 x hx)
      · exact special_char h1 x hx
    · rcases h2 with h2 | h2
      · exact num_char h2 x hx
      · exact special_char h2 x hx
  | rc r row c col =>
    obtain ⟨h1, h2, h3, h4⟩ := h
    simp [CellText.text] at hx
    rcases hx with rfl | hx | rfl | hx
    · rcases h1 with rfl | rfl <;> exact .inr (.inr (by decide))
    · exact rc_char h3 x hx
    · rcases h2 with rfl | rfl <;> exact .inr (.inr (by decide))
    · exact rc_char h4 x hx

private theorem cellChar_not {x : Char} (h : cellChar x) : x ≠ '(' ∧ x ≠ '!' ∧ x ≠ ':' := by
  have no : ∀ y, y ∈ "(!:".toList → ¬ cellChar y := by
    intro y hy h
    simp at hy
    rcases hy with rfl | rfl | rfl <;> revert h <;> simp [cellChar, IsLetterU] <;> decide
  refine ⟨?_, ?_, ?_⟩ <;> rintro rfl <;> exact no _ (by decide) h

private theorem cell_head {dot : Bool} {c : CellText} (h : c.Written dot) : ∃ x t, c.text = x :: t ∧ isSpaceU x = false := by
  cases c with
  | a1 col row =>
    obtain ⟨h1, h2⟩ := h
    rcases h1 with ⟨hn, h1⟩ | h1
    · obtain ⟨x, t, rfl⟩ := List.exists_cons_of_ne_nil hn
      refine ⟨x, t ++ row, rfl, ?_⟩
      have hx := h1 x (by simp)
      have le : isLetter x = true → isSpaceU x = false := by
        intro hl
        simp only [isLetter, decide_eq_true_eq] at hl
        revert hl
        have : ∀ y ∈ "abcdefghijklmnopqrstuvwxyzABCDEFGHIJKLMNOPQRSTUVWXYZ".toList, isSpaceU y = false := by decide
        exact this x
      rcases hx with hx | hx
      · exact le hx
      · simp only [List.mem_cons, List.not_mem_nil, or_false] at hx
        unfold isSpaceU
        rcases hx with hx | hx | hx | hx <;> rw [hx] <;> decide
    · rcases h1 with rfl | rfl | ⟨_, rfl⟩
      · exact ⟨_, _, rfl, by decide⟩
      · exact ⟨_, _, rfl, by decide⟩
      · exact ⟨_, _, rfl, by decide⟩
  | rc r row c col =>
    obtain ⟨h1, _⟩ := h
    refine ⟨r, row ++ c :: col, rfl, ?_⟩
    rcases h1 with rfl | rfl <;> decide

private theorem split_paren {a b x y : Str} (ha : '(' ∉ a) (hb : '(' ∉ b) (h : a ++ '(' :: x = b ++ '(' :: y) : a = b ∧ x = y := by
  induction a generalizing b with
  | nil =>
    cases b with
    | nil => simpa using h
    | cons c b => simp at h; exact absurd (by rw [h.1]; simp) hb
  | cons c a ih =>
    cases b with
    | nil => simp at h; exact absurd (by rw [h.1]; simp) ha
    | cons d b =>
      simp at h ha hb
      obtain ⟨e1, e2⟩ := ih (by simp [ha]) (by simp [hb]) h.2
      exact ⟨by rw [h.1, e1], e2⟩

private theorem movText_paren (mv : Str × Option Char) : ∃ y, movText (some mv) = '(' :: y := by
  obtain ⟨m, x⟩ := mv
  cases x <;> exact ⟨_, rfl⟩

private theorem parens {c : CellText} {dot dot' : Bool} (hc : c.Written dot) {p : Str} {e : EdgeText} (he : e.Written dot')
    (h : c.text ++ '(' :: (p ++ [')']) = e.text) : ∃ m, MovesText m ∧ (p = m ∨ p = m ++ ['+'] ∨ p = m ++ ['?']) := by
  have no : ∀ {d : Bool} {c : CellText}, c.Written d → '(' ∉ c.text := by
    intro d c hc hm; exact (cellChar_not (cell_char hc _ hm)).1 rfl
  obtain ⟨ec, em⟩ := e
  obtain ⟨h1, h2⟩ := he
  simp only [EdgeText.text] at h
  cases em with
  | none =>
    simp [movText] at h
    exact absurd (by rw [← h]; simp) (no h1)
  | some mv =>
    obtain ⟨m, x⟩ := mv
    obtain ⟨h3, h4⟩ := h2
    refine ⟨m, (moves_iff m).1 h3, ?_⟩
    rcases h4 with rfl | rfl | rfl
    · obtain ⟨-, e⟩ := split_paren (no hc) (no h1) (y := m ++ [')']) h
      exact .inl (List.append_cancel_right e)
    · obtain ⟨-, e⟩ := split_paren (no hc) (no h1) (y := m ++ ['+', ')']) h
      exact .inr (.inl (List.append_cancel_right (by simpa using e)))
    · obtain ⟨-, e⟩ := split_paren (no hc) (no h1) (y := m ++ ['?', ')']) h
      exact .inr (.inr (List.append_cancel_right (by simpa using e)))

private theorem edge_of {c : CellText} {dot : Bool} (hc : c.Written dot) {p m : Str} (hm : MovesText m)
    (h : p = m ∨ p = m ++ ['+'] ∨ p = m ++ ['?']) : ∃ e : EdgeText, e.Written dot ∧ e.text = c.text ++ '(' :: (p ++ [')']) := by
  rcases h with rfl | rfl | rfl
  · exact ⟨⟨c, some (p, none)⟩, ⟨hc, (moves_iff _).2 hm, .inl rfl⟩, rfl⟩
  · exact ⟨⟨c, some (m, some '+')⟩, ⟨hc, (moves_iff _).2 hm, .inr (.inl rfl)⟩, by simp [EdgeText.text, movText]⟩
  · exact ⟨⟨c, some (m, some '?')⟩, ⟨hc, (moves_iff _).2 hm, .inr (.inr rfl)⟩, by simp [EdgeText.text, movText]⟩

private theorem no_bang {r : RefText} (h : '!' ∉ r.text) : r.sheet = none := by
  cases hs : r.sheet with
  | none => rfl
  | some s => exact absurd (by simp [RefText.text, hs, sheetText]) h

/-! ### The theorems -/

/-- C143: in the parentheses after the cell of a first edge may be one direction, or two across each other, and then `+` or `?`
or nothing; all else is bad syntax. -/
theorem C143_first_partial (jsonLoads : Str → Option Doc) (c : CellText) (hc : c.Written false) (p : Str) (hp : '!' ∉ p ∧ ':' ∉ p) :
    parseFragment jsonLoads (c.text ++ '(' :: (p ++ [')'])) ≠ .error .syntaxError ↔
      ∃ m, MovesText m ∧ (p = m ∨ p = m ++ ['+'] ∨ p = m ++ ['?']) := by
  rw [Ne, C75_syntax_error_iff, Classical.not_not]
  constructor
  · rintro ⟨r, hr, h⟩
    have h : c.text ++ '(' :: (p ++ [')']) = r.text := by
      rcases h with h | h
      · exact h
      · exfalso
        have := congrArg List.getLast? h
        simp [List.getLast?_cons] at this
    have hnc : ∀ x ∈ c.text, x ≠ '(' ∧ x ≠ '!' ∧ x ≠ ':' := fun x hx => cellChar_not (cell_char hc x hx)
    have nobang : '!' ∉ r.text := by
      rw [← h]; simp [hp.1]; exact fun hm => (hnc _ hm).2.1 rfl
    have nocolon : ':' ∉ r.text := by
      rw [← h]; simp [hp.2]; exact fun hm => (hnc _ hm).2.2 rfl
    have hsh := no_bang nobang
    have hrg : r.range = none := by
      cases hx : r.range with
      | none => rfl
      | some q => exact absurd (by simp [RefText.text, hx, rangeText]) nocolon
    have hfi : r.filt = none := by
      cases hx : r.filt with
      | none => rfl
      | some q => exact absurd (by simp [RefText.text, hx, filtText]) nocolon
    have hle : r.lead = [] := by
      obtain ⟨x, t, e1, e2⟩ := cell_head hc
      cases hl : r.lead with
      | nil => rfl
      | cons y l =>
        exfalso
        rw [e1, RefText.text, hl] at h
        simp at h
        have := hr.lead y (by rw [hl]; simp)
        rw [← h.1, e2] at this
        cases this
    rw [RefText.text, hle, hsh, hrg, hfi] at h
    simp only [List.nil_append, sheetText, rangeText, filtText, List.append_nil] at h
    cases hst : r.st with
    | none => rw [hst] at h; simp [optEdgeText] at h
    | some e => rw [hst] at h; exact parens hc (hr.st e hst) h
  · rintro ⟨m, hm, h⟩
    obtain ⟨e, he, ht⟩ := edge_of hc hm h
    refine ⟨⟨[], none, some e, none, none⟩, ⟨(by intro x hx; cases hx), by simp, ?_, by simp, by simp, trivial⟩, .inl ?_⟩
    · intro e' h'; cases h'; exact he
    · simp [RefText.text, sheetText, optEdgeText, rangeText, filtText, ht]

/-- C143: the same after the cell of a second edge. -/
theorem C143_second_partial (jsonLoads : Str → Option Doc) (c : CellText) (hc : c.Written true) (p : Str) (hp : '!' ∉ p ∧ ':' ∉ p) :
    parseFragment jsonLoads (':' :: (c.text ++ '(' :: (p ++ [')']))) ≠ .error .syntaxError ↔
      ∃ m, MovesText m ∧ (p = m ∨ p = m ++ ['+'] ∨ p = m ++ ['?']) := by
  rw [Ne, C75_syntax_error_iff, Classical.not_not]
  constructor
  · rintro ⟨r, hr, h⟩
    have h : ':' :: (c.text ++ '(' :: (p ++ [')'])) = r.text := by
      rcases h with h | h
      · exact h
      · exfalso
        have := congrArg List.getLast? h
        simp [List.getLast?_cons] at this
    have hnc : ∀ x ∈ c.text, x ≠ '(' ∧ x ≠ '!' ∧ x ≠ ':' := fun x hx => cellChar_not (cell_char hc x hx)
    have nobang : '!' ∉ r.text := by
      rw [← h]; simp [hp.1]; exact fun hm => (hnc _ hm).2.1 rfl
    have nocolon : ':' ∉ c.text ++ '(' :: (p ++ [')']) := by
      simp [hp.2]; exact fun hm => (hnc _ hm).2.2 rfl
    have hsh := no_bang nobang
    have hle : r.lead = [] := by
      cases hl : r.lead with
      | nil => rfl
      | cons y l =>
        exfalso
        rw [RefText.text, hl] at h
        simp at h
        have := hr.lead y (by rw [hl]; simp)
        rw [← h.1] at this
        exact absurd this (by decide)
    rw [RefText.text, hle, hsh] at h
    simp only [List.nil_append, sheetText] at h
    have hst : r.st = none := by
      cases hst : r.st with
      | none => rfl
      | some e =>
        exfalso
        obtain ⟨x, t, e1, e2⟩ := cell_head (hr.st e hst).1
        have := cellChar_not (cell_char (hr.st e hst).1 x (by rw [e1]; simp))
        rw [hst] at h
        simp [optEdgeText, EdgeText.text, e1] at h
        exact this.2.2 h.1.symm
    rw [hst] at h
    simp only [optEdgeText, List.nil_append] at h
    cases hrg : r.range with
    | none =>
      exfalso
      rw [hrg] at h
      simp only [rangeText, List.nil_append] at h
      cases hfi : r.filt with
      | none => rw [hfi] at h; simp [filtText] at h
      | some q =>
        obtain ⟨ws, js⟩ := q
        rw [hfi] at h
        simp [filtText] at h
        have hf := hr.filt
        rw [hfi] at hf
        obtain ⟨h1, x, t, rfl, hx⟩ := hf
        obtain ⟨y, u, e1, e2⟩ := cell_head hc
        have hy := cell_char hc y (by rw [e1]; simp)
        rw [e1] at h
        cases ws with
        | nil =>
          simp at h
          rw [h.1] at hy
          simp at hx
          rcases hx with rfl | rfl | rfl <;> revert hy <;> simp [cellChar, IsLetterU] <;> decide
        | cons z ws =>
          simp at h
          have := h1 z (by simp)
          rw [← h.1, e2] at this
          cases this
    | some q =>
      obtain ⟨nd, ex⟩ := q
      rw [hrg] at h
      simp only [rangeText, List.cons_append, List.cons.injEq, true_and] at h
      rw [h] at nocolon
      have hex : ex = none := by
        cases ex with
        | none => rfl
        | some x => exact absurd (by simp [expText]) nocolon
      have hfi : r.filt = none := by
        cases hx : r.filt with
        | none => rfl
        | some q => exact absurd (by simp [hx, filtText]) nocolon
      rw [hex, hfi] at h
      simp only [expText, filtText, List.append_nil] at h
      cases nd with
      | none => simp [optEdgeText] at h
      | some e => exact parens hc (hr.nd e ex hrg) h
  · rintro ⟨m, hm, h⟩
    obtain ⟨e, he, ht⟩ := edge_of hc hm h
    refine ⟨⟨[], none, none, some (some e, none), none⟩, ⟨(by intro x hx; cases hx), by simp, by simp, ?_, ?_, trivial⟩, .inl ?_⟩
    · intro e' ex h'; cases h'; exact he
    · intro e' ex h'; cases h'; trivial
    · simp [RefText.text, sheetText, optEdgeText, rangeText, filtText, expText, ht]

/-- C143: two opposite directions, or the same one twice, are bad syntax. -/
theorem C143_opposite (jsonLoads : Str → Option Doc) (c : CellText) (hc : c.Written false) (a b : Char)
    (h : (Sideways a ∧ Sideways b) ∨ (Upright a ∧ Upright b)) :
    parseFragment jsonLoads (c.text ++ ['(', a, b, ')']) = .error .syntaxError := by
  refine Classical.byContradiction fun hn => ?_
  have hp : '!' ∉ [a, b] ∧ ':' ∉ [a, b] := by
    simp only [Sideways, Upright, String.reduceToList, List.mem_cons, List.not_mem_nil, or_false] at h
    rcases h with ⟨h1, h2⟩ | ⟨h1, h2⟩ <;> rcases h1 with rfl | rfl | rfl | rfl <;> rcases h2 with rfl | rfl | rfl | rfl <;> decide
  obtain ⟨m, hm, e⟩ := (C143_first_partial jsonLoads c hc [a, b] hp).1 hn
  have dis : ∀ x, Sideways x → Upright x → False := by
    intro x h1 h2
    simp only [Sideways, Upright, String.reduceToList, List.mem_cons, List.not_mem_nil, or_false] at h1 h2
    rcases h1 with rfl | rfl | rfl | rfl <;> revert h2 <;> decide
  have pl : ∀ x, x = '+' ∨ x = '?' → ¬ (Sideways x ∨ Upright x) := by
    unfold Sideways Upright
    rintro x (rfl | rfl) <;> decide
  cases hm with
  | one x hx =>
    simp at e
    rcases e with e | e
    · rcases h with h | h
      · exact pl b (.inl e.2) (.inl h.2)
      · exact pl b (.inl e.2) (.inr h.2)
    · rcases h with h | h
      · exact pl b (.inr e.2) (.inl h.2)
      · exact pl b (.inr e.2) (.inr h.2)
  | two x y hx =>
    simp at e
    obtain ⟨rfl, rfl⟩ := e
    rcases h with ⟨h1, h2⟩ | ⟨h1, h2⟩ <;> rcases hx with ⟨h3, h4⟩ | ⟨h3, h4⟩
    · exact dis _ h2 h4
    · exact dis _ h1 h3
    · exact dis _ h3 h1
    · exact dis _ h4 h2

/-- C143, violated: the documented modifier `-` is bad syntax, after any cell and moves. -/
theorem C143_minus_refuted (jsonLoads : Str → Option Doc) (c : CellText) (hc : c.Written false) (m : Str) (hm : MovesText m) :
    parseFragment jsonLoads (c.text ++ '(' :: (m ++ ['-'] ++ [')'])) = .error .syntaxError := by
  refine Classical.byContradiction fun hn => ?_
  have hd : ∀ x, Sideways x ∨ Upright x → x ≠ '!' ∧ x ≠ ':' ∧ x ≠ '-' := by
    unfold Sideways Upright
    intro x hx
    refine ⟨?_, ?_, ?_⟩ <;> rintro rfl <;> revert hx <;> decide
  have hmc : ∀ {m}, MovesText m → ∀ x ∈ m, Sideways x ∨ Upright x := by
    intro m hm x hx
    cases hm with
    | one c h => simp at hx; subst hx; exact h
    | two a b h =>
      simp at hx
      rcases hx with rfl | rfl <;> rcases h with ⟨h1, h2⟩ | ⟨h1, h2⟩ <;> first | exact .inl h1 | exact .inr h1 | exact .inl h2 | exact .inr h2
  have hp : '!' ∉ m ++ ['-'] ∧ ':' ∉ m ++ ['-'] := by
    simp
    exact ⟨fun h => (hd _ (hmc hm _ h)).1 rfl, fun h => (hd _ (hmc hm _ h)).2.1 rfl⟩
  obtain ⟨n, hnm, e⟩ := (C143_first_partial jsonLoads c hc _ hp).1 hn
  rcases e with e | e | e
  · exact (hd _ (hmc hnm '-' (by rw [← e]; simp))).2.2 rfl
  · have := congrArg List.getLast? e; simp at this
  · have := congrArg List.getLast? e; simp at this

/-- C143, violated: the documentation allows spaces in filters only, but they are also read in front of the reference. -/
theorem C143_spaces_refuted (jsonLoads : Str → Option Doc) :
    parseFragment jsonLoads "  B2".toList = parseFragment jsonLoads "B2".toList ∧
    ∃ f, parseFragment jsonLoads "  B2".toList = .ok f := by
  have hb : ∀ e, some (⟨.a1 ['B'] ['2'], none⟩ : EdgeText) = some e → e.Ok false := by
    intro e he
    cases he
    exact ⟨⟨.inl ⟨by simp, by simp; decide⟩, .inl ⟨'2', [], rfl, by decide, by decide, by simp⟩⟩, trivial⟩
  have h1 := C41_round_trip jsonLoads ⟨"  ".toList, none, some ⟨.a1 ['B'] ['2'], none⟩, none, none⟩
    ⟨(by intro x hx; simp at hx; subst hx; decide), trivial, hb, by simp, by simp, trivial, by simp⟩ rfl
  have h2 := C41_round_trip jsonLoads ⟨[], none, some ⟨.a1 ['B'] ['2'], none⟩, none, none⟩
    ⟨(by intro x hx; cases hx), trivial, hb, by simp, by simp, trivial, by simp⟩ rfl
  exact ⟨h1.trans h2.symm, _, h1⟩

/-! #### Cases -/

private theorem b2_ok (dot : Bool) : (CellText.a1 ['B'] ['2']).Written dot :=
  ⟨.inl ⟨by simp, by intro x hx; simp at hx; subst hx; exact .inl (by decide)⟩, .inl ⟨'2', [], rfl, by decide, by simp⟩⟩

example (jsonLoads : Str → Option Doc) : parseFragment jsonLoads "B2(rU?)".toList ≠ .error .syntaxError :=
  (C143_first_partial jsonLoads _ (b2_ok false) "rU?".toList (by decide)).2 ⟨"rU".toList, .two _ _ (.inl ⟨by unfold Sideways; decide, by unfold Upright; decide⟩),
    .inr (.inr rfl)⟩
example (jsonLoads : Str → Option Doc) : parseFragment jsonLoads ":B2(L)".toList ≠ .error .syntaxError :=
  (C143_second_partial jsonLoads _ (b2_ok true) "L".toList (by decide)).2 ⟨_, .one 'L' (.inl (by unfold Sideways; decide)), .inl rfl⟩
example (jsonLoads : Str → Option Doc) : parseFragment jsonLoads "B2(ud)".toList = .error .syntaxError :=
  C143_opposite jsonLoads _ (b2_ok false) 'u' 'd' (.inr ⟨by unfold Upright; decide, by unfold Upright; decide⟩)
example (jsonLoads : Str → Option Doc) : parseFragment jsonLoads "B2(D-)".toList = .error .syntaxError :=
  C143_minus_refuted jsonLoads _ (b2_ok false) ['D'] (.one 'D' (.inr (by unfold Upright; decide)))

end Props
