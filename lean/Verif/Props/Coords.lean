import Verif.Lemmas.Coords
/-
C31, C32: spreadsheet coordinates.
-/
set_option linter.unusedSimpArgs false
namespace Props
open Py Model Spec

/-- C31. Column letters denote their number in bijective base 26 (A=1 … Z=26, AA=27 …). -/
theorem C31_letters_value (s : Str) (hne : s ≠ []) (h : ∀ c ∈ s, isLetter c = true) :
    col2num s = some ((lettersNum s : Int) - 1) ∧ 1 ≤ lettersNum s :=
  ⟨col2num_letters hne h, (colName_lettersNum s hne h).1⟩

example : col2num "AaZ".toList = some 727 := by decide

/-- C31. From a column number to its letters and back. -/
theorem C31_number_round_trip (n : Nat) : col2num (colName n) = some (n : Int) := by
  rw [col2num_letters (colName_ne_nil n) (colName_letters n), lettersNum_colName]
  congr 1; omega

/-- C31. From column letters, in any case, to the number and back to the letters in upper case. -/
theorem C31_letters_round_trip (s : Str) (hne : s ≠ []) (h : ∀ c ∈ s, isLetter c = true) :
    ∃ n : Nat, col2num s = some (n : Int) ∧ colName n = upper s := by
  obtain ⟨h1, h2⟩ := colName_lettersNum s hne h
  refine ⟨lettersNum s - 1, ?_, h2⟩
  rw [col2num_letters hne h]
  congr 1; omega

example : col2num "dada".toList = some 71084 ∧ upper "dada".toList = "DADA".toList := by decide

/-- C31. Different columns have different letters. -/
theorem C31_colName_injective (a b : Nat) (h : colName a = colName b) : a = b := by
  have ha := C31_number_round_trip a
  rw [h, C31_number_round_trip b] at ha
  simp at ha; omega

/-- C31. Rows are written from one and read back. -/
theorem C31_row_round_trip (n : Nat) : row2num (natStr (n + 1)) = some (n : Int) := by
  unfold row2num
  rw [pyInt_natStr]
  simp only
  rw [if_neg (by omega), if_pos (by omega)]
  congr 1; omega

private theorem special_not_digit {s : Str} (hne : s ≠ []) (h : ∀ c ∈ s, c.isDigit = true ∨ isLetter c = true) :
    s ≠ ['^'] ∧ s ≠ ['_'] ∧ s ≠ ['.'] := by
  refine ⟨?_, ?_, ?_⟩ <;> intro e <;> subst e
  · have := h '^' (by simp); revert this; decide
  · have := h '_' (by simp); revert this; decide
  · have := h '.' (by simp); revert this; decide

/-- C31. Coordinates written as an A1 cell resolve, under any margins and base, to themselves. -/
theorem C31_cell_round_trip (r c : Nat) (up dn : Coords) (base : Option Coords) :
    ∃ cell, coords2Cell (.num r) (.num c) = .ok cell ∧ resolveCell cell up dn base = .ok ⟨r, c⟩ := by
  refine ⟨⟨natStr (r + 1), colName c⟩, ?_, ?_⟩
  · have h1 : ¬ ((r : Int) + 1 < 0) := by omega
    have h2 : ((r : Int) + 1).natAbs = r + 1 := by omega
    simp [coords2Cell, intStr, h1, h2, upper_digits (natStr_isDigit (r + 1)), colName_upper]
  · obtain ⟨a1, a2, a3⟩ := special_not_digit (natStr_ne_nil (r + 1)) (fun c hc => .inl (natStr_isDigit _ c hc))
    obtain ⟨b1, b2, b3⟩ := special_not_digit (colName_ne_nil c) (fun x hx => .inr (colName_letters _ x hx))
    have hr : ¬ ((r : Int) < 0) := by omega
    have hc : ¬ ((c : Int) < 0) := by omega
    simp only [resolveCell, resolveCoord, a1, a2, a3, b1, b2, b3, if_false, C31_row_round_trip,
      C31_number_round_trip, hr, hc]

example : coords2Cell (.num 10) (.num 26) = .ok ⟨"11".toList, "AA".toList⟩ := by
  have h1 : colName 26 = "AA".toList := by simp [colName]
  simp [coords2Cell, h1]; decide

/-- C31. Negative coordinates are refused. -/
theorem C31_negative_refused (r c : Int) (h : r < 0 ∨ c < 0) :
    coords2Cell (.num r) (.num c) = .error .assertionError := by
  by_cases hr : 0 ≤ r
  · have hc : ¬ 0 ≤ c := by omega
    simp [coords2Cell, hr, hc]
  · simp [coords2Cell, hr]

/-- C32. `^` is the upper margin, `_` the lower one, `.` the base coordinate; a base coordinate
is required for the last. -/
theorem C32_specials (f : Str → Option Int) (up dn : Int) (base : Option Int) (b : Int) :
    resolveCoord f "^".toList up dn base = .ok up ∧
    resolveCoord f "_".toList up dn base = .ok dn ∧
    resolveCoord f ".".toList up dn (some b) = .ok b ∧
    resolveCoord f ".".toList up dn none = .error .valueError := by
  refine ⟨rfl, rfl, rfl, rfl⟩

/-- C32. Rows and columns are resolved each with its own margins and base coordinate. -/
theorem C32_cell (cell : Cell) (up dn : Coords) (base : Option Coords) (r c : Int) :
    resolveCell cell up dn base = .ok ⟨r, c⟩ ↔
      resolveCoord row2num cell.row up.row dn.row (base.map (·.row)) = .ok r ∧
      resolveCoord col2num cell.col up.col dn.col (base.map (·.col)) = .ok c := by
  unfold resolveCell
  cases resolveCoord row2num cell.row up.row dn.row (base.map (·.row)) with
  | error e => simp
  | ok r' =>
    cases resolveCoord col2num cell.col up.col dn.col (base.map (·.col)) with
    | error e => simp
    | ok c' => simp

/-- C31. A cell can be made of two coordinates, each a number not below zero or one of the symbols, and it resolves to
what they stand for; from nothing else. -/
theorem C31_cell_of (x y : RawCoord) (up dn : Coords) (base : Option Coords) (r c : Int) :
    (∃ cell, coords2Cell x y = .ok cell ∧ resolveCell cell up dn base = .ok ⟨r, c⟩) ↔
      CoordIs up.row dn.row (base.map (·.row)) x r ∧ CoordIs up.col dn.col (base.map (·.col)) y c := by
  have key : ∀ (f : Str → Option Int) (w : Int → Str) (up dn : Int) (base : Option Int) (x : RawCoord) (r : Int),
      (∀ n : Nat, upper (w n) = w n ∧ w n ≠ ['^'] ∧ w n ≠ ['_'] ∧ w n ≠ ['.'] ∧ f (w n) = some (n : Int)) →
      ((∃ s, (match x with
        | .num n => if 0 ≤ n then .ok (w n) else .error .assertionError
        | .sym s => if s ∈ [['^'], ['_'], ['.']] then .ok s else .error .typeError : Except PyErr Str) = .ok s ∧
        resolveCoord f (upper s) up dn base = .ok r) ↔ CoordIs up dn base x r) := by
    intro f w up dn base x r hw
    constructor
    · rintro ⟨s, h1, h2⟩
      cases x with
      | num n =>
        simp only at h1
        split at h1
        · rename_i hn
          cases h1
          obtain ⟨n, rfl⟩ : ∃ k : Nat, n = k := ⟨n.toNat, by omega⟩
          obtain ⟨q1, q2, q3, q4, q5⟩ := hw n
          rw [q1] at h2
          simp only [resolveCoord, q2, q3, q4, q5, if_false] at h2
          rw [if_neg (by omega)] at h2
          cases h2
          exact .number n
        · cases h1
      | sym s' =>
        simp only at h1
        split at h1
        · rename_i hs
          cases h1
          simp only [List.mem_cons, List.not_mem_nil, or_false] at hs
          rcases hs with rfl | rfl | rfl
          · cases h2; exact .upper
          · cases h2; exact .lower
          · cases base with
            | none => cases h2
            | some b => cases h2; exact .base _ rfl
        · cases h1
    · intro h
      cases h with
      | number n =>
        obtain ⟨q1, q2, q3, q4, q5⟩ := hw n
        refine ⟨w n, by simp, ?_⟩
        rw [q1]
        simp only [resolveCoord, q2, q3, q4, q5, if_false]
        rw [if_neg (by omega)]
      | upper => exact ⟨['^'], rfl, rfl⟩
      | lower => exact ⟨['_'], rfl, rfl⟩
      | base b hb => subst hb; exact ⟨['.'], rfl, rfl⟩
  have k1 := key row2num (fun n => intStr (n + 1)) up.row dn.row (base.map (·.row)) x r (fun n => by
    obtain ⟨a1, a2, a3⟩ := special_not_digit (natStr_ne_nil (n + 1)) (fun c hc => .inl (natStr_isDigit _ c hc))
    have e : intStr ((n : Int) + 1) = natStr (n + 1) := by
      have h1 : ¬ ((n : Int) + 1 < 0) := by omega
      have h2 : ((n : Int) + 1).natAbs = n + 1 := by omega
      simp [intStr, h1, h2]
    simp only [e]
    exact ⟨upper_digits (natStr_isDigit (n + 1)), a1, a2, a3, C31_row_round_trip n⟩)
  have k2 := key col2num (fun n => colName n.toNat) up.col dn.col (base.map (·.col)) y c (fun n => by
    obtain ⟨b1, b2, b3⟩ := special_not_digit (colName_ne_nil n) (fun x hx => .inr (colName_letters _ x hx))
    simp only [Int.toNat_natCast]
    exact ⟨colName_upper n, b1, b2, b3, C31_number_round_trip n⟩)
  rw [← k1, ← k2]
  unfold coords2Cell
  constructor
  · rintro ⟨cell, h1, h2⟩
    rw [C32_cell] at h2
    revert h1
    simp only
    split
    · intro h1; cases h1
    · rename_i s hs
      split
      · intro h1; cases h1
      · rename_i s' hs'
        intro h1
        cases h1
        exact ⟨⟨s, hs, h2.1⟩, ⟨s', hs', h2.2⟩⟩
  · rintro ⟨⟨s, h1, h2⟩, ⟨s', h1', h2'⟩⟩
    refine ⟨⟨upper s, upper s'⟩, ?_, (C32_cell _ _ _ _ _ _).2 ⟨h2, h2'⟩⟩
    simp only
    split
    · rename_i e he; cases he.symm.trans h1
    · rename_i a ha
      cases ha.symm.trans h1
      split
      · rename_i e he; cases he.symm.trans h1'
      · rename_i b hb
        cases hb.symm.trans h1'
        rfl

/-- C31. Anything else is refused: a number below zero with `AssertionError`, a text that is no symbol with `TypeError`,
the row being looked at first. -/
theorem C31_cell_refused (x y : RawCoord) (e : PyErr) : coords2Cell x y = .error e ↔
    RefusedAs x e ∨ ((∀ e', ¬ RefusedAs x e') ∧ RefusedAs y e) := by
  have key : ∀ (w : Int → Str) (x : RawCoord), ∀ e, (match x with
        | .num n => if 0 ≤ n then .ok (w n) else .error .assertionError
        | .sym s => if s ∈ [['^'], ['_'], ['.']] then .ok s else .error .typeError : Except PyErr Str) = .error e ↔ RefusedAs x e := by
    intro w x e
    constructor
    · intro h
      cases x with
      | num n =>
        simp only at h
        split at h
        · cases h
        · cases h; exact .negative n (by omega)
      | sym s =>
        simp only at h
        split at h
        · cases h
        · rename_i hs; cases h; exact .text s hs
    · intro h
      cases h with
      | negative n hn => simp only; rw [if_neg (by omega)]
      | text s hs => simp only; rw [if_neg hs]
  have k1 := key (fun n => intStr (n + 1)) x
  have k2 := key (fun n => colName n.toNat) y
  unfold coords2Cell
  simp only
  split
  · rename_i a ha
    have hx := (k1 a).1 ha
    constructor
    · intro h; cases h; exact .inl hx
    · rintro (h | ⟨h, -⟩)
      · cases ha.symm.trans ((k1 e).2 h); rfl
      · exact absurd hx (h a)
  · rename_i a ha
    have hx : ∀ e', ¬ RefusedAs x e' := fun e' h => by cases ha.symm.trans ((k1 e').2 h)
    split
    · rename_i b hb
      have hy := (k2 b).1 hb
      constructor
      · intro h; cases h; exact .inr ⟨hx, hy⟩
      · rintro (h | ⟨-, h⟩)
        · exact absurd h (hx e)
        · cases hb.symm.trans ((k2 e).2 h); rfl
    · rename_i b hb
      constructor
      · intro h; cases h
      · rintro (h | ⟨-, h⟩)
        · exact absurd h (hx e)
        · cases hb.symm.trans ((k2 e).2 h)

example : CoordIs 3 7 (some 5) (.sym ".".toList) 5 ∧ CoordIs 3 7 none (.num 26) 26 ∧ RefusedAs (.num (-1)) .assertionError ∧
    RefusedAs (.sym "x".toList) .typeError := ⟨.base 5 rfl, .number 26, .negative _ (by decide), .text _ (by decide)⟩

/-- C32. `^^` is the upper-left cell of the data, `__` the lower-right one, `..` the base cell, and the
mixtures take the row of one and the column of the other. -/
theorem C32_special_cells (up dn b : Coords) (base : Option Coords) :
    resolveCell ⟨"^".toList, "^".toList⟩ up dn base = .ok up ∧
    resolveCell ⟨"_".toList, "_".toList⟩ up dn base = .ok dn ∧
    resolveCell ⟨"^".toList, "_".toList⟩ up dn base = .ok ⟨up.row, dn.col⟩ ∧
    resolveCell ⟨"_".toList, "^".toList⟩ up dn base = .ok ⟨dn.row, up.col⟩ ∧
    resolveCell ⟨".".toList, ".".toList⟩ up dn (some b) = .ok b ∧
    resolveCell ⟨".".toList, "^".toList⟩ up dn (some b) = .ok ⟨b.row, up.col⟩ ∧
    resolveCell ⟨"_".toList, ".".toList⟩ up dn (some b) = .ok ⟨dn.row, b.col⟩ := by
  refine ⟨rfl, rfl, rfl, rfl, rfl, rfl, rfl⟩

private theorem int_not_special {s : Str} {n : Int} (h : pyInt s = some n) :
    s ≠ ['^'] ∧ s ≠ ['_'] ∧ s ≠ ['.'] := by
  refine ⟨?_, ?_, ?_⟩ <;> intro e <;> subst e <;> revert h <;>
    simp [pyInt, stripBy, isIntSpace, isSpaceU, intNat, decVal, ndZeros]

/-- C32. A coordinate that is an integer text (any text that `int()` reads) resolves, for rows and
for columns, to `n - 1` if positive and counts from the lower margin if negative; zero is refused. -/
theorem C32_numbers (s : Str) (n : Int) (h : pyInt s = some n) (up dn : Int) (base : Option Int)
    (f : Str → Option Int) (hf : f = row2num ∨ f = col2num) :
    resolveCoord f s up dn base =
      if n = 0 then .error .valueError else if 0 < n then .ok (n - 1) else .ok (dn + 1 + n) := by
  obtain ⟨a1, a2, a3⟩ := int_not_special h
  have hfv : f s = if n = 0 then none else if n > 0 then some (n - 1) else some n := by
    rcases hf with hf | hf <;> subst hf <;> simp [row2num, col2num, h]
  simp only [resolveCoord, a1, a2, a3, if_false, hfv]
  by_cases h0 : n = 0
  · simp [h0]
  · by_cases hp : n > 0
    · have : ¬ (n - 1 < 0) := by omega
      simp [h0, hp, this]
    · have : n < 0 := by omega
      simp [h0, hp, this]
      omega

example : resolveCoord row2num "-1".toList 2 7 none = .ok 7 ∧
    resolveCoord row2num "3".toList 2 7 none = .ok 2 := ⟨rfl, rfl⟩

/-- C32. A column given in letters resolves to its number whatever the margins. -/
theorem C32_letters (s : Str) (hne : s ≠ []) (h : ∀ c ∈ s, isLetter c = true) (up dn : Int)
    (base : Option Int) : resolveCoord col2num s up dn base = .ok ((lettersNum s : Int) - 1) := by
  obtain ⟨b1, b2, b3⟩ := special_not_digit hne (fun x hx => .inr (h x hx))
  have h1 := (colName_lettersNum s hne h).1
  have : ¬ ((lettersNum s : Int) - 1 < 0) := by omega
  simp only [resolveCoord, b1, b2, b3, if_false, col2num_letters hne h, this]

/-- C32. Every other row text is refused with a `ValueError`. -/
theorem C32_row_rejects (s : Str) (up dn : Int) (base : Option Int)
    (hs : s ≠ "^".toList ∧ s ≠ "_".toList ∧ s ≠ ".".toList) (h : pyInt s = none) :
    resolveCoord row2num s up dn base = .error .valueError := by
  have h1 : s ≠ ['^'] := hs.1
  have h2 : s ≠ ['_'] := hs.2.1
  have h3 : s ≠ ['.'] := hs.2.2
  simp [resolveCoord, h1, h2, h3, row2num, h]

example : resolveCoord row2num "x".toList 0 5 (some 1) = .error .valueError := rfl

/-- Characters without a place in the alphabet, not even after `upper()`. -/
private theorem lettersVal_none : ∀ (s : Str) (acc : Nat), (∃ c ∈ s, letterVal c = none) →
    lettersVal acc s = none
  | [], _, h => by simp at h
  | c :: cs, acc, h => by
    rw [lettersVal]
    cases hc : letterVal c with
    | none => rfl
    | some v =>
      refine lettersVal_none cs _ ?_
      obtain ⟨x, hx, hv⟩ := h
      simp at hx
      rcases hx with hx | hx
      · subst hx; rw [hc] at hv; exact absurd hv (by simp)
      · exact ⟨x, hx, hv⟩

private theorem letterVal_eq_none {c : Char}
    (h : upperChar c ∉ "ABCDEFGHIJKLMNOPQRSTUVWXYZ".toList) : letterVal c = none := by
  unfold letterVal
  simp only
  split
  · rename_i hu
    exfalso; apply h
    have hk : ∀ k, k < 26 → Char.ofNat (0x41 + k) ∈ "ABCDEFGHIJKLMNOPQRSTUVWXYZ".toList := by decide +kernel
    have := hk ((upperChar c).toNat - 0x41) (by omega)
    have e : 0x41 + ((upperChar c).toNat - 0x41) = (upperChar c).toNat := by omega
    rw [e, Char.ofNat_toNat] at this
    exact this
  · rfl

/-- C32. Every other column text with a character outside the alphabet is refused. -/
theorem C32_col_rejects (s : Str) (up dn : Int) (base : Option Int)
    (hs : s ≠ "^".toList ∧ s ≠ "_".toList ∧ s ≠ ".".toList) (h : pyInt s = none)
    (hc : ∃ c ∈ s, upperChar c ∉ "ABCDEFGHIJKLMNOPQRSTUVWXYZ".toList) :
    resolveCoord col2num s up dn base = .error .valueError := by
  have h1 : s ≠ ['^'] := hs.1
  have h2 : s ≠ ['_'] := hs.2.1
  have h3 : s ≠ ['.'] := hs.2.2
  obtain ⟨c, hm, hv⟩ := hc
  have := lettersVal_none s 0 ⟨c, hm, letterVal_eq_none hv⟩
  simp [resolveCoord, h1, h2, h3, col2num, h, this]

example : resolveCoord col2num "%$".toList 0 5 none = .error .valueError := rfl

/-- C32, violated at the corner of an empty column text, which is taken as the last column. -/
theorem C32_empty_column_refuted (up dn : Int) (base : Option Int) :
    resolveCoord col2num [] up dn base = .ok dn := by
  simp [resolveCoord, col2num, pyInt, stripBy, intNat, lettersVal]
  omega

/-- C32, violated: counting further from the end than the sheet goes gives a negative coordinate
(which numpy then wraps around). -/
theorem C32_never_negative_refuted :
    ∃ (cell : Cell) (up dn : Coords), 0 ≤ up.row ∧ 0 ≤ up.col ∧ up.row ≤ dn.row ∧ up.col ≤ dn.col ∧
      ∃ r, resolveCell cell up dn none = .ok r ∧ r.row < 0 :=
  ⟨⟨"-4".toList, "A".toList⟩, ⟨0, 0⟩, ⟨2, 2⟩, by decide, by decide, by decide, by decide,
    ⟨-1, 0⟩, rfl, by decide⟩

/-- C32. What holds of "never negative": with non-negative margins and base, a resolved coordinate
is negative only for a negative integer text beyond the margin.
Missing for the full property: the excluded case, see `C32_never_negative_refuted`. -/
theorem C32_never_negative_partial (f : Str → Option Int) (hf : f = row2num ∨ f = col2num) (s : Str)
    (up dn v : Int) (base : Option Int) (hup : 0 ≤ up) (hdn : 0 ≤ dn) (hb : ∀ b, base = some b → 0 ≤ b)
    (hr : resolveCoord f s up dn base = .ok v)
    (hover : ∀ n, pyInt s = some n → -(dn + 1) ≤ n) : 0 ≤ v := by
  cases hi : pyInt s with
  | some n =>
    rw [C32_numbers s n hi up dn base f hf] at hr
    have := hover n hi
    split at hr
    · exact absurd hr (by simp)
    · split at hr <;> simp at hr <;> omega
  | none =>
    unfold resolveCoord at hr
    split at hr
    · simp at hr; omega
    · split at hr
      · simp at hr; omega
      · split at hr
        · cases base with
          | none => simp at hr
          | some b => simp at hr; have := hb b rfl; omega
        · rcases hf with hf | hf <;> subst hf
          · simp [row2num, hi] at hr
          · simp only [col2num, hi] at hr
            cases hl : lettersVal 0 s with
            | none => simp [hl] at hr
            | some n =>
              simp [hl] at hr
              split at hr <;> simp at hr <;> omega

/-- C32. Exactly where a resolved coordinate is negative, and that it is then by as much as the text leads beyond the
first one. -/
theorem C32_negative_exact (f : Str → Option Int) (hf : f = row2num ∨ f = col2num) (s : Str)
    (up dn v : Int) (base : Option Int) (hup : 0 ≤ up) (hdn : 0 ≤ dn) (hb : ∀ b, base = some b → 0 ≤ b)
    (hr : resolveCoord f s up dn base = .ok v) : v < 0 ↔ ∃ n, pyInt s = some n ∧ n < -(dn + 1) ∧ v = n + (dn + 1) := by
  constructor
  · intro hv
    apply Classical.byContradiction
    intro hno
    have hover : ∀ n, pyInt s = some n → -(dn + 1) ≤ n := by
      intro n hn
      apply Classical.byContradiction
      intro hlt
      have hr' := hr
      rw [C32_numbers s n hn up dn base f hf, if_neg (by omega), if_neg (by omega)] at hr'
      simp only [Except.ok.injEq] at hr'
      exact hno ⟨n, hn, by omega, by omega⟩
    have := C32_never_negative_partial f hf s up dn v base hup hdn hb hr hover
    omega
  · rintro ⟨n, hn, hlt, e⟩
    omega

example : resolveCoord row2num "-3".toList 0 2 none = .ok 0 := rfl
example : resolveCoord row2num "-5".toList 0 2 none = .ok (-2) := rfl

end Props
