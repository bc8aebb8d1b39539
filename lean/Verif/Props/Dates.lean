import Verif.Spec.Dates
/-
C124: dates are read as Excel shows them.
-/
namespace Props
open Py Model Spec

private theorem leap_iff (y : Nat) (h : y ≠ 1900) : isLeap y = true ↔ ExcelLeap y := by
  simp only [isLeap, ExcelLeap, Bool.and_eq_true, Bool.or_eq_true, beq_iff_eq, bne_iff_ne]
  omega

private theorem months (m : Nat) (h1 : 1 ≤ m) (h12 : m ≤ 12) :
    m ∈ [1, 3, 5, 7, 8, 10, 12] ∨ m ∈ [4, 6, 9, 11] ∨ m = 2 := by
  simp only [List.mem_cons, List.not_mem_nil, or_false]
  omega

private theorem lastDay (y m : Nat) (h1 : 1 ≤ m) (h12 : m ≤ 12) (hy : y ≠ 1900 ∨ m ≠ 2) : LastDay ExcelLeap y m (daysIn y m) := by
  rcases months m h1 h12 with h | h | h
  · have e : daysIn y m = 31 := by
      simp only [List.mem_cons, List.not_mem_nil, or_false] at h
      unfold daysIn
      rw [if_neg (by omega), if_neg (by omega)]
    rw [e]
    exact .long y m h
  · have e : daysIn y m = 30 := by
      simp only [List.mem_cons, List.not_mem_nil, or_false] at h
      unfold daysIn
      rw [if_neg (by omega), if_pos (by omega)]
    rw [e]
    exact .short y m h
  · subst h
    have hy : y ≠ 1900 := by omega
    unfold daysIn
    rw [if_pos rfl]
    by_cases hl : isLeap y = true
    · rw [if_pos hl]; exact .leap y ((leap_iff y hy).1 hl)
    · rw [if_neg hl]; exact .common y (fun h => hl ((leap_iff y hy).2 h))

/-- A day that there is. -/
private structure Real (t : Date) : Prop where
  m1 : 1 ≤ t.m
  m12 : t.m ≤ 12
  d1 : t.d ≤ daysIn t.y t.m

private theorem real_next {t : Date} (h : Real t) : Real t.next := by
  obtain ⟨y, m, d⟩ := t
  obtain ⟨h1, h2, h3⟩ := h
  simp only at h1 h2 h3
  unfold Date.next
  simp only
  split
  · exact ⟨h1, h2, by simp only; omega⟩
  · split
    · refine ⟨by simp, by simp only; omega, ?_⟩
      simp only [daysIn]
      repeat' split
      all_goals omega
    · exact ⟨by simp, by simp, by simp [daysIn]⟩

private theorem next_after {t : Date} (h : Real t) (hy : t.y ≠ 1900 ∨ t.m ≠ 2) : DayAfter ExcelLeap t t.next := by
  obtain ⟨y, m, d⟩ := t
  obtain ⟨h1, h2, h3⟩ := h
  simp only at h1 h2 h3 hy
  unfold Date.next
  simp only
  split
  · rename_i hd
    exact .inMonth y m d _ (lastDay y m h1 h2 hy) hd
  · rename_i hd
    have e : d = daysIn y m := by omega
    split
    · rename_i hm
      rw [e]
      exact .month y m _ (lastDay y m h1 h2 hy) hm
    · rename_i hm
      have : m = 12 := by omega
      subst this
      have e' : d = 31 := by rw [e]; simp [daysIn]
      subst e'
      exact .year y

/-- Days in order, as numbers. -/
private def key (t : Date) : Nat := t.y * 10000 + t.m * 100 + t.d

private theorem daysIn_le (y m : Nat) : daysIn y m ≤ 31 := by
  unfold daysIn
  repeat' split
  all_goals omega

private theorem key_next {t : Date} (h : Real t) : key t < key t.next := by
  obtain ⟨y, m, d⟩ := t
  obtain ⟨h1, h2, h3⟩ := h
  simp only at h1 h2 h3
  have := daysIn_le y m
  unfold Date.next key
  simp only
  split
  · simp only; omega
  · split <;> simp only <;> omega

private theorem real_add {t : Date} (h : Real t) : ∀ n, Real (t.add n)
  | 0 => h
  | n + 1 => real_next (real_add h n)

private theorem key_add {t : Date} (h : Real t) (m : Nat) : ∀ n, key (t.add m) < key (t.add (m + (n + 1)))
  | 0 => key_next (real_add h m)
  | n + 1 => Nat.lt_trans (key_add h m n) (key_next (real_add h _))

private theorem key_lt {t : Date} (h : Real t) {m n : Nat} (hmn : m < n) : key (t.add m) < key (t.add n) := by
  obtain ⟨k, rfl⟩ : ∃ k, n = m + (k + 1) := ⟨n - m - 1, by omega⟩
  exact key_add h m k

private theorem add_add (t : Date) (m : Nat) : ∀ n, t.add (m + n) = (t.add m).add n
  | 0 => rfl
  | n + 1 => congrArg Date.next (add_add t m n)

/-- The day before day one of the system of 1900. -/
private def day0 : Date := ⟨1899, 12, 31⟩

private theorem real_day0 : Real day0 := ⟨by decide, by decide, by decide⟩

private theorem add_before (n : Nat) : (⟨1899, 12, 30⟩ : Date).add (n + 1) = day0.add n := by
  rw [Nat.add_comm, add_add]
  rfl

/-- March 1900 or later. -/
private def Late (t : Date) : Prop := 1900 < t.y ∨ t.y = 1900 ∧ 3 ≤ t.m

private theorem late_next {t : Date} (h : Late t) : Late t.next := by
  obtain ⟨y, m, d⟩ := t
  unfold Late at *
  unfold Date.next
  simp only at *
  split
  · exact h
  · split <;> simp only <;> omega

private theorem late_add : ∀ n, Late (day0.add (60 + n))
  | 0 => by unfold Late; decide +kernel
  | n + 1 => late_next (late_add n)

private theorem shown_early : ∀ n, n < 59 → ShownDay false (n + 1) (day0.add (n + 1))
  | 0, _ => .first1900
  | n + 1, h => by
    have ih := shown_early n (by omega)
    have hr := real_add real_day0 (n + 1)
    refine .next _ _ _ _ ih ?_
    by_cases hf : (day0.add (n + 1)).y = 1900 ∧ (day0.add (n + 1)).m = 2
    · have key : ∀ k < 58, (day0.add (k + 1)).y = 1900 ∧ (day0.add (k + 1)).m = 2 → (day0.add (k + 1)).d < 28 := by decide +kernel
      have hd := key n (by omega) hf
      show DayAfter ExcelLeap (day0.add (n + 1)) (day0.add (n + 1)).next
      generalize day0.add (n + 1) = t at *
      obtain ⟨y, m, d⟩ := t
      obtain ⟨rfl, rfl⟩ := hf
      have e : Date.next ⟨1900, 2, d⟩ = ⟨1900, 2, d + 1⟩ := if_pos (show d < daysIn 1900 2 from hd)
      rw [e]
      exact .inMonth _ _ _ 29 (.leap _ (.inl rfl)) (by simp only at hd; omega)
    · exact next_after hr (by omega)

private theorem shown_late : ∀ n, ShownDay false (61 + n) (day0.add (60 + n))
  | 0 => by
    have e59 : day0.add 59 = ⟨1900, 2, 28⟩ := by decide +kernel
    have e60 : day0.add 60 = ⟨1900, 3, 1⟩ := by decide +kernel
    have h59 : ShownDay false 59 ⟨1900, 2, 28⟩ := e59 ▸ shown_early 58 (by omega)
    have h60 : ShownDay false 60 ⟨1900, 2, 29⟩ := .next _ _ _ _ h59 (.inMonth _ _ _ 29 (.leap _ (.inl rfl)) (by omega))
    show ShownDay false 61 (day0.add 60)
    rw [e60]
    exact .next _ _ _ _ h60 (.month _ _ _ (.leap _ (.inl rfl)) (by omega))
  | n + 1 => by
    refine .next _ _ _ _ (shown_late n) (next_after (real_add real_day0 _) ?_)
    have := late_add n
    unfold Late at this
    omega

private theorem lastDay_unique {y m a b : Nat} (h1 : LastDay ExcelLeap y m a) (h2 : LastDay ExcelLeap y m b) : a = b := by
  have long : ∀ {n}, LastDay ExcelLeap y m n → (m ∈ [1, 3, 5, 7, 8, 10, 12] ∧ n = 31) ∨ (m ∈ [4, 6, 9, 11] ∧ n = 30) ∨
      (m = 2 ∧ ExcelLeap y ∧ n = 29) ∨ (m = 2 ∧ ¬ ExcelLeap y ∧ n = 28) := by
    intro n h
    cases h with
    | long _ h => exact .inl ⟨h, rfl⟩
    | short _ h => exact .inr (.inl ⟨h, rfl⟩)
    | leap h => exact .inr (.inr (.inl ⟨rfl, h, rfl⟩))
    | common h => exact .inr (.inr (.inr ⟨rfl, h, rfl⟩))
  have g1 := long h1
  have g2 := long h2
  simp only [List.mem_cons, List.not_mem_nil, or_false] at g1 g2
  by_cases hl : ExcelLeap y
  · simp only [hl, not_true, true_and, false_and, and_false, or_false] at g1 g2; omega
  · simp only [hl, not_false_eq_true, true_and, false_and, and_false, false_or] at g1 g2; omega

private theorem dec_last {y a : Nat} (h : LastDay ExcelLeap y 12 a) : a = 31 :=
  lastDay_unique h (.long _ _ (by simp))

private theorem after_unique {t a b : Date} (h1 : DayAfter ExcelLeap t a) (h2 : DayAfter ExcelLeap t b) : a = b := by
  cases h1 with
  | inMonth y m d l hl hd => cases h2 with
    | inMonth => rfl
    | month _ _ _ hl' => have := lastDay_unique hl hl'; omega
    | year => have := dec_last hl; omega
  | month y m d hl hm => cases h2 with
    | month => rfl
    | inMonth _ _ _ l hl' hd => have := lastDay_unique hl hl'; omega
    | year => omega
  | year y => cases h2 with
    | year => rfl
    | inMonth _ _ _ l hl' hd => have := dec_last hl'; omega
    | month _ _ _ _ hm => omega

private theorem shown_pos {n : Nat} {t : Date} {b : Bool} (h : ShownDay b n t) : b = false → 1 ≤ n := by
  cases h with
  | first1904 => intro h; cases h
  | first1900 => intro _; omega
  | next => intro _; omega

private theorem shown_unique {b : Bool} {n : Nat} {t : Date} (h : ShownDay b n t) : ∀ t', ShownDay b n t' → t' = t := by
  induction h with
  | first1904 => intro t' h; cases h; rfl
  | first1900 =>
    intro t' h
    cases h with
    | first1900 => rfl
    | next _ n _ _ h => have := shown_pos h rfl; omega
  | next b n s t hs ha ih =>
    intro t' h'
    cases h' with
    | first1900 => have := shown_pos hs rfl; omega
    | next _ _ s' _ hs' ha' =>
      have := ih s' hs'
      subst this
      exact after_unique ha' ha

private theorem shown_1904 : ∀ n, ShownDay true n ((⟨1904, 1, 1⟩ : Date).add n)
  | 0 => .first1904
  | n + 1 => by
    have real : Real (⟨1904, 1, 1⟩ : Date) := ⟨by decide, by decide, by decide⟩
    refine .next _ _ _ _ (shown_1904 n) (next_after (real_add real n) (.inl ?_))
    have : ∀ n, 1904 ≤ ((⟨1904, 1, 1⟩ : Date).add n).y := by
      intro n
      induction n with
      | zero => decide
      | succ n ih =>
        show 1904 ≤ (Date.next _).y
        unfold Date.next
        split
        · exact ih
        · split <;> simp only <;> omega
    have := this n
    omega

private theorem day0_1904 : day0.add 1461 = ⟨1904, 1, 1⟩ := by
  have e1 : day0.add 366 = ⟨1901, 1, 1⟩ := by decide +kernel
  have e2 : (⟨1901, 1, 1⟩ : Date).add 365 = ⟨1902, 1, 1⟩ := by decide +kernel
  have e3 : (⟨1902, 1, 1⟩ : Date).add 365 = ⟨1903, 1, 1⟩ := by decide +kernel
  have e4 : (⟨1903, 1, 1⟩ : Date).add 365 = ⟨1904, 1, 1⟩ := by decide +kernel
  rw [show 1461 = 366 + 365 + 365 + 365 from rfl, add_add, add_add, add_add, e1, e2, e3, e4]

/-- Reading in the system of 1900, as a day counted from `day0`. -/
private theorem read_eq (b : Bool) (days ms : Nat) (hms : ms ≤ dayMs) (n : Nat) (hn : n = days + ms / dayMs) (h0 : n ≠ 0) (h60 : n ≠ 60) :
    readDate b days ms = .datetime (day0.add (if n < 60 then n else n - 1)) (ms % dayMs) := by
  have hq : ms / dayMs ≤ 1 := by
    have := Nat.div_le_div_right (c := dayMs) hms
    simpa [dayMs] using this
  have hd : (xldateAsDatetime false days ms) = (day0.add (if n < 60 then n else n - 1), ms % dayMs) := by
    simp only [xldateAsDatetime, Bool.false_eq_true, if_false, ← hn]
    generalize ms / dayMs = q at *
    by_cases h : days < 60
    · rw [if_pos h, if_pos (by omega)]
      rfl
    · rw [if_neg h, if_neg (by omega)]
      obtain ⟨k, rfl⟩ : ∃ k, n = k + 1 := ⟨n - 1, by omega⟩
      rw [add_before]
      rfl
  simp only [readDate, parseDate, hd, Bool.false_eq_true, if_false]
  rw [if_neg]
  intro e
  have := key_lt real_day0 (m := 0) (n := if n < 60 then n else n - 1) (by split <;> omega)
  rw [e] at this
  exact absurd this (by decide)

private theorem ms_of_day : dayLength = dayMs := by decide

/-- C124: a date of a workbook in the system of 1900 is read as the day that Excel shows, and the time of the day. `day` is the number
of the day, after rounding to milliseconds. Missing: workbooks in the system of 1904; the 29th of February 1900, which there is only in
Excel. -/
theorem C124_dates_partial (days ms day : Nat) (hms : ms ≤ dayLength) (hday : day = (days * dayLength + ms) / dayLength) (h1 : 1 ≤ day) (h60 : day ≠ 60) :
    ∃ t, ShownDay false day t ∧ readDate false days ms = .datetime t ((days * dayLength + ms) % dayLength) := by
  rw [ms_of_day] at hms hday ⊢
  have e1 : (days * dayMs + ms) / dayMs = days + ms / dayMs := by
    rw [Nat.add_comm, Nat.add_mul_div_right _ _ (by decide), Nat.add_comm]
  have e2 : (days * dayMs + ms) % dayMs = ms % dayMs := by
    rw [Nat.add_comm, Nat.add_mul_mod_self_right]
  rw [e1] at hday
  rw [e2, read_eq false days ms hms day hday (by omega) h60]
  refine ⟨_, ?_, rfl⟩
  split
  · obtain ⟨k, rfl⟩ : ∃ k, day = k + 1 := ⟨day - 1, by omega⟩
    exact shown_early k (by omega)
  · obtain ⟨k, rfl⟩ : ∃ k, day = 61 + k := ⟨day - 61, by omega⟩
    have e : 61 + k - 1 = 60 + k := by omega
    rw [e]
    exact shown_late k

/-- C124: a number less than one is read as a time of the day, not as a date. -/
theorem C124_times (b : Bool) (ms : Nat) (hms : ms < dayLength) : readDate b 0 ms = .time ms := by
  rw [ms_of_day] at hms
  have e1 : ms / dayMs = 0 := Nat.div_eq_of_lt hms
  have e2 : ms % dayMs = ms := Nat.mod_eq_of_lt hms
  simp only [readDate, parseDate, xldateAsDatetime, e1, e2]
  rfl

/-- C124: what Excel shows is one day only. -/
theorem C124_shown (b : Bool) (n : Nat) (t t' : Date) (h : ShownDay b n t) (h' : ShownDay b n t') : t = t' :=
  (shown_unique h t' h').symm

/-- C124 is false of workbooks in the date system of 1904: no date of theirs is read as the day that Excel shows. -/
theorem C124_1904_refuted (days ms : Nat) (hms : ms < dayLength) (t : Date) (h : ShownDay true days t) (n : Nat) :
    readDate true days ms ≠ .datetime t n := by
  rw [ms_of_day] at hms
  have ht : t = day0.add (1461 + days) := by
    rw [add_add, day0_1904]
    exact shown_unique (shown_1904 days) t h
  have e1 : ms / dayMs = 0 := Nat.div_eq_of_lt hms
  subst ht
  intro e
  have hx : (xldateAsDatetime false days ms).1 = day0.add (1461 + days) := by
    simp only [readDate, parseDate, Bool.false_eq_true, if_false] at e
    by_cases h0 : (xldateAsDatetime false days ms).1 = ⟨1899, 12, 31⟩
    · rw [if_pos h0] at e; cases e
    · rw [if_neg h0] at e; injection e
  simp only [xldateAsDatetime, Bool.false_eq_true, if_false, e1, Nat.add_zero] at hx
  by_cases hd : days < 60
  · rw [if_pos hd] at hx
    have := key_lt real_day0 (m := days) (n := 1461 + days) (by omega)
    rw [← hx] at this
    exact absurd this (Nat.lt_irrefl _)
  · rw [if_neg hd] at hx
    obtain ⟨k, rfl⟩ : ∃ k, days = k + 1 := ⟨days - 1, by omega⟩
    rw [add_before] at hx
    have := key_lt real_day0 (m := k) (n := 1461 + (k + 1)) (by omega)
    rw [← hx] at this
    exact absurd this (Nat.lt_irrefl _)

/-- C124: if the sheet knew the date system of its workbook, dates would be read as shown in that of 1904, too. -/
theorem C124_told (days ms : Nat) (hms : ms < dayLength) (hd : days ≠ 0) :
    ∃ t, ShownDay true days t ∧ parseDate true days ms = .datetime t ms := by
  rw [ms_of_day] at hms
  refine ⟨_, shown_1904 days, ?_⟩
  have e1 : ms / dayMs = 0 := Nat.div_eq_of_lt hms
  have e2 : ms % dayMs = ms := Nat.mod_eq_of_lt hms
  simp only [parseDate, xldateAsDatetime, if_true, e1, e2, Nat.add_zero]
  rw [if_neg]
  intro e
  have real : Real (⟨1904, 1, 1⟩ : Date) := ⟨by decide, by decide, by decide⟩
  have := key_lt real (m := 0) (n := days) (by omega)
  rw [e] at this
  exact absurd this (by decide)

/-- C124: and so would numbers less than one be read as times of the day. -/
theorem C124_told_times (b : Bool) (ms : Nat) (hms : ms < dayLength) : parseDate b 0 ms = .time ms := by
  rw [ms_of_day] at hms
  have e1 : ms / dayMs = 0 := Nat.div_eq_of_lt hms
  have e2 : ms % dayMs = ms := Nat.mod_eq_of_lt hms
  cases b <;> simp only [parseDate, xldateAsDatetime, e1, e2] <;> rfl

/-! Cases that meet the hypotheses: the second of January 1901, at noon; the end of 1900's February. -/
example : readDate false 368 43200000 = .datetime ⟨1901, 1, 2⟩ 43200000 := by decide +kernel
example : readDate false 59 0 = .datetime ⟨1900, 2, 28⟩ 0 ∧ readDate false 61 0 = .datetime ⟨1900, 3, 1⟩ 0 := by decide +kernel
example : ShownDay true 0 ⟨1904, 1, 1⟩ ∧ readDate true 366 0 = .datetime ⟨1900, 12, 31⟩ 0 := ⟨.first1904, by decide +kernel⟩

end Props
