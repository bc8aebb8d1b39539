import Verif.Lemmas.Capture
set_option linter.unusedSimpArgs false
namespace Model
open Py Spec

theorem anyIn_iff {m : Mat} {a b c d : Int} (ha : 0 ≤ a) (hb : 0 ≤ b) (hc : 0 ≤ c) (hd : 0 ≤ d) :
    m.anyIn a b c d = true ↔ ∃ p, FullAt m p ∧ a ≤ p.row ∧ p.row < b ∧ c ≤ p.col ∧ p.col < d := by
  simp only [Mat.anyIn, List.any_eq_true, List.mem_range, Bool.and_eq_true, decide_eq_true_eq,
    sliceBound_nonneg ha, sliceBound_nonneg hb, sliceBound_nonneg hc, sliceBound_nonneg hd]
  constructor
  · rintro ⟨i, hi, hi2, j, hj, hj2, h⟩
    exact ⟨⟨i, j⟩, ⟨i, j, rfl, hi, hj, h⟩, by simp only; omega, by simp only; omega, by simp only; omega, by simp only; omega⟩
  · rintro ⟨p, ⟨i, j, rfl, hi, hj, h⟩, h1, h2, h3, h4⟩
    simp only at h1 h2 h3 h4
    exact ⟨i, hi, by omega, j, hj, by omega, h⟩

theorem anyIn_rows_empty {m : Mat} {a c d : Int} : m.anyIn a 0 c d = false := by
  rw [Bool.eq_false_iff]
  intro h
  simp [Mat.anyIn, sliceBound] at h

theorem anyIn_cols_empty {m : Mat} {a b c : Int} : m.anyIn a b c 0 = false := by
  rw [Bool.eq_false_iff]
  intro h
  simp [Mat.anyIn, sliceBound] at h

theorem lineAny_iff {m : Mat} {r : Rect} {d : Dir} (hw : WellRect r) :
    lineAny m r d = true ↔ LineFull m r d := by
  obtain ⟨h1, h2, h3, h4⟩ := hw
  cases d with
  | L =>
    by_cases h0 : r.c1 = 0
    · simp only [lineAny, Rect.grow, h0]
      have : (0 : Int) - 1 + 1 = 0 := by omega
      rw [this, anyIn_cols_empty]
      constructor
      · simp
      · rintro ⟨p, ⟨e1, e2⟩, hf⟩
        have := fullAt_iff.1 hf; omega
    · simp only [lineAny, Rect.grow]
      rw [anyIn_iff (by omega) (by omega) (by omega) (by omega)]
      constructor
      · rintro ⟨p, hf, a, b, c, e⟩; exact ⟨p, ⟨by omega, by omega, by omega⟩, hf⟩
      · rintro ⟨p, ⟨a, b, c⟩, hf⟩; exact ⟨p, hf, by omega, by omega, by omega, by omega⟩
  | U =>
    by_cases h0 : r.r1 = 0
    · simp only [lineAny, Rect.grow, h0]
      have : (0 : Int) - 1 + 1 = 0 := by omega
      rw [this, anyIn_rows_empty]
      constructor
      · simp
      · rintro ⟨p, ⟨e1, e2⟩, hf⟩
        have := fullAt_iff.1 hf; omega
    · simp only [lineAny, Rect.grow]
      rw [anyIn_iff (by omega) (by omega) (by omega) (by omega)]
      constructor
      · rintro ⟨p, hf, a, b, c, e⟩; exact ⟨p, ⟨by omega, by omega, by omega⟩, hf⟩
      · rintro ⟨p, ⟨a, b, c⟩, hf⟩; exact ⟨p, hf, by omega, by omega, by omega, by omega⟩
  | R =>
    simp only [lineAny, Rect.grow]
    rw [anyIn_iff (by omega) (by omega) (by omega) (by omega)]
    constructor
    · rintro ⟨p, hf, a, b, c, e⟩; exact ⟨p, ⟨by omega, by omega, by omega⟩, hf⟩
    · rintro ⟨p, ⟨a, b, c⟩, hf⟩; exact ⟨p, hf, by omega, by omega, by omega, by omega⟩
  | D =>
    simp only [lineAny, Rect.grow]
    rw [anyIn_iff (by omega) (by omega) (by omega) (by omega)]
    constructor
    · rintro ⟨p, hf, a, b, c, e⟩; exact ⟨p, ⟨by omega, by omega, by omega⟩, hf⟩
    · rintro ⟨p, ⟨a, b, c⟩, hf⟩; exact ⟨p, hf, by omega, by omega, by omega, by omega⟩

theorem grow_eq_widen (r : Rect) (d : Dir) : r.grow d = widen r (fun e => if e = d then 1 else 0) := by
  cases d <;> simp [Rect.grow, widen]

theorem grow_well {m : Mat} {r : Rect} {d : Dir} (hw : WellRect r) (hl : LineFull m r d) :
    WellRect (r.grow d) := by
  obtain ⟨p, ha, hf⟩ := hl
  have := fullAt_iff.1 hf
  obtain ⟨h1, h2, h3, h4⟩ := hw
  cases d <;> simp [AdjLine] at ha <;> simp [WellRect, Rect.grow] <;> omega

theorem sub_refl (r : Rect) : Within r r := by simp [Within]
theorem sub_trans {a b c : Rect} (h1 : Within a b) (h2 : Within b c) : Within a c := by
  unfold Within at *; omega
theorem sub_antisymm {a b : Rect} (h1 : Within a b) (h2 : Within b a) : a = b := by
  cases a; cases b; simp [Within] at *; omega
theorem grow_sub (r : Rect) (d : Dir) : Within r (r.grow d) := by
  cases d <;> simp [Within, Rect.grow] <;> omega
theorem grow_ne (r : Rect) (d : Dir) : r.grow d ≠ r := by
  intro h
  cases d <;> simp [Rect.grow] at h <;> cases r <;> simp at h <;> omega

theorem expand1_of_full {m : Mat} {r : Rect} {d : Dir} (hw : WellRect r) (h : LineFull m r d) :
    expand1 m r d = r.grow d := by simp [expand1, (lineAny_iff hw).2 h]
theorem expand1_of_empty {m : Mat} {r : Rect} {d : Dir} (hw : WellRect r) (h : ¬ LineFull m r d) :
    expand1 m r d = r := by
  have : lineAny m r d = false := by rw [Bool.eq_false_iff]; exact fun hc => h ((lineAny_iff hw).1 hc)
  simp [expand1, this]

/-- One primitive move either does nothing on an empty line, or grows over a non-empty one. -/
theorem expand1_cases {m : Mat} {r : Rect} {d : Dir} (hw : WellRect r) :
    (¬ LineFull m r d ∧ expand1 m r d = r) ∨ (LineFull m r d ∧ expand1 m r d = r.grow d) := by
  by_cases h : LineFull m r d
  · exact .inr ⟨h, expand1_of_full hw h⟩
  · exact .inl ⟨h, expand1_of_empty hw h⟩

theorem expand1_well {m : Mat} {r : Rect} {d : Dir} (hw : WellRect r) : WellRect (expand1 m r d) := by
  rcases expand1_cases hw (m := m) (d := d) with ⟨_, e⟩ | ⟨h, e⟩ <;> rw [e]
  · exact hw
  · exact grow_well hw h

theorem expand1_sub {m : Mat} {r : Rect} {d : Dir} (hw : WellRect r) : Within r (expand1 m r d) := by
  rcases expand1_cases hw (m := m) (d := d) with ⟨_, e⟩ | ⟨h, e⟩ <;> rw [e]
  · exact sub_refl r
  · exact grow_sub r d

theorem round_well {m : Mat} (dirs : List Dir) : ∀ {r : Rect}, WellRect r → WellRect (expandRound m dirs r) := by
  induction dirs with
  | nil => intro r h; exact h
  | cons d ds ih => intro r h; exact ih (expand1_well h)

theorem round_sub {m : Mat} (dirs : List Dir) : ∀ {r : Rect}, WellRect r → Within r (expandRound m dirs r) := by
  induction dirs with
  | nil => intro r h; exact sub_refl r
  | cons d ds ih => intro r h; exact sub_trans (expand1_sub h) (ih (expand1_well h))

theorem repeat_well {m : Mat} (dirs : List Dir) (n : Nat) : ∀ {r : Rect}, WellRect r → WellRect (expandRepeat m dirs n r) := by
  induction n with
  | zero => intro r h; exact h
  | succ n ih =>
    intro r h
    simp only [expandRepeat]
    split
    · exact h
    · exact ih (round_well dirs h)

theorem repeat_sub {m : Mat} (dirs : List Dir) (n : Nat) : ∀ {r : Rect}, WellRect r → Within r (expandRepeat m dirs n r) := by
  induction n with
  | zero => intro r h; exact sub_refl r
  | succ n ih =>
    intro r h
    simp only [expandRepeat]
    split
    · exact sub_refl r
    · exact sub_trans (round_sub dirs h) (ih (round_well dirs h))

/-- A round without effect means that every line asked for is empty. -/
theorem round_fix {m : Mat} (dirs : List Dir) : ∀ {r : Rect}, WellRect r → expandRound m dirs r = r → Closed m dirs r := by
  induction dirs with
  | nil => intro r _ _ d hd; simp at hd
  | cons d ds ih =>
    intro r hw he
    have he' : expandRound m ds (expand1 m r d) = r := he
    have hs1 := expand1_sub hw (m := m) (d := d)
    have hs2 := round_sub (m := m) ds (expand1_well hw (m := m) (d := d))
    rw [he'] at hs2
    have heq : expand1 m r d = r := sub_antisymm hs2 hs1
    rw [heq] at he'
    intro e hee
    simp at hee
    rcases hee with rfl | hee
    · intro hl
      rw [expand1_of_full hw hl] at heq
      exact grow_ne _ _ heq
    · exact ih hw he' e hee

theorem round_closed {m : Mat} (dirs : List Dir) {r : Rect} (hw : WellRect r) (hc : Closed m dirs r) :
    expandRound m dirs r = r := by
  induction dirs with
  | nil => rfl
  | cons d ds ih =>
    have : expand1 m r d = r := expand1_of_empty hw (hc d (by simp))
    show expandRound m ds (expand1 m r d) = r
    rw [this]
    exact ih (fun e he => hc e (by simp [he]))

/-- Room left for growing. -/
def room (m : Mat) (r : Rect) : Nat :=
  min r.r1.toNat m.rows + min r.c1.toNat m.cols + (m.rows - r.r2).toNat + (m.cols - r.c2).toNat

theorem room_le (m : Mat) {r : Rect} (hw : WellRect r) : room m r ≤ 2 * (m.rows + m.cols) := by
  obtain ⟨h1, h2, h3, h4⟩ := hw
  unfold room; omega

theorem room_grow {m : Mat} {r : Rect} {d : Dir} (hw : WellRect r) (h : LineFull m r d) :
    room m (r.grow d) < room m r := by
  obtain ⟨p, ha, hf⟩ := h
  have := fullAt_iff.1 hf
  obtain ⟨h1, h2, h3, h4⟩ := hw
  cases d <;> simp [AdjLine] at ha <;> simp [room, Rect.grow] <;> omega

theorem room_expand1 {m : Mat} {r : Rect} {d : Dir} (hw : WellRect r) : room m (expand1 m r d) ≤ room m r := by
  rcases expand1_cases hw (m := m) (d := d) with ⟨_, e⟩ | ⟨h, e⟩ <;> rw [e]
  · exact Nat.le_refl _
  · exact Nat.le_of_lt (room_grow hw h)

theorem room_round {m : Mat} (dirs : List Dir) : ∀ {r : Rect}, WellRect r →
    room m (expandRound m dirs r) ≤ room m r ∧ (expandRound m dirs r ≠ r → room m (expandRound m dirs r) < room m r) := by
  induction dirs with
  | nil => intro r _; exact ⟨Nat.le_refl _, fun h => absurd rfl h⟩
  | cons d ds ih =>
    intro r hw
    have h2 := ih (expand1_well hw (m := m) (d := d))
    have h1 := room_expand1 hw (m := m) (d := d)
    refine ⟨Nat.le_trans h2.1 h1, ?_⟩
    intro hne
    show room m (expandRound m ds (expand1 m r d)) < room m r
    rcases expand1_cases hw (m := m) (d := d) with ⟨_, e⟩ | ⟨hl, e⟩
    · have hne' : expandRound m ds (expand1 m r d) ≠ expand1 m r d := by rw [e]; rw [← e]; rw [e]; intro hh; apply hne; show expandRound m ds (expand1 m r d) = r; rw [e]; exact hh
      have := h2.2 hne'; omega
    · have := room_grow hw hl
      rw [← e] at this; omega

theorem repeat_closed {m : Mat} (dirs : List Dir) : ∀ (n : Nat) {r : Rect}, WellRect r → room m r < n →
    Closed m dirs (expandRepeat m dirs n r) := by
  intro n
  induction n with
  | zero => intro r _ h; omega
  | succ n ih =>
    intro r hw h
    simp only [expandRepeat]
    split
    · rename_i he; exact round_fix dirs hw he
    · rename_i hne
      have := (room_round dirs hw (m := m)).2 hne
      exact ih (round_well dirs hw) (by omega)

/-- The number of rounds is immaterial once the room is used up. -/
theorem repeat_stable {m : Mat} (dirs : List Dir) : ∀ (n k : Nat) {r : Rect}, WellRect r → room m r < n →
    expandRepeat m dirs (n + k) r = expandRepeat m dirs n r := by
  intro n
  induction n with
  | zero => intro k r _ h; omega
  | succ n ih =>
    intro k r hw h
    have e : n + 1 + k = (n + k) + 1 := by omega
    rw [e]
    simp only [expandRepeat]
    split
    · rfl
    · rename_i hne
      have := (room_round dirs hw (m := m)).2 hne
      exact ih k (round_well dirs hw) (by omega)

/-- Growing stays inside every closed rectangle. -/
theorem expand1_least {m : Mat} {dirs : List Dir} {r S : Rect} {d : Dir} (hw : WellRect r) (hd : d ∈ dirs)
    (hS : Closed m dirs S) (h : Within r S) : Within (expand1 m r d) S := by
  rcases expand1_cases hw (m := m) (d := d) with ⟨_, e⟩ | ⟨hl, e⟩ <;> rw [e]
  · exact h
  · obtain ⟨p, ha, hf⟩ := hl
    have hn := hS d hd
    obtain ⟨h1, h2, h3, h4⟩ := h
    cases d <;> simp only [AdjLine] at ha <;> simp only [Within, Rect.grow]
    · by_cases hh : S.c1 = r.c1
      · exact absurd ⟨p, ⟨by omega, by omega, by omega⟩, hf⟩ hn
      · omega
    · by_cases hh : S.r1 = r.r1
      · exact absurd ⟨p, ⟨by omega, by omega, by omega⟩, hf⟩ hn
      · omega
    · by_cases hh : S.c2 = r.c2
      · exact absurd ⟨p, ⟨by omega, by omega, by omega⟩, hf⟩ hn
      · omega
    · by_cases hh : S.r2 = r.r2
      · exact absurd ⟨p, ⟨by omega, by omega, by omega⟩, hf⟩ hn
      · omega

theorem round_least {m : Mat} {dirs : List Dir} {S : Rect} (hS : Closed m dirs S) : ∀ (ds : List Dir) {r : Rect},
    (∀ d ∈ ds, d ∈ dirs) → WellRect r → Within r S → Within (expandRound m ds r) S := by
  intro ds
  induction ds with
  | nil => intro r _ _ h; exact h
  | cons d ds ih =>
    intro r hd hw h
    exact ih (fun x hx => hd x (by simp [hx])) (expand1_well hw) (expand1_least hw (hd d (by simp)) hS h)

theorem repeat_least {m : Mat} {dirs : List Dir} {S : Rect} (hS : Closed m dirs S) : ∀ (n : Nat) {r : Rect},
    WellRect r → Within r S → Within (expandRepeat m dirs n r) S := by
  intro n
  induction n with
  | zero => intro r _ h; exact h
  | succ n ih =>
    intro r hw h
    simp only [expandRepeat]
    split
    · exact h
    · exact ih (round_well dirs hw) (round_least hS dirs (fun _ h => h) hw h)

theorem grown_trans {m : Mat} {a b c : Rect} {ds es : List Dir} (h1 : Grown m a ds b) (h2 : Grown m b es c) :
    Grown m a (ds ++ es) c := by
  induction h2 with
  | refl => simpa using h1
  | step es r' d _ hl ih =>
    rw [← List.append_assoc]
    exact Grown.step _ _ _ _ ih hl

theorem grown_widen {m : Mat} {a b : Rect} {ds : List Dir} (h : Grown m a ds b) :
    b = widen a (fun d => ds.count d) := by
  induction h with
  | refl => cases a; simp [widen]
  | step ds r' d _ hl ih =>
    rw [ih]
    cases d <;> simp [widen] <;> omega

theorem round_grown {m : Mat} (dirs : List Dir) : ∀ {r : Rect}, WellRect r →
    ∃ ds, Grown m r ds (expandRound m dirs r) ∧ ∀ d, ds.count d ≤ dirs.count d := by
  induction dirs with
  | nil => intro r _; exact ⟨[], Grown.refl r, by simp⟩
  | cons d ds ih =>
    intro r hw
    obtain ⟨es, h1, h2⟩ := ih (expand1_well hw (m := m) (d := d))
    rcases expand1_cases hw (m := m) (d := d) with ⟨_, e⟩ | ⟨hl, e⟩
    · refine ⟨es, ?_, ?_⟩
      · show Grown m r es (expandRound m ds (expand1 m r d))
        rw [e] at h1 ⊢; exact h1
      · intro x; have := h2 x; rw [List.count_cons]; omega
    · refine ⟨[d] ++ es, ?_, ?_⟩
      · have h0 : Grown m r [d] (expand1 m r d) := by
          rw [e, grow_eq_widen]
          exact Grown.step r [] r d (Grown.refl r) hl
        exact grown_trans h0 h1
      · intro x; have := h2 x; rw [List.count_append, List.count_cons, List.count_cons]; simp; omega

theorem repeat_grown {m : Mat} (dirs : List Dir) : ∀ (n : Nat) {r : Rect}, WellRect r →
    ∃ ds, Grown m r ds (expandRepeat m dirs n r) ∧ ∀ d, ds.count d ≤ n * dirs.count d := by
  intro n
  induction n with
  | zero => intro r _; exact ⟨[], Grown.refl r, by simp⟩
  | succ n ih =>
    intro r hw
    simp only [expandRepeat]
    split
    · exact ⟨[], Grown.refl r, by simp⟩
    · obtain ⟨es, h1, h2⟩ := ih (round_well dirs hw (m := m))
      obtain ⟨fs, g1, g2⟩ := round_grown dirs hw (m := m)
      refine ⟨fs ++ es, grown_trans g1 h1, ?_⟩
      intro d
      have := h2 d; have := g2 d
      rw [List.count_append, Nat.succ_mul]; omega

end Model
