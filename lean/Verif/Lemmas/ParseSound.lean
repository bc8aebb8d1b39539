import Verif.Lemmas.RegexSound
import Verif.Lemmas.ParseRef
import Verif.Spec.XlrefWritten
set_option linter.unusedSimpArgs false
namespace Model
open Py Spec

/-- What a regular expression without `$` and back-references may eat, and what it captures. -/
def Does (a : Re) (R : Str → Caps → Caps → Prop) : Prop :=
  ∀ s c s' c', Re.Run a s c s' c' ↔ ∃ t, s = t ++ s' ∧ R t c c'

theorem does_congr {a : Re} {R R' : Str → Caps → Caps → Prop} (h : Does a R) (e : ∀ t c c', R t c c' ↔ R' t c c') :
    Does a R' := by
  intro s c s' c'
  rw [h s c s' c']
  constructor
  · rintro ⟨t, h1, h2⟩; exact ⟨t, h1, (e _ _ _).1 h2⟩
  · rintro ⟨t, h1, h2⟩; exact ⟨t, h1, (e _ _ _).2 h2⟩

theorem does_eps : Does .eps (fun t c c' => t = [] ∧ c' = c) := by
  intro s c s' c'
  constructor
  · intro h; cases h; exact ⟨[], rfl, rfl, rfl⟩
  · rintro ⟨_, rfl, rfl, rfl⟩; exact .eps

theorem does_cls (p : Char → Bool) : Does (.cls p) (fun t c c' => c' = c ∧ ∃ x, t = [x] ∧ p x = true) := by
  intro s c s' c'
  constructor
  · intro h; cases h with | cls hp => exact ⟨[_], rfl, rfl, _, rfl, hp⟩
  · rintro ⟨_, rfl, rfl, x, rfl, hp⟩; exact .cls hp

theorem does_seq {a b : Re} {A B : Str → Caps → Caps → Prop} (ha : Does a A) (hb : Does b B) :
    Does (.seq a b) (fun t c c' => ∃ t1 t2 c1, t = t1 ++ t2 ∧ A t1 c c1 ∧ B t2 c1 c') := by
  intro s c s' c'
  constructor
  · intro h
    cases h with
    | seq h1 h2 =>
      obtain ⟨t1, rfl, r1⟩ := (ha _ _ _ _).1 h1
      obtain ⟨t2, rfl, r2⟩ := (hb _ _ _ _).1 h2
      exact ⟨t1 ++ t2, by simp, t1, t2, _, rfl, r1, r2⟩
  · rintro ⟨_, rfl, t1, t2, c1, rfl, r1, r2⟩
    exact .seq ((ha _ _ _ _).2 ⟨t1, by simp, r1⟩) ((hb _ _ _ _).2 ⟨t2, rfl, r2⟩)

theorem does_alt {a b : Re} {A B : Str → Caps → Caps → Prop} (ha : Does a A) (hb : Does b B) :
    Does (.alt a b) (fun t c c' => A t c c' ∨ B t c c') := by
  intro s c s' c'
  constructor
  · intro h
    cases h with
    | altL h => obtain ⟨t, e, r⟩ := (ha _ _ _ _).1 h; exact ⟨t, e, .inl r⟩
    | altR h => obtain ⟨t, e, r⟩ := (hb _ _ _ _).1 h; exact ⟨t, e, .inr r⟩
  · rintro ⟨t, e, r | r⟩
    · exact .altL ((ha _ _ _ _).2 ⟨t, e, r⟩)
    · exact .altR ((hb _ _ _ _).2 ⟨t, e, r⟩)

theorem does_opt {a : Re} {A : Str → Caps → Caps → Prop} (ha : Does a A) :
    Does (Re.opt a) (fun t c c' => A t c c' ∨ (t = [] ∧ c' = c)) := does_alt ha does_eps

theorem does_grp {n : String} {a : Re} {A : Str → Caps → Caps → Prop} (ha : Does a A) :
    Does (.grp n a) (fun t c c' => ∃ c1, A t c c1 ∧ c' = c1.put n t) := by
  intro s c s' c'
  constructor
  · intro h
    cases h with
    | grp h =>
      obtain ⟨t, rfl, r⟩ := (ha _ _ _ _).1 h
      exact ⟨t, rfl, _, r, by rw [take_prefix]⟩
  · rintro ⟨t, rfl, c1, r, rfl⟩
    have h := Re.Run.grp (n := n) ((ha (t ++ s') c s' c1).2 ⟨t, rfl, r⟩)
    rwa [take_prefix] at h

theorem does_star_cls (p : Char → Bool) : Does (.star (.cls p)) (fun t c c' => c' = c ∧ ∀ x ∈ t, p x = true) := by
  intro s c s' c'
  constructor
  · intro h
    obtain ⟨e, t, h1, h2⟩ := run_star_cls h
    exact ⟨t, h1, e, h2⟩
  · rintro ⟨t, rfl, rfl, h⟩
    induction t with
    | nil => exact .starNil
    | cons x t ih =>
      exact .starCons (.cls (h x (by simp))) (by simp) (ih (fun y hy => h y (List.mem_cons_of_mem _ hy)))

theorem does_plus_cls (p : Char → Bool) :
    Does (Re.plus (.cls p)) (fun t c c' => c' = c ∧ t ≠ [] ∧ ∀ x ∈ t, p x = true) := by
  refine does_congr (does_seq (does_cls p) (does_star_cls p)) ?_
  intro t c c'
  constructor
  · rintro ⟨_, t2, c1, rfl, ⟨rfl, x, rfl, hx⟩, rfl, h⟩
    refine ⟨rfl, by simp, ?_⟩
    intro y hy
    rcases List.mem_cons.1 hy with rfl | hy
    · exact hx
    · exact h y hy
  · rintro ⟨rfl, hne, h⟩
    cases t with
    | nil => exact absurd rfl hne
    | cons x t =>
      exact ⟨[x], t, _, rfl, ⟨rfl, x, rfl, h x (by simp)⟩, rfl, fun y hy => h y (List.mem_cons_of_mem _ hy)⟩

/-! ### Characters -/

theorem isAZi_iff (c : Char) : isAZi c = true ↔ IsLetterU c := by
  constructor
  · intro h
    have key : ∀ n, n < 128 → ((0x41 ≤ n ∧ n ≤ 0x5a) ∨ (0x61 ≤ n ∧ n ≤ 0x7a)) → isLetter (Char.ofNat n) = true := by decide
    simp only [isAZi, Bool.or_eq_true, Bool.and_eq_true, decide_eq_true_eq, List.contains_iff_mem] at h
    rcases h with h | h
    · left
      have := key c.toNat (by omega) (by omega)
      rwa [Char.ofNat_toNat] at this
    · exact .inr h
  · rintro (h | h)
    · exact (isLetter_AZ h).1
    · simp only [isAZi, Bool.or_eq_true, List.contains_iff_mem]; exact .inr h

theorem isDigit19_iff (c : Char) : isDigit19 c = true ↔ c ∈ "123456789".toList := by
  constructor
  · intro h
    have key : ∀ n, n < 128 → 0x31 ≤ n ∧ n ≤ 0x39 → Char.ofNat n ∈ "123456789".toList := by decide
    simp only [isDigit19, Bool.and_eq_true, decide_eq_true_eq] at h
    have := key c.toNat (by omega) h
    rwa [Char.ofNat_toNat] at this
  · intro h
    have key : ∀ c ∈ "123456789".toList, isDigit19 c = true := by decide
    exact key c h

theorem isExpChar_iff (c : Char) : isExpChar c = true ↔ c ∈ "LURDlurd?123456789".toList := by
  have e : "LURDlurd?123456789".toList = "LURDlurd".toList ++ '?' :: "123456789".toList := by decide
  rw [e, List.mem_append, List.mem_cons, ← isDigit19_iff]
  simp only [isExpChar, isLURD, Bool.or_eq_true, List.contains_iff_mem, beq_iff_eq, or_assoc]

/-! ### Pieces of an edge -/

theorem does_num : Does reNum (fun t c c' => c' = c ∧ IsNumU t) := by
  refine does_congr (does_seq (does_cls _) (does_star_cls _)) ?_
  intro t c c'
  constructor
  · rintro ⟨_, t2, c1, rfl, ⟨rfl, x, rfl, hx⟩, rfl, h⟩
    exact ⟨rfl, x, t2, rfl, (isDigit19_iff x).1 hx, h⟩
  · rintro ⟨rfl, x, t, rfl, hx, h⟩
    exact ⟨[x], t, _, rfl, ⟨rfl, x, rfl, (isDigit19_iff x).2 hx⟩, rfl, h⟩

/-- The special characters of a cell. -/
theorem does_special (dot : Bool) : Does (.cls (if dot then isMarginDot else isMargin))
    (fun t c c' => c' = c ∧ IsSpecial dot t) := by
  refine does_congr (does_cls _) ?_
  intro t c c'
  constructor
  · rintro ⟨rfl, x, rfl, hx⟩
    refine ⟨rfl, ?_⟩
    cases dot <;> simp [isMarginDot, isMargin] at hx <;> simp [IsSpecial, hx]
    · exact or_assoc.1 hx
  · rintro ⟨rfl, h⟩
    refine ⟨rfl, ?_⟩
    rcases h with rfl | rfl | ⟨rfl, rfl⟩
    · exact ⟨_, rfl, by cases dot <;> rfl⟩
    · exact ⟨_, rfl, by cases dot <;> rfl⟩
    · exact ⟨_, rfl, rfl⟩

theorem does_a1 (n : EdgeNames) (dot : Bool) : Does (reA1 n (if dot then isMarginDot else isMargin))
    (fun t c c' => ∃ col row, (CellText.a1 col row).Written dot ∧ t = (CellText.a1 col row).text ∧
      c' = cellCaps n (.a1 col row) c) := by
  refine does_congr (does_seq (does_grp (does_alt (does_plus_cls _) (does_special dot)))
    (does_grp (does_alt does_num (does_special dot)))) ?_
  intro t c c'
  constructor
  · rintro ⟨col, row, c1, rfl, ⟨c2, h1, rfl⟩, c3, h2, rfl⟩
    have e1 : c2 = c := by rcases h1 with h1 | h1 <;> exact h1.1
    subst e1
    have e2 : c3 = c2.put n.col col := by rcases h2 with h2 | h2 <;> exact h2.1
    subst e2
    refine ⟨col, row, ⟨?_, ?_⟩, rfl, rfl⟩
    · rcases h1 with h1 | h1
      · exact .inl ⟨h1.2.1, fun x hx => (isAZi_iff x).1 (h1.2.2 x hx)⟩
      · exact .inr h1.2
    · rcases h2 with h2 | h2
      · exact .inl h2.2
      · exact .inr h2.2
  · rintro ⟨col, row, ⟨h1, h2⟩, rfl, rfl⟩
    refine ⟨col, row, _, rfl, ⟨c, ?_, rfl⟩, _, ?_, rfl⟩
    · rcases h1 with h1 | h1
      · exact .inl ⟨rfl, h1.1, fun x hx => (isAZi_iff x).2 (h1.2 x hx)⟩
      · exact .inr ⟨rfl, h1⟩
    · rcases h2 with h2 | h2
      · exact .inl ⟨rfl, h2⟩
      · exact .inr ⟨rfl, h2⟩

theorem does_chr (x : Char) : Does (Re.chr x) (fun t c c' => c' = c ∧ t = [x]) := by
  refine does_congr (does_cls _) ?_
  intro t c c'
  constructor
  · rintro ⟨rfl, y, rfl, hy⟩; simp at hy; subst hy; exact ⟨rfl, rfl⟩
  · rintro ⟨rfl, rfl⟩; exact ⟨rfl, x, rfl, by simp⟩

theorem does_chrI (x : Char) : Does (Re.chrI x) (fun t c c' => c' = c ∧ ∃ y, t = [y] ∧ (y = x ∨ y = lowerChar x)) := by
  refine does_congr (does_cls _) ?_
  intro t c c'
  simp only [Bool.or_eq_true, beq_iff_eq]

theorem does_rcnum : Does reRCnum (fun t c c' => c' = c ∧ IsRCNumU t) := by
  refine does_congr (does_alt (does_seq (does_opt (does_chr '-')) does_num) (does_special true)) ?_
  intro t c c'
  constructor
  · rintro (⟨t1, t2, c1, rfl, ⟨rfl, rfl⟩ | ⟨rfl, rfl⟩, rfl, h⟩ | ⟨rfl, h⟩)
    · exact ⟨rfl, .inr (.inl ⟨t2, rfl, h⟩)⟩
    · exact ⟨rfl, .inl h⟩
    · exact ⟨rfl, .inr (.inr h)⟩
  · rintro ⟨rfl, h | ⟨u, rfl, h⟩ | h⟩
    · exact .inl ⟨[], t, _, rfl, .inr ⟨rfl, rfl⟩, rfl, h⟩
    · exact .inl ⟨['-'], u, _, rfl, .inl ⟨rfl, rfl⟩, rfl, h⟩
    · exact .inr ⟨rfl, h⟩

theorem does_rc (n : EdgeNames) (dot : Bool) : Does (reRC n)
    (fun t c c' => ∃ r row k col, (CellText.rc r row k col).Written dot ∧ t = (CellText.rc r row k col).text ∧
      c' = cellCaps n (.rc r row k col) c) := by
  refine does_congr (does_seq (does_chrI 'R') (does_seq (does_grp does_rcnum)
    (does_seq (does_chrI 'C') (does_grp does_rcnum)))) ?_
  intro t c c'
  constructor
  · rintro ⟨_, _, _, rfl, ⟨rfl, r, rfl, hr⟩, row, _, _, rfl, ⟨_, ⟨rfl, hrow⟩, rfl⟩, _, col, _, rfl,
      ⟨rfl, k, rfl, hk⟩, _, ⟨rfl, hcol⟩, rfl⟩
    exact ⟨r, row, k, col, ⟨hr, hk, hrow, hcol⟩, by simp [CellText.text], rfl⟩
  · rintro ⟨r, row, k, col, ⟨hr, hk, hrow, hcol⟩, rfl, rfl⟩
    exact ⟨[r], row ++ ([k] ++ col), c, by simp [CellText.text], ⟨rfl, r, rfl, hr⟩, row, [k] ++ col, _, rfl,
      ⟨c, ⟨rfl, hrow⟩, rfl⟩, [k], col, _, rfl, ⟨rfl, k, rfl, hk⟩, _, ⟨rfl, hcol⟩, rfl⟩

theorem does_moves : Does reMoves (fun t c c' => c' = c ∧ upper t ∈ allMoves) := by
  have two := fun a b => does_seq (does_chrI a) (does_chrI b)
  refine does_congr (does_alt (does_chrI 'L') (does_alt (does_chrI 'U') (does_alt (does_chrI 'R') (does_alt (does_chrI 'D')
    (does_alt (two 'L' 'D') (does_alt (two 'L' 'U') (does_alt (two 'U' 'L') (does_alt (two 'U' 'R') (does_alt (two 'R' 'U')
    (does_alt (two 'R' 'D') (does_alt (two 'D' 'L') (two 'D' 'R')))))))))))) ?_
  intro t c c'
  have one : ∀ x : Char, x ∈ "LURD".toList → [x] ∈ allMoves →
      (c' = c ∧ ∃ y, t = [y] ∧ (y = x ∨ y = lowerChar x)) → c' = c ∧ upper t ∈ allMoves := by
    rintro x hx hm ⟨rfl, y, rfl, hy⟩
    refine ⟨rfl, ?_⟩
    have : upperChar y = x := by
      have key : ∀ x ∈ "LURD".toList, upperChar x = x ∧ upperChar (lowerChar x) = x := by decide
      rcases hy with rfl | rfl
      · exact (key _ hx).1
      · exact (key _ hx).2
    simpa [upper, this] using hm
  have pair : ∀ x z : Char, x ∈ "LURD".toList → z ∈ "LURD".toList → [x, z] ∈ allMoves →
      (∃ t1 t2 c1, t = t1 ++ t2 ∧ (c1 = c ∧ ∃ y, t1 = [y] ∧ (y = x ∨ y = lowerChar x)) ∧
        (c' = c1 ∧ ∃ y, t2 = [y] ∧ (y = z ∨ y = lowerChar z))) → c' = c ∧ upper t ∈ allMoves := by
    rintro x z hx hz hm ⟨_, _, _, rfl, ⟨rfl, y, rfl, hy⟩, rfl, w, rfl, hw⟩
    refine ⟨rfl, ?_⟩
    have key : ∀ x ∈ "LURD".toList, upperChar x = x ∧ upperChar (lowerChar x) = x := by decide
    have e1 : upperChar y = x := by
      rcases hy with rfl | rfl
      · exact (key _ hx).1
      · exact (key _ hx).2
    have e2 : upperChar w = z := by
      rcases hw with rfl | rfl
      · exact (key _ hz).1
      · exact (key _ hz).2
    simpa [upper, e1, e2] using hm
  constructor
  · rintro (h | h | h | h | h | h | h | h | h | h | h | h)
    · exact one 'L' (by decide) (by decide) h
    · exact one 'U' (by decide) (by decide) h
    · exact one 'R' (by decide) (by decide) h
    · exact one 'D' (by decide) (by decide) h
    · exact pair 'L' 'D' (by decide) (by decide) (by decide) h
    · exact pair 'L' 'U' (by decide) (by decide) (by decide) h
    · exact pair 'U' 'L' (by decide) (by decide) (by decide) h
    · exact pair 'U' 'R' (by decide) (by decide) (by decide) h
    · exact pair 'R' 'U' (by decide) (by decide) (by decide) h
    · exact pair 'R' 'D' (by decide) (by decide) (by decide) h
    · exact pair 'D' 'L' (by decide) (by decide) (by decide) h
    · exact pair 'D' 'R' (by decide) (by decide) (by decide) h
  · rintro ⟨rfl, h⟩
    have low : ∀ {a x : Char}, upperChar a = x → x ∈ "LURD".toList → a = x ∨ a = lowerChar x := by
      intro a x e hx
      have := lurd_cases e (by simpa using hx)
      simpa using this
    rcases mov_mem h with ⟨a, rfl, ha⟩ | ⟨a, b, rfl, hab⟩
    · have hc : upperChar a = 'L' ∨ upperChar a = 'U' ∨ upperChar a = 'R' ∨ upperChar a = 'D' := by simpa using ha
      rcases hc with e | e | e | e
      · exact .inl ⟨rfl, a, rfl, low e (by decide)⟩
      · exact .inr (.inl ⟨rfl, a, rfl, low e (by decide)⟩)
      · exact .inr (.inr (.inl ⟨rfl, a, rfl, low e (by decide)⟩))
      · exact .inr (.inr (.inr (.inl ⟨rfl, a, rfl, low e (by decide)⟩)))
    · have hc := allMoves_pairs hab
      have mk : ∀ {x z : Char}, upperChar a = x → upperChar b = z → x ∈ "LURD".toList → z ∈ "LURD".toList →
          (∃ t1 t2 c1, [a, b] = t1 ++ t2 ∧ (c1 = c' ∧ ∃ y, t1 = [y] ∧ (y = x ∨ y = lowerChar x)) ∧
            (c' = c1 ∧ ∃ y, t2 = [y] ∧ (y = z ∨ y = lowerChar z))) := by
        intro x z e1 e2 hx hz
        exact ⟨[a], [b], _, rfl, ⟨rfl, a, rfl, low e1 hx⟩, rfl, b, rfl, low e2 hz⟩
      simp only [List.mem_cons, Prod.mk.injEq, List.not_mem_nil, or_false] at hc
      rcases hc with ⟨e1, e2⟩ | ⟨e1, e2⟩ | ⟨e1, e2⟩ | ⟨e1, e2⟩ | ⟨e1, e2⟩ | ⟨e1, e2⟩ | ⟨e1, e2⟩ | ⟨e1, e2⟩
      all_goals have := mk e1 e2 (by decide) (by decide)
      · exact .inr (.inr (.inr (.inr (.inl this))))
      · exact .inr (.inr (.inr (.inr (.inr (.inl this)))))
      · exact .inr (.inr (.inr (.inr (.inr (.inr (.inl this))))))
      · exact .inr (.inr (.inr (.inr (.inr (.inr (.inr (.inl this)))))))
      · exact .inr (.inr (.inr (.inr (.inr (.inr (.inr (.inr (.inl this))))))))
      · exact .inr (.inr (.inr (.inr (.inr (.inr (.inr (.inr (.inr (.inl this)))))))))
      · exact .inr (.inr (.inr (.inr (.inr (.inr (.inr (.inr (.inr (.inr (.inl this))))))))))
      · exact .inr (.inr (.inr (.inr (.inr (.inr (.inr (.inr (.inr (.inr (.inr this))))))))))

theorem does_movmod (n : EdgeNames) : Does (Re.opt (reMovMod n))
    (fun t c c' => ∃ mv, MovOk mv ∧ t = movText mv ∧ c' = movCaps n mv c) := by
  refine does_congr (does_opt (does_seq (does_chr '(') (does_seq (does_grp does_moves)
    (does_seq (does_opt (does_grp (does_cls _))) (does_chr ')'))))) ?_
  intro t c c'
  constructor
  · rintro (⟨_, _, _, rfl, ⟨rfl, rfl⟩, m, _, _, rfl, ⟨_, ⟨rfl, hm⟩, rfl⟩, _, _, _, rfl, h, rfl, rfl⟩ | ⟨rfl, rfl⟩)
    · rcases h with ⟨_, ⟨rfl, x, rfl, hx⟩, rfl⟩ | ⟨rfl, rfl⟩
      · refine ⟨some (m, some x), ⟨hm, ?_⟩, by simp [movText], rfl⟩
        simp at hx
        rcases hx with rfl | rfl
        · exact .inr (.inl rfl)
        · exact .inr (.inr rfl)
      · exact ⟨some (m, none), ⟨hm, .inl rfl⟩, by simp [movText], rfl⟩
    · exact ⟨none, trivial, rfl, rfl⟩
  · rintro ⟨mv, h, rfl, rfl⟩
    match mv, h with
    | none, _ => exact .inr ⟨rfl, rfl⟩
    | some (m, none), ⟨hm, _⟩ =>
      exact .inl ⟨['('], m ++ ([] ++ [')']), c, by simp [movText], ⟨rfl, rfl⟩, m, [] ++ [')'], _, rfl,
        ⟨c, ⟨rfl, hm⟩, rfl⟩, [], [')'], _, rfl, .inr ⟨rfl, rfl⟩, rfl, rfl⟩
    | some (m, some x), ⟨hm, hx⟩ =>
      refine .inl ⟨['('], m ++ ([x] ++ [')']), c, by simp [movText], ⟨rfl, rfl⟩, m, [x] ++ [')'], _, rfl,
        ⟨c, ⟨rfl, hm⟩, rfl⟩, [x], [')'], _, rfl, .inl ⟨_, ⟨rfl, x, rfl, ?_⟩, rfl⟩, rfl, rfl⟩
      rcases hx with hx | hx | hx <;> simp at hx <;> simp [hx]

theorem does_edge (n : EdgeNames) (dot : Bool) : Does (reEdge n (if dot then isMarginDot else isMargin))
    (fun t c c' => ∃ e : EdgeText, e.Written dot ∧ t = e.text ∧ c' = edgeCaps n e c) := by
  refine does_congr (does_seq (does_alt (does_a1 n dot) (does_rc n dot)) (does_movmod n)) ?_
  intro t c c'
  constructor
  · rintro ⟨t1, t2, c1, rfl, h, mv, hm, rfl, rfl⟩
    rcases h with ⟨col, row, h, rfl, rfl⟩ | ⟨r, row, k, col, h, rfl, rfl⟩
    · exact ⟨⟨_, mv⟩, ⟨h, hm⟩, rfl, rfl⟩
    · exact ⟨⟨_, mv⟩, ⟨h, hm⟩, rfl, rfl⟩
  · rintro ⟨⟨cell, mv⟩, ⟨h, hm⟩, rfl, rfl⟩
    refine ⟨cell.text, movText mv, cellCaps n cell c, rfl, ?_, mv, hm, rfl, rfl⟩
    cases cell with
    | a1 col row => exact .inl ⟨col, row, h, rfl, rfl⟩
    | rc r row k col => exact .inr ⟨r, row, k, col, h, rfl, rfl⟩

theorem does_st : Does (Re.opt (reEdge stNames isMargin))
    (fun t c c' => ∃ st : Option EdgeText, (∀ e, st = some e → e.Written false) ∧ t = optEdgeText st ∧ c' = stCaps st c) := by
  refine does_congr (does_opt (does_edge stNames false)) ?_
  intro t c c'
  constructor
  · rintro (⟨e, h, rfl, rfl⟩ | ⟨rfl, rfl⟩)
    · exact ⟨some e, by intro e' he; cases he; exact h, rfl, rfl⟩
    · exact ⟨none, by simp, rfl, rfl⟩
  · rintro ⟨st, h, rfl, rfl⟩
    cases st with
    | none => exact .inr ⟨rfl, rfl⟩
    | some e => exact .inl ⟨e, h e rfl, rfl, rfl⟩

theorem does_nd : Does (Re.opt (reEdge ndNames isMarginDot))
    (fun t c c' => ∃ st : Option EdgeText, (∀ e, st = some e → e.Written true) ∧ t = optEdgeText st ∧ c' = ndCaps st c) := by
  refine does_congr (does_opt (does_edge ndNames true)) ?_
  intro t c c'
  constructor
  · rintro (⟨e, h, rfl, rfl⟩ | ⟨rfl, rfl⟩)
    · exact ⟨some e, by intro e' he; cases he; exact h, rfl, rfl⟩
    · exact ⟨none, by simp, rfl, rfl⟩
  · rintro ⟨st, h, rfl, rfl⟩
    cases st with
    | none => exact .inr ⟨rfl, rfl⟩
    | some e => exact .inl ⟨e, h e rfl, rfl, rfl⟩

theorem does_exp : Does (Re.opt reExp)
    (fun t c c' => ∃ ex, ExpOk ex ∧ t = expText ex ∧ c' = expCaps ex c) := by
  refine does_congr (does_opt (does_seq (does_chr ':') (does_grp (does_plus_cls _)))) ?_
  intro t c c'
  constructor
  · rintro (⟨_, x, _, rfl, ⟨rfl, rfl⟩, _, ⟨rfl, hne, h⟩, rfl⟩ | ⟨rfl, rfl⟩)
    · exact ⟨some x, ⟨hne, fun y hy => (isExpChar_iff y).1 (h y hy)⟩, rfl, rfl⟩
    · exact ⟨none, trivial, rfl, rfl⟩
  · rintro ⟨ex, h, rfl, rfl⟩
    match ex, h with
    | none, _ => exact .inr ⟨rfl, rfl⟩
    | some x, ⟨hne, h⟩ =>
      exact .inl ⟨[':'], x, c, rfl, ⟨rfl, rfl⟩, _, ⟨rfl, hne, fun y hy => (isExpChar_iff y).2 (h y hy)⟩, rfl⟩

theorem does_range : Does (Re.opt reRange)
    (fun t c c' => ∃ rg : Option (Option EdgeText × Option Str), (∀ e ex, rg = some (some e, ex) → e.Written true) ∧
      (∀ nd ex, rg = some (nd, ex) → ExpOk ex) ∧ t = rangeText rg ∧ c' = rangeCaps rg c) := by
  refine does_congr (does_opt (does_seq (does_grp (does_chr ':')) (does_seq does_nd does_exp))) ?_
  intro t c c'
  constructor
  · rintro (⟨_, _, _, rfl, ⟨_, ⟨rfl, rfl⟩, rfl⟩, _, _, _, rfl, ⟨nd, hnd, rfl, rfl⟩, ex, hex, rfl, rfl⟩ | ⟨rfl, rfl⟩)
    · refine ⟨some (nd, ex), ?_, ?_, rfl, rfl⟩
      · intro e ex' he; cases he; exact hnd e rfl
      · intro nd' ex' he; cases he; exact hex
    · exact ⟨none, by simp, by simp, rfl, rfl⟩
  · rintro ⟨rg, h1, h2, rfl, rfl⟩
    match rg with
    | none => exact .inr ⟨rfl, rfl⟩
    | some (nd, ex) =>
      refine .inl ⟨[':'], optEdgeText nd ++ expText ex, _, rfl, ⟨c, ⟨rfl, rfl⟩, rfl⟩, _, _, _, rfl,
        ⟨nd, ?_, rfl, rfl⟩, ex, h2 nd ex rfl, rfl, rfl⟩
      intro e he; subst he; exact h1 e ex rfl

theorem does_filt : Does (Re.opt reFilt)
    (fun t c c' => ∃ f, FiltOk f ∧ t = filtText f ∧ c' = filtCaps f c) := by
  refine does_congr (does_opt (does_seq (does_chr ':') (does_seq (does_star_cls _)
    (does_grp (does_seq (does_cls _) (does_star_cls _)))))) ?_
  intro t c c'
  constructor
  · rintro (⟨_, _, _, rfl, ⟨rfl, rfl⟩, ws, _, _, rfl, ⟨rfl, hws⟩, _, ⟨_, js, _, rfl, ⟨rfl, x, rfl, hx⟩, rfl, _⟩, rfl⟩ | ⟨rfl, rfl⟩)
    · refine ⟨some (ws, x :: js), ⟨hws, x, js, rfl, ?_⟩, by simp [filtText], rfl⟩
      simp at hx; rcases hx with (rfl | rfl) | rfl <;> decide
    · exact ⟨none, trivial, rfl, rfl⟩
  · rintro ⟨f, h, rfl, rfl⟩
    match f, h with
    | none, _ => exact .inr ⟨rfl, rfl⟩
    | some (ws, _), ⟨hws, x, js, rfl, hx⟩ =>
      exact .inl ⟨[':'], ws ++ x :: js, c, by simp [filtText], ⟨rfl, rfl⟩, ws, x :: js, c, rfl, ⟨rfl, hws⟩, c,
        ⟨[x], js, c, rfl, ⟨rfl, x, rfl, (js_head hx).1⟩, rfl, by simp⟩, rfl⟩

theorem does_sheet : Does reSheet
    (fun t c c' => ∃ sh : Option Str, (∀ s, sh = some s → '!' ∉ s) ∧ t = sheetText sh ∧ c' = sheetCaps sh c) := by
  refine does_congr (does_opt (does_seq (does_opt (does_grp (does_plus_cls _))) (does_chr '!'))) ?_
  intro t c c'
  constructor
  · rintro (⟨s, _, _, rfl, h, rfl, rfl⟩ | ⟨rfl, rfl⟩)
    · rcases h with ⟨_, ⟨rfl, hne, h⟩, rfl⟩ | ⟨rfl, rfl⟩
      · refine ⟨some s, ?_, rfl, ?_⟩
        · intro s' hs; cases hs; intro hm; have := h _ hm; simp at this
        · cases s with
          | nil => exact absurd rfl hne
          | cons => rfl
      · exact ⟨some [], by intro s hs; cases hs; simp, rfl, rfl⟩
    · exact ⟨none, by simp, rfl, rfl⟩
  · rintro ⟨sh, h, rfl, rfl⟩
    match sh with
    | none => exact .inr ⟨rfl, rfl⟩
    | some [] => exact .inl ⟨[], ['!'], c, rfl, .inr ⟨rfl, rfl⟩, rfl, rfl⟩
    | some (x :: s) =>
      refine .inl ⟨x :: s, ['!'], _, rfl, .inl ⟨c, ⟨rfl, by simp, ?_⟩, rfl⟩, rfl, rfl⟩
      intro y hy
      have := h _ rfl
      have : y ≠ '!' := by rintro rfl; exact this hy
      simpa using this

/-- What the regular expression of references accepts and captures. -/
theorem run_xlref (s s' : Str) (c' : Caps) : Re.Run reXlref s Caps.empty s' c' ↔
    (s' = [] ∨ s' = ['\n']) ∧ ∃ r : RefText, r.Written ∧ s = r.text ++ s' ∧ c' = refCaps r := by
  constructor
  · intro h
    obtain ⟨c5, hrun, he, rfl⟩ : ∃ c5, Re.Run (.seq (.star (.cls isSpaceU)) (.seq reSheet (.seq (Re.opt (reEdge stNames isMargin))
        (.seq (Re.opt reRange) (Re.opt reFilt))))) s Caps.empty s' c5 ∧ atEnd s' = true ∧ c' = c5 := by
      cases h with
      | seq a h => cases h with
        | seq b h => cases h with
          | seq d h => cases h with
            | seq e h => cases h with
              | seq f h => cases h with
                | eos h => exact ⟨_, .seq a (.seq b (.seq d (.seq e f))), h, rfl⟩
    obtain ⟨t, rfl, hdo⟩ := (does_seq (does_star_cls _) (does_seq does_sheet (does_seq does_st
      (does_seq does_range does_filt))) _ _ _ _).1 hrun
    obtain ⟨lead, _, _, rfl, ⟨rfl, hl⟩, _, _, _, rfl, ⟨sh, hsh, rfl, rfl⟩, _, _, _, rfl, ⟨st, hst, rfl, rfl⟩,
      _, _, _, rfl, ⟨rg, hr1, hr2, rfl, rfl⟩, f, hf, rfl, rfl⟩ := hdo
    refine ⟨by simpa [atEnd] using he, ⟨lead, sh, st, rg, f⟩, ⟨hl, hsh, hst, hr1, hr2, hf⟩, rfl, rfl⟩
  · rintro ⟨he, r, ⟨hl, hsh, hst, hr1, hr2, hf⟩, rfl, rfl⟩
    obtain ⟨lead, sh, st, rg, f⟩ := r
    have h := (does_seq (does_star_cls isSpaceU) (does_seq does_sheet (does_seq does_st
      (does_seq does_range does_filt))) (RefText.text ⟨lead, sh, st, rg, f⟩ ++ s') Caps.empty s' (refCaps ⟨lead, sh, st, rg, f⟩)).2
      ⟨_, rfl, lead, _, _, rfl, ⟨rfl, hl⟩, _, _, _, rfl, ⟨sh, hsh, rfl, rfl⟩, _, _, _, rfl, ⟨st, hst, rfl, rfl⟩,
      _, _, _, rfl, ⟨rg, hr1, hr2, rfl, rfl⟩, f, hf, rfl, rfl⟩
    have he' : atEnd s' = true := by rcases he with rfl | rfl <;> rfl
    cases h with
      | seq a h => cases h with
        | seq b h => cases h with
          | seq d h => cases h with
            | seq e h => exact .seq a (.seq b (.seq d (.seq e (.seq h (.eos he')))))

end Model
