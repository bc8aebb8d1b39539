import Verif.Spec.IntText
import Verif.Lemmas.ExpMoves
import Verif.Lemmas.Utils
import Verif.Props.JsonPointerResolve
set_option linter.unusedSimpArgs false
/-
C03: the texts that are indexes.
-/
namespace Props
open Py Model Spec Lemmas

private theorem digit_isU {c : Char} {d : Nat} (h : decVal c = some d) : isDigitU c = true := by
  unfold isDigitU; rw [h]; rfl

private theorem intTail_cons {c : Char} {d acc : Nat} (t : Str) (h : decVal c = some d) :
    intTail acc (c :: t) = intTail (acc * 10 + d) t := by
  have hu : c ≠ '_' := isDigitU_ne (digit_isU h) (by decide)
  rw [intTail.eq_def]
  split
  · rename_i heq; simp at heq
  · rename_i heq; simp at heq; exact absurd heq.1 hu
  · rename_i heq
    simp at heq
    obtain ⟨rfl, rfl⟩ := heq
    simp only [h]

private theorem intNat_digits {s : Str} {n : Nat} (h : DigitText s n) : ∀ t, intNat (s ++ t) = intTail n t := by
  induction h with
  | one c d h => intro t; simp only [List.cons_append, List.nil_append, intNat, h]
  | next s n c d _ h ih =>
    intro t
    rw [List.append_assoc, ih, List.cons_append, List.nil_append, intTail_cons _ h, Nat.mul_comm]
  | apart s n c d _ h ih =>
    intro t
    rw [List.append_assoc, List.append_assoc, ih]
    simp only [List.cons_append, List.nil_append, intTail, h, Nat.mul_comm]

private theorem digits_tail : ∀ (k : Nat) (t s : Str) (acc n : Nat), t.length ≤ k → DigitText s acc → intTail acc t = some n →
    DigitText (s ++ t) n := by
  intro k
  induction k with
  | zero =>
    intro t s acc n hk hs h
    cases t with
    | nil => simp only [intTail, Option.some.injEq] at h; subst h; simpa using hs
    | cons => simp at hk
  | succ k ih =>
    intro t s acc n hk hs h
    rw [intTail.eq_def] at h
    split at h
    · simp only [Option.some.injEq] at h; subst h; simpa using hs
    · rename_i c cs
      split at h
      · rename_i d hd
        have := ih cs (s ++ ['_'] ++ [c]) (10 * acc + d) n (by simp at hk; omega) (.apart _ _ _ _ hs hd) (by rw [Nat.mul_comm]; exact h)
        simpa using this
      · exact absurd h (by simp)
    · rename_i c cs _
      split at h
      · rename_i d hd
        have := ih cs (s ++ [c]) (10 * acc + d) n (by simp at hk; omega) (.next _ _ _ _ hs hd) (by rw [Nat.mul_comm]; exact h)
        simpa using this
      · exact absurd h (by simp)

private theorem intNat_iff (s : Str) (n : Nat) : intNat s = some n ↔ DigitText s n := by
  constructor
  · intro h
    cases s with
    | nil => simp [intNat] at h
    | cons c t =>
      simp only [intNat] at h
      split at h
      · rename_i d hd
        exact digits_tail _ t [c] d n (Nat.le_refl _) (.one _ _ hd) h
      · simp at h
  · intro h
    have := intNat_digits h []
    simpa [intTail] using this

private theorem digits_ends {s : Str} {n : Nat} (h : DigitText s n) :
    (∃ c t, s = c :: t ∧ isDigitU c = true) ∧ (∃ c t, s = t ++ [c] ∧ isDigitU c = true) := by
  induction h with
  | one c d h => exact ⟨⟨c, [], rfl, digit_isU h⟩, ⟨c, [], rfl, digit_isU h⟩⟩
  | next s n c d _ h ih =>
    obtain ⟨⟨a, t, rfl, ha⟩, -⟩ := ih
    exact ⟨⟨a, t ++ [c], rfl, ha⟩, ⟨c, a :: t, rfl, digit_isU h⟩⟩
  | apart s n c d _ h ih =>
    obtain ⟨⟨a, t, rfl, ha⟩, -⟩ := ih
    exact ⟨⟨a, t ++ ['_'] ++ [c], by simp, ha⟩, ⟨c, a :: t ++ ['_'], rfl, digit_isU h⟩⟩

private theorem lifted {o : Option Nat} {f : Int → Int} {n : Int}
    (h : Option.map f (o >>= fun a => pure (a : Int)) = some n) : ∃ m : Nat, o = some m ∧ f m = n := by
  cases o with
  | none => simp at h
  | some m => exact ⟨m, rfl, by simpa using h⟩

/-- C03. A text is an index if it is digits, perhaps with single underscores between them, after a sign if any, with
blanks around; and then the index is the number so written. -/
theorem C03_index_text (s : Str) (n : Int) : pyInt s = some n ↔ IntText s n := by
  constructor
  · intro h
    obtain ⟨pre, post, e, h1, h2, -, -⟩ := stripBy_spec isIntSpace s
    unfold pyInt at h
    split at h
    · rename_i cs hc
      obtain ⟨m, hm, rfl⟩ := lifted h
      exact ⟨pre, ['-'], cs, post, m, by rw [e, hc]; simp, h1, h2, (intNat_iff _ _).1 hm, .inr ⟨rfl, rfl⟩⟩
    · rename_i cs hc
      obtain ⟨m, hm, rfl⟩ := lifted h
      exact ⟨pre, ['+'], cs, post, m, by rw [e, hc]; simp, h1, h2, (intNat_iff _ _).1 hm, .inl ⟨by simp, rfl⟩⟩
    · obtain ⟨m, hm, rfl⟩ := lifted h
      exact ⟨pre, [], _, post, m, by simpa using e, h1, h2, (intNat_iff _ _).1 hm, .inl ⟨by simp, rfl⟩⟩
  · rintro ⟨pre, sign, ds, post, m, rfl, h1, h2, hd, hsg⟩
    obtain ⟨⟨c, t, e1, hc⟩, ⟨c2, t2, e2, hc2⟩⟩ := digits_ends hd
    have hs : stripBy isIntSpace (pre ++ sign ++ ds ++ post) = sign ++ ds := by
      rw [List.append_assoc pre sign ds]
      apply stripBy_padded h1 h2
      · intro x hx
        rcases hsg with ⟨hsg, -⟩ | ⟨hsg, -⟩
        · simp only [List.mem_cons, List.not_mem_nil, or_false] at hsg
          rcases hsg with rfl | rfl
          · rw [e1] at hx
            simp only [List.nil_append, List.head?_cons, Option.some.injEq] at hx
            subst hx; exact isDigitU_not_space hc
          · simp only [List.cons_append, List.head?_cons, Option.some.injEq] at hx
            subst hx; decide
        · subst hsg
          simp only [List.cons_append, List.head?_cons, Option.some.injEq] at hx
          subst hx; decide
      · intro x hx
        rw [e2, ← List.append_assoc, List.getLast?_concat, Option.some.injEq] at hx
        subst hx; exact isDigitU_not_space hc2
    have hn := (intNat_iff _ _).2 hd
    unfold pyInt
    rw [hs]
    rcases hsg with ⟨hsg, rfl⟩ | ⟨rfl, rfl⟩
    · simp only [List.mem_cons, List.not_mem_nil, or_false] at hsg
      rcases hsg with rfl | rfl
      · simp only [List.nil_append]
        split
        · simp only [List.cons.injEq] at e1
          exact absurd e1.1.symm (isDigitU_ne hc (by decide))
        · simp only [List.cons.injEq] at e1
          exact absurd e1.1.symm (isDigitU_ne hc (by decide))
        · rw [hn]; rfl
      · simp [hn]
    · simp [hn]

/-- An index with all that is allowed. -/
example : IntText " -1_0\n".toList (-10) :=
  ⟨" ".toList, "-".toList, "1_0".toList, "\n".toList, 10, by decide, by decide, by decide,
    .apart ['1'] 1 '0' 0 (.one '1' 1 (by decide)) (by decide), .inr ⟨rfl, rfl⟩⟩

end Props
