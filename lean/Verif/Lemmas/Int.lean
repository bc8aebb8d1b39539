import Verif.Lemmas.Str
set_option linter.unusedSimpArgs false
namespace Py

theorem isDigit_range {c : Char} (h : c.isDigit = true) : 48 ≤ c.toNat ∧ c.toNat ≤ 57 := by
  simp only [Char.isDigit, Bool.and_eq_true, decide_eq_true_eq, ge_iff_le] at h
  have h1 := UInt32.le_iff_toNat_le.1 h.1
  have h2 := UInt32.le_iff_toNat_le.1 h.2
  exact ⟨h1, h2⟩

theorem decVal_of_isDigit {c : Char} (h : c.isDigit = true) : decVal c = some (c.toNat - 48) := by
  have := isDigit_range h
  simp [decVal, this]

theorem isSpaceU_of_isDigit {c : Char} (h : c.isDigit = true) : isSpaceU c = false := by
  have := isDigit_range h
  simp [isSpaceU, List.contains_eq_mem]
  omega

theorem isIntSpace_of_isDigit {c : Char} (h : c.isDigit = true) : isIntSpace c = false := by
  simp [isIntSpace, isSpaceU_of_isDigit h]

theorem dropWhile_of_head {ws : Char → Bool} {s : Str} (h : ∀ c, s.head? = some c → ws c = false) :
    s.dropWhile ws = s := by
  cases s with
  | nil => rfl
  | cons c t => simp [List.dropWhile, h c rfl]

theorem stripBy_eq_self {ws : Char → Bool} {s : Str} (h1 : ∀ c, s.head? = some c → ws c = false)
    (h2 : ∀ c, s.getLast? = some c → ws c = false) : stripBy ws s = s := by
  unfold stripBy
  rw [dropWhile_of_head h1, dropWhile_of_head (s := s.reverse)]
  · simp
  · intro c hc; exact h2 c (by simpa using hc)

theorem intTail_digits (acc : Nat) (s : Str) (h : ∀ c ∈ s, c.isDigit = true) :
    intTail acc s = some (Nat.ofDigitChars 10 s acc) := by
  induction s generalizing acc with
  | nil => rfl
  | cons c t ih =>
    have hc := h c (by simp)
    have hne : c ≠ '_' := by intro e; subst e; simp at hc
    have : intTail acc (c :: t) = intTail (acc * 10 + (c.toNat - 48)) t := by
      rw [intTail]
      · simp [decVal_of_isDigit hc]
      · intro a b h1; exact absurd h1 hne
    rw [this, ih _ (fun x hx => h x (by simp [hx])), Nat.ofDigitChars_cons, Nat.mul_comm]
    rfl

theorem intNat_digits (s : Str) (hne : s ≠ []) (h : ∀ c ∈ s, c.isDigit = true) :
    intNat s = some (Nat.ofDigitChars 10 s 0) := by
  cases s with
  | nil => exact absurd rfl hne
  | cons c t =>
    simp only [intNat, decVal_of_isDigit (h c (by simp))]
    rw [intTail_digits _ _ (fun x hx => h x (by simp [hx])), Nat.ofDigitChars_cons]
    simp

theorem natStr_isDigit (n : Nat) : ∀ c ∈ natStr n, c.isDigit = true :=
  fun _ hc => Nat.isDigit_of_mem_toDigits (by omega) (by omega) hc

theorem natStr_ne_nil (n : Nat) : natStr n ≠ [] := Nat.toDigits_ne_nil

theorem pyInt_digits (s : Str) (hne : s ≠ []) (h : ∀ c ∈ s, c.isDigit = true) :
    pyInt s = some ((Nat.ofDigitChars 10 s 0 : Nat) : Int) := by
  have hs : stripBy isIntSpace s = s := by
    apply stripBy_eq_self
    · intro c hc; exact isIntSpace_of_isDigit (h c (List.mem_of_mem_head? hc))
    · intro c hc; exact isIntSpace_of_isDigit (h c (List.mem_of_getLast? hc))
  unfold pyInt
  rw [hs]
  split
  · next cs => have := h '-' (by simp); simp at this
  · next cs => have := h '+' (by simp); simp at this
  · rw [intNat_digits s hne h]; rfl

theorem pyInt_natStr (n : Nat) : pyInt (natStr n) = some (n : Int) := by
  rw [pyInt_digits _ (natStr_ne_nil n) (natStr_isDigit n)]
  simp [natStr]

theorem pyInt_intStr (n : Int) : pyInt (intStr n) = some n := by
  unfold intStr
  split
  · next hn =>
    have hs : stripBy isIntSpace ('-' :: natStr n.natAbs) = '-' :: natStr n.natAbs := by
      apply stripBy_eq_self
      · intro c hc; simp at hc; subst hc; decide
      · intro c hc
        rw [List.getLast?_cons] at hc
        have : c ∈ natStr n.natAbs := by
          cases hl : (natStr n.natAbs).getLast? with
          | none => exact absurd (List.getLast?_eq_none_iff.1 hl) (natStr_ne_nil _)
          | some d => rw [hl] at hc; simp at hc; subst hc; exact List.mem_of_getLast? hl
        exact isIntSpace_of_isDigit (natStr_isDigit _ _ this)
    unfold pyInt
    rw [hs]
    simp only
    rw [intNat_digits _ (natStr_ne_nil _) (natStr_isDigit _)]
    simp [natStr]
    omega
  · rw [pyInt_natStr]; congr 1; omega

theorem seqIndex_nat (len n : Nat) : seqIndex len (n : Int) = if n < len then some n else none := by
  simp [seqIndex]

theorem seqIndex_lt {len : Nat} {i : Int} {j : Nat} (h : seqIndex len i = some j) : j < len := by
  unfold seqIndex at h
  split at h
  · split at h
    · injection h with h; omega
    · cases h
  · split at h
    · injection h with h; omega
    · cases h

end Py
