import Verif.Model.Capture
import Verif.Spec.Coords
import Verif.Lemmas.Int
import Verif.Lemmas.List
set_option linter.unusedSimpArgs false
namespace Model
open Py Spec

theorem isLetter_cases {c : Char} (h : isLetter c = true) :
    (0x61 ≤ c.toNat ∧ c.toNat ≤ 0x7a) ∨ (0x41 ≤ c.toNat ∧ c.toNat ≤ 0x5a) := by
  have : ∀ c ∈ "abcdefghijklmnopqrstuvwxyzABCDEFGHIJKLMNOPQRSTUVWXYZ".toList,
      (0x61 ≤ c.toNat ∧ c.toNat ≤ 0x7a) ∨ (0x41 ≤ c.toNat ∧ c.toNat ≤ 0x5a) := by decide +kernel
  exact this c (by simpa [isLetter] using h)

theorem letter_facts {c : Char} (h : isLetter c = true) :
    letterVal c = some (letterPos c) ∧ 1 ≤ letterPos c ∧ letterPos c ≤ 26 ∧
    upperChar c = Char.ofNat (0x41 + (letterPos c - 1)) ∧ decVal c = none ∧ isIntSpace c = false ∧
    c ≠ '-' ∧ c ≠ '+' ∧ isLetter (upperChar c) = true := by
  have : ∀ c ∈ "abcdefghijklmnopqrstuvwxyzABCDEFGHIJKLMNOPQRSTUVWXYZ".toList,
    letterVal c = some (letterPos c) ∧ 1 ≤ letterPos c ∧ letterPos c ≤ 26 ∧
    upperChar c = Char.ofNat (0x41 + (letterPos c - 1)) ∧ decVal c = none ∧ isIntSpace c = false ∧
    c ≠ '-' ∧ c ≠ '+' ∧ isLetter (upperChar c) = true := by decide +kernel
  exact this c (by simpa [isLetter] using h)

theorem lettersVal_letters : ∀ (s : Str) (acc : Nat), (∀ c ∈ s, isLetter c = true) →
    lettersVal acc s = some (s.foldl (fun acc c => acc * 26 + letterPos c) acc)
  | [], acc, _ => rfl
  | c :: cs, acc, h => by
    rw [lettersVal, (letter_facts (h c (by simp))).1]
    exact lettersVal_letters cs _ (fun x hx => h x (by simp [hx]))

theorem pyInt_letters {s : Str} (hne : s ≠ []) (h : ∀ c ∈ s, isLetter c = true) : pyInt s = none := by
  have hs : stripBy isIntSpace s = s := by
    apply stripBy_eq_self
    · intro c hc; exact (letter_facts (h c (List.mem_of_mem_head? hc))).2.2.2.2.2.1
    · intro c hc; exact (letter_facts (h c (List.mem_of_getLast? hc))).2.2.2.2.2.1
  unfold pyInt
  rw [hs]
  cases s with
  | nil => exact absurd rfl hne
  | cons c cs =>
    obtain ⟨_, _, _, _, hd, _, h1, h2, _⟩ := letter_facts (h c (by simp))
    split
    · rename_i heq; simp at heq; exact absurd heq.1 h1
    · rename_i heq; simp at heq; exact absurd heq.1 h2
    · simp [intNat, hd]

theorem col2num_letters {s : Str} (hne : s ≠ []) (h : ∀ c ∈ s, isLetter c = true) :
    col2num s = some ((lettersNum s : Int) - 1) := by
  unfold col2num
  rw [pyInt_letters hne h, lettersVal_letters s 0 h]
  rfl

theorem digit_facts : ∀ k, k < 26 →
    isLetter (Char.ofNat (0x41 + k)) = true ∧ letterPos (Char.ofNat (0x41 + k)) = k + 1 ∧
    upperChar (Char.ofNat (0x41 + k)) = Char.ofNat (0x41 + k) := by
  decide +kernel

theorem colName_letters (n : Nat) : ∀ c ∈ colName n, isLetter c = true := by
  induction n using Nat.strongRecOn with
  | _ n ih =>
    intro c hc
    have hd := (digit_facts (n % 26) (Nat.mod_lt _ (by omega))).1
    rw [colName] at hc
    split at hc
    · simp at hc; subst hc; exact hd
    · simp only [List.mem_append, List.mem_singleton] at hc
      rcases hc with hc | hc
      · exact ih _ (by omega) c hc
      · subst hc; exact hd

theorem colName_upper (n : Nat) : upper (colName n) = colName n := by
  induction n using Nat.strongRecOn with
  | _ n ih =>
    have hd := (digit_facts (n % 26) (Nat.mod_lt _ (by omega))).2.2
    rw [colName]
    split
    · simp [upper, hd]
    · have := ih (n / 26 - 1) (by omega)
      simp only [upper] at this
      simp [upper, hd, this]

theorem colName_ne_nil (n : Nat) : colName n ≠ [] := by
  rw [colName]; split <;> simp

theorem lettersNum_snoc (s : Str) (c : Char) : lettersNum (s ++ [c]) = lettersNum s * 26 + letterPos c := by
  simp [lettersNum]

theorem lettersNum_colName (n : Nat) : lettersNum (colName n) = n + 1 := by
  induction n using Nat.strongRecOn with
  | _ n ih =>
    have hd := (digit_facts (n % 26) (Nat.mod_lt _ (by omega))).2.1
    rw [colName]
    split
    · have : lettersNum [Char.ofNat (65 + n % 26)] = letterPos (Char.ofNat (65 + n % 26)) := by
        simp [lettersNum]
      rw [this, hd]; omega
    · skip
      rw [lettersNum_snoc, hd, ih _ (by omega)]; omega

theorem colName_lettersNum (s : Str) : s ≠ [] → (∀ c ∈ s, isLetter c = true) →
    1 ≤ lettersNum s ∧ colName (lettersNum s - 1) = upper s := by
  induction s using Lemmas.snocInd with
  | nil => intro h; exact absurd rfl h
  | append_singleton s c ih =>
    intro _ h
    obtain ⟨_, h1, h2, hu, _⟩ := letter_facts (h c (by simp))
    rw [lettersNum_snoc]
    refine ⟨by omega, ?_⟩
    cases s with
    | nil =>
      have : lettersNum [] = 0 := rfl
      rw [this, colName, dif_pos (by omega)]
      have : (0 * 26 + letterPos c - 1) % 26 = letterPos c - 1 := by omega
      simp only [this]
      simp [upper, hu]
    | cons a t =>
      obtain ⟨g1, g2⟩ := ih (by simp) (fun x hx => h x (by simp at hx ⊢; rcases hx with hx | hx <;> simp [hx]))
      rw [colName, dif_neg (by omega)]
      have e1 : (lettersNum (a :: t) * 26 + letterPos c - 1) % 26 = letterPos c - 1 := by omega
      have e2 : (lettersNum (a :: t) * 26 + letterPos c - 1) / 26 - 1 = lettersNum (a :: t) - 1 := by omega
      simp only [e1, e2, g2]
      simp [upper, hu]

theorem upper_digits {s : Str} (h : ∀ c ∈ s, c.isDigit = true) : upper s = s := by
  unfold upper
  conv => rhs; rw [← List.map_id s]
  apply List.map_congr_left
  intro c hc
  have := isDigit_range (h c hc)
  unfold upperChar
  rw [if_neg (by omega), if_neg (by omega), if_neg (by omega)]
  rfl

end Model
