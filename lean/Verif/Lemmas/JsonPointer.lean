import Verif.Lemmas.Str
import Verif.Spec.JsonPointer
import Verif.Model.JsonPointer
set_option linter.unusedSimpArgs false
namespace Model
open Py Spec

theorem escapePart_eq_esc (p : Str) : escapePart p = esc p := by
  unfold escapePart esc
  induction p with
  | nil => rfl
  | cons c t ih =>
    simp only [replace1, List.flatMap_cons, escChar]
    by_cases h1 : c = '~'
    · subst h1; simp [replace1]; exact ih
    · by_cases h2 : c = '/'
      · subst h2; simp [replace1]; exact ih
      · simp [h1, h2, replace1]; exact ih

theorem slash_not_mem_esc (p : Str) : '/' ∉ esc p := by
  induction p with
  | nil => simp [esc]
  | cons c t ih =>
    simp only [esc, List.flatMap_cons, List.mem_append, not_or]
    refine ⟨?_, ih⟩
    unfold escChar
    split
    · decide
    · split
      · decide
      · rename_i h; simp; exact fun e => h e.symm

theorem unescape_esc (p : Str) : unescapePart (esc p) = p := by
  have h1 : ∀ p : Str, replace2 '~' '1' ['/'] (esc p)
      = p.flatMap (fun c => if c = '~' then ['~', '0'] else [c]) := by
    intro p
    induction p with
    | nil => rfl
    | cons c t ih =>
      simp only [esc, List.flatMap_cons] at *
      by_cases h1 : c = '~'
      · subst h1
        rw [show escChar '~' = ['~', '0'] from rfl]
        simp only [if_true, List.cons_append, List.nil_append]
        rw [replace2_cons_miss _ (by decide), replace2_cons_ne _ (by decide), ih]
      · by_cases h2 : c = '/'
        · subst h2
          rw [show escChar '/' = ['~', '1'] from rfl]
          simp only [show ('/' = '~') = False by decide, if_false, List.cons_append,
            List.nil_append, replace2_cons_hit, ih]
        · rw [show escChar c = [c] by simp [escChar, h1, h2]]
          simp only [h1, if_false, List.singleton_append, replace2_cons_ne _ h1, ih]
  have h2 : ∀ p : Str, replace2 '~' '0' ['~']
      (p.flatMap (fun c => if c = '~' then ['~', '0'] else [c])) = p := by
    intro p
    induction p with
    | nil => rfl
    | cons c t ih =>
      simp only [List.flatMap_cons]
      by_cases h1 : c = '~'
      · subst h1
        simp only [if_true, List.cons_append, List.nil_append, replace2_cons_hit, ih]
      · simp only [h1, if_false, List.singleton_append, replace2_cons_ne _ h1, ih]
  rw [unescapePart, h1, h2]

theorem splitOn_pointerOf (parts : List Str) :
    splitOn '/' (pointerOf parts) = [] :: parts.map esc := by
  induction parts with
  | nil => rfl
  | cons p ps ih =>
    simp only [pointerOf, List.flatMap_cons, List.cons_append, List.map_cons]
    rw [splitOn_sep]
    congr 1
    cases ps with
    | nil => simpa using splitOn_of_not_mem (slash_not_mem_esc p)
    | cons q qs =>
      simp only [pointerOf, List.flatMap_cons, List.cons_append, List.map_cons] at ih ⊢
      rw [splitOn_append _ _ (slash_not_mem_esc p)]
      rw [splitOn_sep] at ih
      rw [List.cons.inj ih |>.2]

end Model
