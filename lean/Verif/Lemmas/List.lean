/-
General facts on lists.
-/
namespace Lemmas

theorem snocInd {α : Type} {P : List α → Prop} (nil : P [])
    (append_singleton : ∀ xs x, P xs → P (xs ++ [x])) : ∀ xs, P xs := by
  intro xs
  have : ∀ ys : List α, P ys.reverse := by
    intro ys
    induction ys with
    | nil => exact nil
    | cons y t ih => rw [List.reverse_cons]; exact append_singleton _ _ ih
  simpa using this xs.reverse

end Lemmas
