/-
Stable sorting, as Python's `sorted`: the standard library's algorithm is another one, but a stable sort by a strict weak order has one
result only.
-/
namespace Py

/-- Insertion before the first element that is not before `x`. -/
def insertBy {α : Type} (lt : α → α → Bool) (x : α) : List α → List α
  | [] => [x]
  | y :: t => if lt y x then y :: insertBy lt x t else x :: y :: t

/-- `sorted(l)`, for an order by which any two elements can be compared. -/
def sortBy {α : Type} (lt : α → α → Bool) (l : List α) : List α := l.foldr (insertBy lt) []

/-- An order whose ties are an equivalence. -/
structure WeakOrder {α : Type} (lt : α → α → Bool) : Prop where
  asymm : ∀ a b, lt a b = true → lt b a = false
  trans : ∀ a b c, lt b a = false → lt c b = false → lt c a = false

/-- No element is before one that precedes it. -/
def SortedBy {α : Type} (lt : α → α → Bool) (l : List α) : Prop := l.Pairwise (fun a b => lt b a = false)

variable {α : Type} {lt : α → α → Bool}

theorem insertBy_perm (x : α) (l : List α) : (insertBy lt x l).Perm (x :: l) := by
  induction l with
  | nil => exact .refl _
  | cons y t ih =>
    rw [insertBy]
    split
    · exact (List.Perm.cons y ih).trans (.swap x y t)
    · exact .refl _

theorem sortBy_perm (l : List α) : (sortBy lt l).Perm l := by
  induction l with
  | nil => exact .refl _
  | cons x l ih => exact (insertBy_perm x (sortBy lt l)).trans (List.Perm.cons x ih)

theorem mem_sortBy {a : α} {l : List α} : a ∈ sortBy lt l ↔ a ∈ l := (sortBy_perm l).mem_iff

theorem insertBy_sorted (h : WeakOrder lt) {x : α} {l : List α} (hl : SortedBy lt l) : SortedBy lt (insertBy lt x l) := by
  induction l with
  | nil => exact List.pairwise_singleton _ _
  | cons y t ih =>
    obtain ⟨h1, h2⟩ := List.pairwise_cons.1 hl
    rw [insertBy]
    split
    · rename_i hyx
      refine List.pairwise_cons.2 ⟨fun z hz => ?_, ih h2⟩
      rcases List.mem_cons.1 ((insertBy_perm x t).mem_iff.1 hz) with rfl | hz
      · exact h.asymm _ _ hyx
      · exact h1 z hz
    · rename_i hyx
      rw [Bool.not_eq_true] at hyx
      refine List.pairwise_cons.2 ⟨fun z hz => ?_, hl⟩
      rcases List.mem_cons.1 hz with rfl | hz
      · exact hyx
      · exact h.trans _ _ _ hyx (h1 z hz)

theorem sortBy_sorted (h : WeakOrder lt) (l : List α) : SortedBy lt (sortBy lt l) := by
  induction l with
  | nil => exact List.Pairwise.nil
  | cons x l ih => exact insertBy_sorted h ih

theorem insertBy_filter {p : α → Bool} (hp : ∀ a b, p a = true → p b = true → lt a b = false) (x : α) (l : List α) :
    (insertBy lt x l).filter p = (x :: l).filter p := by
  induction l with
  | nil => rfl
  | cons y t ih =>
    rw [insertBy]
    split
    · rename_i hyx
      rw [List.filter_cons, ih]
      cases hx : p x with
      | false => simp only [List.filter_cons, hx, Bool.false_eq_true, if_false]
      | true =>
        cases hy : p y with
        | true => rw [hp y x hy hx] at hyx; cases hyx
        | false => simp only [List.filter_cons, hx, hy, Bool.false_eq_true, if_false, if_true]
    · rfl

/-- Elements that tie keep their order. -/
theorem sortBy_stable {p : α → Bool} (hp : ∀ a b, p a = true → p b = true → lt a b = false) (l : List α) :
    (sortBy lt l).filter p = l.filter p := by
  induction l with
  | nil => rfl
  | cons x l ih =>
    rw [show sortBy lt (x :: l) = insertBy lt x (sortBy lt l) from rfl, insertBy_filter hp, List.filter_cons, List.filter_cons, ih]

theorem insertBy_of_first {x : α} {l : List α} (h : ∀ y ∈ l, lt y x = false) : insertBy lt x l = x :: l := by
  cases l with
  | nil => rfl
  | cons y t => rw [insertBy, h y (by simp)]; rfl

/-- Sorting what is sorted changes nothing. -/
theorem sortBy_of_sorted {l : List α} (h : SortedBy lt l) : sortBy lt l = l := by
  induction l with
  | nil => rfl
  | cons x l ih =>
    obtain ⟨h1, h2⟩ := List.pairwise_cons.1 h
    rw [show sortBy lt (x :: l) = insertBy lt x (sortBy lt l) from rfl, ih h2]
    exact insertBy_of_first h1
end Py
