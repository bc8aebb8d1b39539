import Verif.Model.Redim
import Verif.Spec.Redim
set_option linter.unusedSimpArgs false
namespace Lemmas
open Py Model Spec

theorem flatMap_get {α β : Type} (f : α → List β) (v r : Nat) (hr : r < v) : ∀ (l : List α) (i : Nat),
    (∀ x ∈ l, (f x).length = v) → (l.flatMap f)[i * v + r]? = l[i]?.bind (fun x => (f x)[r]?) := by
  intro l
  induction l with
  | nil => intro i _; simp
  | cons x l ih =>
    intro i h
    have hx := h x (by simp)
    rw [List.flatMap_cons]
    cases i with
    | zero => simp [List.getElem?_append, hx, hr]
    | succ i =>
      have e : (i + 1) * v + r = v + (i * v + r) := by rw [Nat.succ_mul]; omega
      rw [e, List.getElem?_append_right (by omega), hx, Nat.add_sub_cancel_left, ih i (fun y hy => h y (by simp [hy]))]
      simp

theorem flatMap_length {α β : Type} (f : α → List β) (v : Nat) : ∀ (l : List α),
    (∀ x ∈ l, (f x).length = v) → (l.flatMap f).length = l.length * v := by
  intro l
  induction l with
  | nil => intro _; simp
  | cons x l ih =>
    intro h
    rw [List.flatMap_cons, List.length_append, h x (by simp), ih (fun y hy => h y (by simp [hy])), List.length_cons,
      Nat.succ_mul, Nat.add_comm]

theorem leavesL_eq (xs : List Doc) : leavesL xs = xs.flatMap leaves := by
  induction xs with
  | nil => rfl
  | cons x xs ih => rw [leavesL, ih, List.flatMap_cons]

theorem leaves_leaf {d : Doc} (h : isList d = false) : leaves d = [d] := by
  cases d <;> first | rfl | simp [isList] at h

mutual
theorem cells_eq : ∀ d : Doc, cells d = leaves d
  | .null => rfl
  | .bool _ => rfl
  | .int _ => rfl
  | .atom _ => rfl
  | .str _ => rfl
  | .dict _ => rfl
  | .list xs => by rw [cells, leaves, cellsOf_eq xs]
theorem cellsOf_eq : ∀ xs : List Doc, cellsOf xs = leavesL xs
  | [] => rfl
  | x :: xs => by rw [cellsOf, leavesL, cells_eq x, cellsOf_eq xs]
end

theorem count_eq (sh : List Nat) : count sh = volume sh := by
  induction sh with
  | nil => rfl
  | cons n sh ih => simp only [count, List.foldr_cons, volume] at ih ⊢; rw [ih]

theorem hasShape_iff (sh : List Nat) : ∀ d, hasShape sh d = true ↔ Shape sh d := by
  induction sh with
  | nil =>
    intro d
    constructor
    · intro h
      apply Shape.leaf
      cases d <;> first | rfl | simp [hasShape] at h
    · intro h
      cases h with
      | leaf _ h => cases d <;> first | rfl | simp [isList] at h
  | cons n sh ih =>
    intro d
    constructor
    · intro h
      cases d with
      | list xs =>
        simp only [hasShape, Bool.and_eq_true, beq_iff_eq, List.all_eq_true] at h
        rw [← h.1]
        exact .list xs sh (fun x hx => (ih x).1 (h.2 x hx))
      | _ => simp [hasShape] at h
    · intro h
      cases h with
      | list xs _ hx =>
        simp only [hasShape, Bool.and_eq_true, beq_iff_eq, List.all_eq_true]
        exact ⟨trivial, fun x hxm => (ih x).2 (hx x hxm)⟩

theorem shape_leaves {sh : List Nat} {d : Doc} (h : Shape sh d) :
    (leaves d).length = volume sh ∧ ∀ x ∈ leaves d, isList x = false := by
  induction h with
  | leaf d h => rw [leaves_leaf h]; simp [volume, h]
  | list xs sh hx ih =>
    rw [leaves, leavesL_eq]
    constructor
    · rw [flatMap_length leaves (volume sh) xs (fun x hxm => (ih x hxm).1)]; rfl
    · intro y hy
      obtain ⟨x, hxm, hyx⟩ := List.mem_flatMap.1 hy
      exact (ih x hxm).2 y hyx

theorem within_ravel {sh : List Nat} : ∀ {ix : List Nat}, InShape sh ix → ravel sh ix < volume sh := by
  induction sh with
  | nil => intro ix _; simp [volume, ravel]
  | cons n sh ih =>
    intro ix h
    cases ix with
    | nil => simp [InShape] at h
    | cons i ix =>
      obtain ⟨h1, h2⟩ := h
      have := ih h2
      simp only [ravel, volume]
      calc i * volume sh + ravel sh ix < i * volume sh + volume sh := by omega
        _ = (i + 1) * volume sh := by rw [Nat.succ_mul]
        _ ≤ n * volume sh := Nat.mul_le_mul_right _ h1

/-- Values at an index, in row-major order. -/
theorem shape_nth {sh : List Nat} {d : Doc} (h : Shape sh d) : ∀ {ix : List Nat}, InShape sh ix →
    nth d ix = (leaves d)[ravel sh ix]? := by
  induction h with
  | leaf d h =>
    intro ix hix
    cases ix with
    | nil => rw [leaves_leaf h]; simp [nth, ravel]
    | cons i ix => simp [InShape] at hix
  | list xs sh hx ih =>
    intro ix hix
    cases ix with
    | nil => simp [InShape] at hix
    | cons i ix =>
      obtain ⟨h1, h2⟩ := hix
      rw [leaves, leavesL_eq, ravel,
        flatMap_get leaves (volume sh) _ (within_ravel h2) xs i (fun x hxm => (shape_leaves (hx x hxm)).1), nth]
      cases hxi : xs[i]? with
      | none => rfl
      | some x =>
        have hm : x ∈ xs := List.mem_of_getElem? hxi
        exact ih x hm h2

theorem indices_length (sh : List Nat) : (indices sh).length = volume sh := by
  induction sh with
  | nil => rfl
  | cons n sh ih =>
    rw [indices, flatMap_length _ (volume sh) _ (fun i _ => by rw [List.length_map, ih]), List.length_range]; rfl

theorem indices_get {sh : List Nat} : ∀ {ix : List Nat}, InShape sh ix → (indices sh)[ravel sh ix]? = some ix := by
  induction sh with
  | nil =>
    intro ix h
    cases ix with
    | nil => rfl
    | cons => simp [InShape] at h
  | cons n sh ih =>
    intro ix h
    cases ix with
    | nil => simp [InShape] at h
    | cons i ix =>
      obtain ⟨h1, h2⟩ := h
      rw [indices, ravel, flatMap_get _ (volume sh) _ (within_ravel h2) _ _ (fun i _ => by rw [List.length_map, indices_length])]
      simp [h1, ih h2]

theorem chunk_flatMap (v : Nat) (data : List Doc) : ∀ n, n * v ≤ data.length →
    (List.range n).flatMap (fun i => (data.drop (i * v)).take v) = data.take (n * v) := by
  intro n
  induction n with
  | zero => intro _; simp
  | succ n ih =>
    intro h
    rw [Nat.succ_mul] at h
    rw [List.range_succ, List.flatMap_append, ih (by omega), Nat.succ_mul]
    simp only [List.flatMap_cons, List.flatMap_nil, List.append_nil]
    rw [List.take_add]

theorem chunk_length {v n i : Nat} {data : List Doc} (h : data.length = n * v) (hi : i < n) :
    ((data.drop (i * v)).take v).length = v := by
  have : (i + 1) * v ≤ n * v := Nat.mul_le_mul_right _ hi
  rw [Nat.succ_mul] at this
  simp; omega

theorem tolist_shape (sh : List Nat) : ∀ data : List Doc, data.length = volume sh → (∀ x ∈ data, isList x = false) →
    Shape sh (tolist sh data) ∧ leaves (tolist sh data) = data := by
  induction sh with
  | nil =>
    intro data h1 h2
    simp only [volume] at h1
    obtain ⟨x, rfl⟩ := List.length_eq_one_iff.1 h1
    have := h2 x (by simp)
    exact ⟨.leaf _ this, leaves_leaf this⟩
  | cons n sh ih =>
    intro data h1 h2
    simp only [volume] at h1
    have hch : ∀ i ∈ List.range n, Shape sh (tolist sh ((data.drop (i * volume sh)).take (volume sh))) ∧
        leaves (tolist sh ((data.drop (i * volume sh)).take (volume sh))) = (data.drop (i * volume sh)).take (volume sh) := by
      intro i hi
      refine ih _ (chunk_length h1 (List.mem_range.1 hi)) ?_
      intro x hx
      exact h2 x (List.mem_of_mem_drop (List.mem_of_mem_take hx))
    constructor
    · rw [tolist]
      have := Shape.list ((List.range n).map (fun i => tolist sh ((data.drop (i * volume sh)).take (volume sh)))) sh (by
        intro x hx
        obtain ⟨i, hi, rfl⟩ := List.mem_map.1 hx
        exact (hch i hi).1)
      simpa using this
    · rw [tolist, leaves, leavesL_eq, List.flatMap_map]
      have : (List.range n).flatMap (fun i => leaves (tolist sh ((data.drop (i * volume sh)).take (volume sh)))) =
          (List.range n).flatMap (fun i => (data.drop (i * volume sh)).take (volume sh)) := by
        simp only [List.flatMap_def]
        rw [List.map_congr_left (fun i hi => (hch i hi).2)]
      rw [this, chunk_flatMap _ _ _ (by omega), ← h1, List.take_length]

theorem promote_uniform {l : List Doc} (h : Uniform l) : promote l = l := by
  unfold promote
  split
  · rfl
  · rename_i hno
    split
    · rename_i hs
      rcases h with h | h | h | ⟨d, hd, h⟩
      · conv => rhs; rw [← List.map_id l]
        apply List.map_congr_left
        intro d hd
        obtain ⟨s, rfl⟩ := h d hd
        rfl
      · obtain ⟨d, hd, h1⟩ := List.any_eq_true.1 hs
        obtain ⟨i, rfl⟩ := h d hd; simp at h1
      · obtain ⟨d, hd, h1⟩ := List.any_eq_true.1 hs
        obtain ⟨i, rfl⟩ := h d hd; simp at h1
      · exfalso; apply hno
        rw [List.any_eq_true]
        refine ⟨d, hd, ?_⟩
        rcases h with rfl | ⟨t, rfl⟩ | ⟨k, rfl⟩ <;> rfl
    · split
      · rename_i hs
        rcases h with h | h | h | ⟨d, hd, h⟩
        · obtain ⟨d, hd, h1⟩ := List.any_eq_true.1 hs
          obtain ⟨i, rfl⟩ := h d hd; simp at h1
        · conv => rhs; rw [← List.map_id l]
          apply List.map_congr_left
          intro d hd
          obtain ⟨s, rfl⟩ := h d hd
          rfl
        · obtain ⟨d, hd, h1⟩ := List.any_eq_true.1 hs
          obtain ⟨i, rfl⟩ := h d hd; simp at h1
        · exfalso; apply hno
          rw [List.any_eq_true]
          refine ⟨d, hd, ?_⟩
          rcases h with rfl | ⟨t, rfl⟩ | ⟨k, rfl⟩ <;> rfl
      · rfl

theorem promote_length (l : List Doc) : (promote l).length = l.length := by
  unfold promote; split <;> (try split) <;> (try split) <;> simp

/-- Only the last dimension may be empty: lists of no lists have one dimension. -/
theorem shapeOf_eq {sh : List Nat} {d : Doc} (h : Shape sh d) (hz : ∀ n ∈ sh.dropLast, n ≠ 0) : shapeOf d = sh := by
  induction h with
  | leaf d h => cases d <;> first | rfl | simp [isList] at h
  | list xs sh hx ih =>
    cases xs with
    | nil =>
      cases sh with
      | nil => rfl
      | cons m sh => exact absurd rfl (hz 0 (by simp))
    | cons x xs =>
      rw [shapeOf, ih x (by simp) ?_]
      · rfl
      · intro n hn
        apply hz n
        cases sh with
        | nil => simp at hn
        | cons m sh => rw [List.dropLast_cons_of_ne_nil (by simp)]; simp [hn]

end Lemmas
