import Verif.Model.Lasso
/-
Comparing values and outcomes of lassos by evaluation, for examples.
-/
namespace Lemmas
open Py Model

mutual
/-- Whether two values are the same. -/
def docEq : Doc → Doc → Bool
  | .null, .null => true
  | .bool a, .bool b => a == b
  | .int a, .int b => a == b
  | .atom a, .atom b => a == b
  | .str a, .str b => a == b
  | .list a, .list b => docsEq a b
  | .dict a, .dict b => itemsEq a b
  | _, _ => false

/-- Whether two lists are the same. -/
def docsEq : List Doc → List Doc → Bool
  | [], [] => true
  | a :: as, b :: bs => docEq a b && docsEq as bs
  | _, _ => false

/-- Whether two dictionaries are the same. -/
def itemsEq : List (Str × Doc) → List (Str × Doc) → Bool
  | [], [] => true
  | (k, a) :: as, (k', b) :: bs => k == k' && docEq a b && itemsEq as bs
  | _, _ => false
end

mutual
theorem docEq_sound : (a b : Doc) → docEq a b = true → a = b
  | .null, b, h => by cases b <;> simp [docEq] at h; rfl
  | .bool a, b, h => by cases b <;> simp [docEq] at h; rw [h]
  | .int a, b, h => by cases b <;> simp [docEq] at h; rw [h]
  | .atom a, b, h => by cases b <;> simp [docEq] at h; rw [h]
  | .str a, b, h => by cases b <;> simp [docEq] at h; rw [h]
  | .list a, b, h => by cases b <;> simp [docEq] at h; rw [docsEq_sound a _ h]
  | .dict a, b, h => by cases b <;> simp [docEq] at h; rw [itemsEq_sound a _ h]

theorem docsEq_sound : (a b : List Doc) → docsEq a b = true → a = b
  | [], b, h => by cases b <;> simp [docsEq] at h; rfl
  | x :: xs, b, h => by
    cases b <;> simp [docsEq] at h
    rw [docEq_sound x _ h.1, docsEq_sound xs _ h.2]

theorem itemsEq_sound : (a b : List (Str × Doc)) → itemsEq a b = true → a = b
  | [], b, h => by cases b <;> simp [itemsEq] at h; rfl
  | (k, x) :: xs, b, h => by
    cases b with
    | nil => simp [itemsEq] at h
    | cons p b =>
      obtain ⟨k', y⟩ := p
      simp [itemsEq] at h
      rw [h.1.1, docEq_sound x y h.1.2, itemsEq_sound xs b h.2]
end

/-- Whether a lasso was returned that has these values. -/
def gaveValues {S : Type} (r : Except PyErr (FRes S)) (v : Doc) : Bool := match r with
  | .ok (.lasso l) => docEq l.values v
  | _ => false

theorem gaveValues_sound {S : Type} {r : Except PyErr (FRes S)} {v : Doc} (h : gaveValues r v = true) :
    ∃ l, r = .ok (.lasso l) ∧ l.values = v := by
  unfold gaveValues at h
  split at h
  · exact ⟨_, rfl, docEq_sound _ _ h⟩
  · simp at h

end Lemmas
