/-
Specification of the payloads that survive coding.
-/
namespace Spec

/-- A CR LF line end somewhere. -/
def HasCrlf (x : List Nat) : Prop := ∃ p q, x = p ++ 13 :: 10 :: q

/-- An LF that is not part of a CR LF. -/
def HasBareLf (x : List Nat) : Prop := ∃ p q, x = p ++ 10 :: q ∧ p.getLast? ≠ some 13

/-- The line ends are not mixed. -/
def UniformLines (x : List Nat) : Prop := ¬ (HasCrlf x ∧ HasBareLf x)

/-- A byte string. -/
def IsBytes (x : List Nat) : Prop := ∀ b ∈ x, b < 256

end Spec
