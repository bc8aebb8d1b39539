import Verif.Model.Pmod
/-
Model of comparing mappings.
-/
namespace Model
open Py

mutual
/-- `pandalone/mappings.py:579-587` `Pmod.__eq__` between mappings. Dictionaries are equal when they have as many keys,
and equal values under the same keys, in any order. Simplification: comparing does not run into the recursion limit,
which would make it `False`. -/
def Pmod.beq : Pmod → Pmod → Bool
  | .mk a s r, .mk a' s' r' =>
    decide (a = a') && decide (s.length = s'.length) && Pmod.beqAll s s' && decide (r.length = r'.length) && Pmod.beqAll r r'

/-- The loop over the items of the one dictionary. -/
def Pmod.beqAll : List (Str × Pmod) → List (Str × Pmod) → Bool
  | [], _ => true
  | (k, v) :: t, other =>
    (match dget other k with
      | some w => Pmod.beq v w
      | none => false) && Pmod.beqAll t other
end

end Model
