import Verif.Spec.Xlref
/-
Specification vocabulary: every text that counts as a reference fragment. It is looser than `RefText.Ok`,
which describes the references people write: decimal digits of any script may follow the first digit,
four letters outside ASCII pass for letters, a sheet name may be anything without `!`, and the filters
may contain a `!`.
-/
namespace Spec
open Py

/-- A letter, or one of the four others that have an ASCII letter as their other case. -/
def IsLetterU (c : Char) : Prop := isLetter c = true ∨ c.toNat ∈ [0x130, 0x131, 0x17f, 0x212a]

/-- A number that does not begin with zero. -/
def IsNumU (s : Str) : Prop := ∃ d t, s = d :: t ∧ d ∈ "123456789".toList ∧ ∀ x ∈ t, isDigitU x = true

def IsRCNumU (s : Str) : Prop := IsNumU s ∨ (∃ t, s = '-' :: t ∧ IsNumU t) ∨ IsSpecial true s

def CellText.Written (dot : Bool) : CellText → Prop
  | .a1 col row => ((col ≠ [] ∧ ∀ x ∈ col, IsLetterU x) ∨ IsSpecial dot col) ∧ (IsNumU row ∨ IsSpecial dot row)
  | .rc r row c col => (r = 'R' ∨ r = 'r') ∧ (c = 'C' ∨ c = 'c') ∧ IsRCNumU row ∧ IsRCNumU col

def EdgeText.Written (dot : Bool) (e : EdgeText) : Prop := e.cell.Written dot ∧ MovOk e.mov

structure RefText.Written (r : RefText) : Prop where
  lead : Spaces r.lead
  sheet : ∀ s, r.sheet = some s → '!' ∉ s
  st : ∀ e, r.st = some e → e.Written false
  nd : ∀ e ex, r.range = some (some e, ex) → e.Written true
  exp : ∀ nd ex, r.range = some (nd, ex) → ExpOk ex
  filt : FiltOk r.filt

end Spec
