import Verif.Spec.NormPaths
/-
Specification vocabulary for paths with drive letters.
-/
namespace Spec
open Py

/-- A path with slashes for backslashes. -/
def slashes (p : Str) : Str := p.map (fun c => if c = '\\' then '/' else c)

/-- The path `r` on the drive `c`: `c:/r`, or `c:r`, with slashes or backslashes, and none of the characters that mean
something else in URLs. -/
structure OnDrive (c : Char) (r p : Str) : Prop where
  letter : ('a' ≤ c ∧ c ≤ 'z') ∨ ('A' ≤ c ∧ c ≤ 'Z')
  chars : ∀ x ∈ r, x ∉ ['#', '?', '\\', '\t', '\r', '\n']
  text : slashes p = c :: ':' :: '/' :: r ∨ (slashes p = c :: ':' :: r ∧ r.head? ≠ some '/')

/-- Segments that never lead above a folder that lies `d` folders below another one. -/
def StaysBelow : Nat → List Str → Prop
  | _, [] => True
  | d, s :: ss =>
    if s = [] ∨ s = ['.'] then StaysBelow d ss
    else if s = ['.', '.'] then 0 < d ∧ StaysBelow (d - 1) ss
    else StaysBelow (d + 1) ss

/-- The URL of the file with these names on a drive. -/
def driveUrl (c : Char) (ns : List Str) (slash : Bool) : Str :=
  "file:///".toList ++ join ['/'] ([c, ':'] :: ns) ++ (if slash then ['/'] else [])

end Spec
