import Verif.Py.Str
/-
Specification vocabulary for the utilities: file extensions, white space and schedules.
-/
namespace Spec
open Py

/-- Only white space. -/
def Blank (s : Str) : Prop := ∀ c ∈ s, isSpaceU c = true

/-- `core` with white space around it. -/
def Padded (core s : Str) : Prop := ∃ pre post, s = pre ++ core ++ post ∧ Blank pre ∧ Blank post

/-- The last component of a path has something besides dots. -/
def Named (root : Str) : Prop := ∃ name, name <:+ root ∧ '/' ∉ name ∧ ∃ c ∈ name, c ≠ '.'

/-- The path `p` has the extension `ext` after `root`: it starts at the last dot, in the last
component, which is not all dots before it. -/
def HasExt (p root ext : Str) : Prop :=
  p = root ++ ext ∧ Named root ∧ ∃ body, ext = '.' :: body ∧ '.' ∉ body ∧ '/' ∉ body

/-- The path splits in `root` and extension, empty if there is none. -/
def Splits (p root ext : Str) : Prop :=
  HasExt p root ext ∨ (root = p ∧ ext = [] ∧ ∀ r e, ¬ HasExt p r e)

/-- The `k`-th variation of a file name: itself, then with 1, 2, 3... before the extension. -/
def Variation (fname : Str) (k : Nat) (v : Str) : Prop :=
  (k = 0 ∧ v = fname) ∨ (0 < k ∧ ∃ root ext, Splits fname root ext ∧ v = root ++ natStr k ++ ext)

end Spec
