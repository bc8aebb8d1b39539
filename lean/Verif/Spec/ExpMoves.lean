import Verif.Model.Capture
/-
Specification vocabulary for expansion moves: how they are written and what they mean.
-/
namespace Spec
open Py Model

/-- An item of an expansion: directions without a count, or one direction with a count. -/
inductive ExpItem
  | run (ds : Str)
  | counted (d : Char) (n : Str)

def ExpItem.text : ExpItem → Str
  | .run ds => ds
  | .counted d n => d :: n

/-- The direction of a letter, in any case. -/
def letterDir (c : Char) : Option Dir :=
  if c = 'L' ∨ c = 'l' then some .L else if c = 'U' ∨ c = 'u' then some .U
  else if c = 'R' ∨ c = 'r' then some .R else if c = 'D' ∨ c = 'd' then some .D else none

/-- A character of a count: a decimal digit, or `?` standing for `1`. -/
def isCountChar (c : Char) : Bool := c == '?' || isDigitU c

/-- The number written by a count. -/
def countVal (n : Str) : Nat :=
  n.foldl (fun acc c => acc * 10 + (if c = '?' then 1 else (decVal c).getD 0)) 0

def ExpItem.Ok : ExpItem → Prop
  | .run ds => ds ≠ [] ∧ ∀ c ∈ ds, (letterDir c).isSome
  | .counted d n => (letterDir d).isSome ∧ n ≠ [] ∧ ∀ c ∈ n, isCountChar c = true

/-- Without a count: unlimited. -/
def ExpItem.meaning : ExpItem → ExpGroup
  | .run ds => ⟨ds.filterMap letterDir, none⟩
  | .counted d n => ⟨[d].filterMap letterDir, some (countVal n)⟩

/-- Uncounted directions are taken together: no two runs in a row. -/
def NoAdjRuns : List ExpItem → Prop
  | .run _ :: .run _ :: _ => False
  | _ :: t => NoAdjRuns t
  | [] => True

def expString (items : List ExpItem) : Str := items.flatMap ExpItem.text

/-- What may be written: directions and counts, a count not coming first. -/
def ExpString (s : Str) : Prop :=
  (∀ c ∈ s, (letterDir c).isSome ∨ isCountChar c = true) ∧ ∀ c, s.head? = some c → (letterDir c).isSome

end Spec
