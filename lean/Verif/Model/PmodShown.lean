import Verif.Model.Pmod
/-
Model of the texts that mappings are shown as, of `pandalone/mappings.py`.
-/
namespace Model
open Py

/-- What `repr` of a text rests on (standard library): which characters can be printed, and what is written for one that cannot. -/
structure Printing where
  printable : Char → Bool
  hex : Char → Str

/-- The quote around a text: the double one if there are only single ones in it (standard library). -/
def quoteOf (s : Str) : Char := if s.contains '\'' && !s.contains '"' then '"' else '\''

/-- What `repr` writes for a character between quotes (standard library). -/
def escChar (P : Printing) (q c : Char) : Str :=
  if c = q ∨ c = '\\' then ['\\', c]
  else if c = '\t' then ['\\', 't']
  else if c = '\n' then ['\\', 'n']
  else if c = '\r' then ['\\', 'r']
  else if P.printable c then [c]
  else P.hex c

/-- `repr(s)` of a text (standard library). -/
def strRepr (P : Printing) (s : Str) : Str := quoteOf s :: (s.flatMap (escChar P (quoteOf s)) ++ [quoteOf s])

/-- `repr` of a regular expression without flags (standard library): no more than 200 characters of its pattern are written. -/
def reRepr (P : Printing) (s : Str) : Str := "re.compile(".toList ++ (strRepr P s).take 200 ++ [')']

/-- `repr` of a dictionary, given its items (standard library), if it is not empty: `pandalone/mappings.py:572-574` leaves out empty ones. -/
def dictShown : List Str → List Str
  | [] => []
  | i :: is => ['{' :: (join ", ".toList (i :: is) ++ ['}'])]

mutual
/-- `Pmod.__repr__()`, `pandalone/mappings.py:571-577`. Simplification: the alias is a text, or `None`. -/
def Pmod.shown (P : Printing) : Pmod → Str
  | .mk a s r => "pmod(".toList ++ join ", ".toList (a.toList.map (strRepr P) ++ dictShown (Pmod.shownItems P (strRepr P) s) ++
      dictShown (Pmod.shownItems P (reRepr P) r)) ++ [')']
/-- The items of a dictionary of mappings, as `repr` writes them (standard library). -/
def Pmod.shownItems (P : Printing) (key : Str → Str) : List (Str × Pmod) → List Str
  | [] => []
  | (k, v) :: t => (key k ++ ": ".toList ++ v.shown P) :: Pmod.shownItems P key t
end

end Model
