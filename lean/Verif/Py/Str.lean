/-
Model of the Python `str` built-ins used by pandalone (standard library semantics, not repo code).
A Python `str` is a list of characters (code points).
-/
namespace Py

abbrev Str := List Char

/-- Python `s.split(sep)` for a one-character separator: always at least one piece. -/
def splitOn (sep : Char) : Str → List Str
  | [] => [[]]
  | c :: cs =>
    if c = sep then [] :: splitOn sep cs
    else match splitOn sep cs with
      | [] => [[c]]            -- unreachable: `splitOn` is never empty
      | p :: ps => (c :: p) :: ps

/-- Python `sep.join(parts)`. -/
def join (sep : Str) : List Str → Str
  | [] => []
  | [p] => p
  | p :: q :: ps => p ++ sep ++ join sep (q :: ps)

/-- Python `s.replace(old, new)` for a one-character `old`. -/
def replace1 (old : Char) (new : Str) : Str → Str
  | [] => []
  | c :: cs => (if c = old then new else [c]) ++ replace1 old new cs

/-- Python `s.replace(old, new)` for a two-character `old = [a, b]`:
left-to-right, non-overlapping. -/
def replace2 (a b : Char) (new : Str) : Str → Str
  | [] => []
  | [c] => [c]
  | c :: d :: cs =>
    if c = a ∧ d = b then new ++ replace2 a b new cs
    else c :: replace2 a b new (d :: cs)

/-- Python `s.startswith(p)`. -/
def startsWith (p s : Str) : Bool := p.isPrefixOf s

/-- Python `s.endswith(p)`. -/
def endsWith (p s : Str) : Bool := p.isSuffixOf s

/-- Python `s.strip()` relative to a class of characters. -/
def stripBy (ws : Char → Bool) (s : Str) : Str :=
  ((s.dropWhile ws).reverse.dropWhile ws).reverse

/-- Code points of the zero digits of every Unicode `Nd` block (Unicode 14, CPython 3.11). -/
def ndZeros : List Nat :=
  [0x30, 0x660, 0x6f0, 0x7c0, 0x966, 0x9e6, 0xa66, 0xae6, 0xb66, 0xbe6, 0xc66, 0xce6, 0xd66, 0xde6,
   0xe50, 0xed0, 0xf20, 0x1040, 0x1090, 0x17e0, 0x1810, 0x1946, 0x19d0, 0x1a80, 0x1a90, 0x1b50,
   0x1bb0, 0x1c40, 0x1c50, 0xa620, 0xa8d0, 0xa900, 0xa9d0, 0xa9f0, 0xaa50, 0xabf0, 0xff10, 0x104a0,
   0x10d30, 0x11066, 0x110f0, 0x11136, 0x111d0, 0x112f0, 0x11450, 0x114d0, 0x11650, 0x116c0,
   0x11730, 0x118e0, 0x11950, 0x11c50, 0x11d50, 0x11da0, 0x16a60, 0x16ac0, 0x16b50, 0x1d7ce,
   0x1d7d8, 0x1d7e2, 0x1d7ec, 0x1d7f6, 0x1e140, 0x1e2f0, 0x1e950, 0x1fbf0]

/-- `unicodedata.decimal(c)`: the value of a decimal digit of any script. -/
def decVal (c : Char) : Option Nat :=
  if 0x30 ≤ c.toNat ∧ c.toNat ≤ 0x39 then some (c.toNat - 0x30)
  else match ndZeros.find? (fun z => z ≤ c.toNat ∧ c.toNat < z + 10) with
    | some z => some (c.toNat - z)
    | none => none

/-- `\d` of a Python `str` pattern. -/
def isDigitU (c : Char) : Bool := (decVal c).isSome

/-- `\s` of a Python `str` pattern, and `str.isspace` for one character. -/
def isSpaceU (c : Char) : Bool :=
  [9, 10, 11, 12, 13, 28, 29, 30, 31, 32, 133, 160, 5760, 8192, 8193, 8194, 8195, 8196, 8197, 8198,
   8199, 8200, 8201, 8202, 8232, 8233, 8239, 8287, 12288].contains c.toNat

/-- White space stripped by the Python constructor `int()`. -/
def isIntSpace (c : Char) : Bool :=
  isSpaceU c && !([28, 29, 30, 31].contains c.toNat)

/-- Digits of an `int()` literal after its first digit; single underscores between digits. -/
def intTail (acc : Nat) : Str → Option Nat
  | [] => some acc
  | '_' :: c :: cs =>
    match decVal c with
    | some d => intTail (acc * 10 + d) cs
    | none => none
  | c :: cs =>
    match decVal c with
    | some d => intTail (acc * 10 + d) cs
    | none => none

/-- Unsigned `int()` literal. -/
def intNat : Str → Option Nat
  | [] => none
  | c :: cs =>
    match decVal c with
    | some d => intTail d cs
    | none => none

/-- Python `int(s)` for `s : str`, base 10; `none` is `ValueError`. -/
def pyInt (s : Str) : Option Int :=
  match stripBy isIntSpace s with
  | '-' :: cs => (intNat cs).map (fun n => - (n : Int))
  | '+' :: cs => (intNat cs).map (fun n => (n : Int))
  | cs => (intNat cs).map (fun n => (n : Int))

/-- Python `str(n)` of a natural number. -/
def natStr (n : Nat) : Str := Nat.toDigits 10 n

/-- Python `str(n)` of an integer. -/
def intStr (n : Int) : Str := if n < 0 then '-' :: natStr n.natAbs else natStr n.natAbs

/-- Python `len(s)` etc. on sequences: the position denoted by index `i`, if valid
(negative indexes count from the end). -/
def seqIndex (len : Nat) (i : Int) : Option Nat :=
  if 0 ≤ i then (if i.toNat < len then some i.toNat else none)
  else (if 0 ≤ i + len then some (i + len).toNat else none)

/-- `str.upper()` of one character. Simplification: exact on ASCII and on the non-ASCII
characters that the case-insensitive `[A-Z]` of Python also matches; identity elsewhere. -/
def upperChar (c : Char) : Char :=
  if 0x61 ≤ c.toNat ∧ c.toNat ≤ 0x7a then Char.ofNat (c.toNat - 0x20)
  else if c.toNat = 0x131 then 'I'
  else if c.toNat = 0x17f then 'S'
  else c

/-- `str.upper()`, see `upperChar`. -/
def upper (s : Str) : Str := s.map upperChar

/-- `str.lower()` of one character. Simplification: exact on ASCII, identity elsewhere. -/
def lowerChar (c : Char) : Char :=
  if 0x41 ≤ c.toNat ∧ c.toNat ≤ 0x5a then Char.ofNat (c.toNat + 0x20) else c

/-- `str.lower()`, see `lowerChar`. -/
def lower (s : Str) : Str := s.map lowerChar

end Py
