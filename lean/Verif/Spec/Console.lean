import Verif.Model.Console
/-
Specification vocabulary for consoles.
-/
namespace Spec
open Py

/-- What ends a line. -/
def LineEnding (le : Str) : Prop := le = ['\n'] ∨ le = ['\r', '\n'] ∨ le = ['\n', '\r']

/-- The text without the line ending it has, the longest one, if any. -/
def Chomped (text m : Str) : Prop :=
  (∃ le, LineEnding le ∧ text = m ++ le ∧ ∀ le', LineEnding le' → le' <:+ text → le'.length ≤ le.length) ∨
  (m = text ∧ ∀ le, LineEnding le → ¬ le <:+ text)

/-- The width of the column of a key: the smallest multiple of the indentation, not zero, that has room for it. -/
def ColumnWidth (indent len w : Nat) : Prop :=
  (∃ t, 0 < t ∧ w = t * indent) ∧ len ≤ w ∧ ∀ t, 0 < t → len ≤ t * indent → w ≤ t * indent

/-- The line of a pair. -/
def PairLine (indent : Nat) (k v line : Str) : Prop :=
  ∃ pad, ColumnWidth indent k.length (k.length + pad) ∧ line = k ++ List.replicate pad ' ' ++ " = ".toList ++ v

/-- A key that can be told from what follows it in its line: it does not end with a blank, and has no equals sign between blanks, nor one at its
end after a blank. -/
def ClearKey (k : Str) : Prop := k.getLast? ≠ some ' ' ∧ ¬ " = ".toList <:+: k ++ [' ']

/-- The folders of a search path: what is between colons, without quotes around, if not empty. -/
def Folders (path : Str) (fs : List Str) : Prop :=
  ∃ parts, path = join [':'] parts ∧ parts ≠ [] ∧ (∀ p ∈ parts, ':' ∉ p) ∧
    fs = (parts.map (stripBy (· == '"'))).filter (fun f => f ≠ [])

/-- The path of a file in a folder, with one slash between them; a file given by a path from the root is where that says. -/
def inFolder (folder file : Str) : Str :=
  match file.head?, folder.getLast? with
  | some '/', _ => file
  | _, none => file
  | _, some '/' => folder ++ file
  | _, some _ => folder ++ "/".toList ++ file

/-- The files that may be taken for a program, in the order in which they are looked for: in each folder, the file of that name, and those with an
ending after it. -/
def candidates (program : Str) (fs : List Str) : List Str :=
  fs.flatMap (fun folder => ["", ".bat", "com", ".exe"].map (fun ext => inFolder folder program ++ ext.toList))

/-- The first of the folders in which there is such a program. -/
inductive FirstIn (isExec : Str → Bool) (program : Str) : List Str → Option Str → Prop
  | none : FirstIn isExec program [] .none
  | here (f fs) : isExec (inFolder f program) = true → FirstIn isExec program (f :: fs) (some (inFolder f program))
  | later (f fs r) : isExec (inFolder f program) = false → FirstIn isExec program fs r → FirstIn isExec program (f :: fs) r

end Spec
