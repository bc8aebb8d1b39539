import Verif.Spec.Urls
/-
Specification vocabulary for normalised paths.
-/
namespace Spec
open Py

/-- Paths that end with one slash, after another character. -/
def OneSlash (p : Str) : Prop := ∃ a c, p = a ++ [c, '/'] ∧ c ≠ '/'

/-- Paths without backslashes and newlines. -/
def Simple (p : Str) : Prop := '\\' ∉ p ∧ '\n' ∉ p

/-- Paths whose end is taken for something else than it is: a last slash after a backslash is not noticed; a last
backslash, or a last newline after a slash of either kind, is taken for the slash of a folder. -/
def OddEnd (p : Str) : Prop :=
  (∃ a, p = a ++ ['\\', '/']) ∨
  (∃ a c, p = a ++ [c, '\\'] ∧ c ≠ '/' ∧ c ≠ '\\') ∨
  (∃ a c s, p = a ++ [c, s, '\n'] ∧ c ≠ '/' ∧ c ≠ '\\' ∧ (s = '/' ∨ s = '\\'))

/-- Paths that end like that of a folder: with a slash of either kind after another character, perhaps with a newline
after it. -/
def FolderEnd (p : Str) : Prop :=
  ∃ a c s, (p = a ++ [c, s] ∨ p = a ++ [c, s, '\n']) ∧ c ≠ '/' ∧ c ≠ '\\' ∧ (s = '/' ∨ s = '\\')

/-- Paths that cannot be made shorter by leaving out segments: slashes for the root, then `..` only where there is
no root, then names; with a single dot if there is nothing of that; perhaps a last slash, except after the root. -/
def NormalPath (p : Str) : Prop :=
  ∃ root ups names tail, root ∈ [[], ['/'], ['/', '/']] ∧ (root ≠ [] → ups = 0) ∧ (∀ n ∈ names, FileName n) ∧
    tail ∈ [[], ['/']] ∧ (tail ≠ [] → root = [] ∨ names ≠ []) ∧
    p = (if root = [] ∧ ups = 0 ∧ names = [] then ['.']
      else root ++ join ['/'] (List.replicate ups ['.', '.'] ++ names)) ++ tail

/-- Paths that begin with two slashes, no more. -/
def TwoSlashes (p : Str) : Prop := ∃ t, p = '/' :: '/' :: t ∧ t.head? ≠ some '/'

/-! ### Paths with variables -/

/-- The parts of a path with variables: plain text, the end `$\` of the name of a hidden share, `$name`, `${name}`,
and a dollar sign that stands for itself. -/
inductive PathPart where
  | text (s : Str)
  | share
  | var (name : Str)
  | braced (name : Str)
  | dollar

/-- How a part is written. -/
def PathPart.source : PathPart → Str
  | .text s => s
  | .share => "$\\".toList
  | .var n => '$' :: n
  | .braced n => "${".toList ++ n ++ "}".toList
  | .dollar => "$".toList

/-- What a part stands for: variables that are not set stay as they are. -/
def PathPart.value (env : Str → Option Str) : PathPart → Str
  | .text s => s
  | .share => "$\\".toList
  | .var n => (env n).getD ('$' :: n)
  | .braced n => (env n).getD ("${".toList ++ n ++ "}".toList)
  | .dollar => "$".toList

/-- The characters of names of variables. -/
def WordChar (c : Char) : Prop :=
  ('a' ≤ c ∧ c ≤ 'z') ∨ ('A' ≤ c ∧ c ≤ 'Z') ∨ ('0' ≤ c ∧ c ≤ '9') ∨ c = '_'

/-- Parts that are told from each other: texts have no dollar sign; names without braces are words, and no character
of a word follows; names in braces end at the first brace; after a dollar sign that stands for itself there is neither a
name nor a backslash. -/
def WellWritten : List PathPart → Prop
  | [] => True
  | .text s :: ps => '$' ∉ s ∧ WellWritten ps
  | .share :: ps => WellWritten ps
  | .var n :: ps => n ≠ [] ∧ (∀ c ∈ n, WordChar c) ∧ (∀ c t, ps.flatMap PathPart.source = c :: t → ¬ WordChar c) ∧
      WellWritten ps
  | .braced n :: ps => '}' ∉ n ∧ '$' ∉ n ∧ WellWritten ps
  | .dollar :: ps => (∀ c t, ps.flatMap PathPart.source = c :: t → ¬ WordChar c ∧ c ≠ '\\' ∧ (c = '{' → '}' ∉ t)) ∧
      WellWritten ps

end Spec
