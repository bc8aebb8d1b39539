import Verif.Py.Url
/-
What the names of workbooks mean, independently of the model of the code: file names, absolute paths, walking along a
path from a directory, and percent-encoded texts.
-/
namespace Spec
open Py

/-- The name of a file or folder: not empty, without slash, none of `.` and `..`. -/
def FileName (n : Str) : Prop := n ≠ [] ∧ '/' ∉ n ∧ n ≠ ['.'] ∧ n ≠ ['.', '.']

/-- The text of the absolute path along the given names; `/` for none. -/
def absText (ns : List Str) : Str := '/' :: join ['/'] ns

/-- Where one arrives from the folder `here` along the segments of a path: empty segments and `.` stay, `..` goes up
(and stays at the root). -/
def walk (here : List Str) : List Str → List Str
  | [] => here
  | s :: ss =>
    if s = [] ∨ s = ['.'] then walk here ss
    else if s = ['.', '.'] then walk here.dropLast ss
    else walk (here ++ [s]) ss

/-- The file a path means in the working folder `cwd`: absolute paths start at the root. -/
def meant (cwd : List Str) (path : Str) : List Str :=
  walk (if path.head? = some '/' then [] else cwd) (splitOn '/' path)

/-- Paths written like those of folders: they end with a slash, `.` or `..`. -/
def FolderLike (path : Str) : Prop :=
  ∃ a s, splitOn '/' path = a ++ [s] ∧ (s = [] ∨ s = ['.'] ∨ s = ['.', '.'])

/-- The texts of a path: with a slash at the end if `slash` (the root has its slash anyway). -/
def pathTextOf (ns : List Str) (slash : Bool) : Str :=
  absText ns ++ (if slash = true ∧ ns ≠ [] then ['/'] else [])

/-- Paths without the characters that URLs, or the functions that make them, treat specially: none of
`#`, `?`, `%`, backslash, tab and line ends anywhere; no blank or control character first; no colon in the first
segment; and where the path is absolute, no two slashes in a row. -/
structure PlainPath (p : Str) : Prop where
  nonempty : p ≠ []
  chars : ∀ c ∈ p, c ∉ ['#', '?', '%', '\\', '\t', '\r', '\n']
  first : ∀ c t, p = c :: t → 32 < c.toNat
  colon : ∀ a b, p = a ++ ':' :: b → '/' ∈ a
  slashes : p.head? = some '/' → ∀ a b, p ≠ a ++ '/' :: '/' :: b

/-- The ways of writing a hexadecimal digit. -/
def HexDigit (n : Nat) (c : Char) : Prop := "0123456789ABCDEF".toList[n]? = some c ∨ "0123456789abcdef".toList[n]? = some c

/-- Bytes written as `%XX`, with digits of either case. -/
inductive PctBytes : List UInt8 → Str → Prop
  | nil : PctBytes [] []
  | cons {b bs h l w} : HexDigit (b.toNat / 16) h → HexDigit (b.toNat % 16) l → PctBytes bs w → PctBytes (b :: bs) ('%' :: h :: l :: w)

/-- The first text is a way of writing the second one, a file name, in a URL: each character is written as itself, unless it is one
of those that URLs treat specially, or as its UTF-8 bytes in hexadecimal. -/
inductive EncodedName : Str → Str → Prop
  | nil : EncodedName [] []
  | plain {c u n} : c ∉ ['%', '#', '?', '/', '\\', '\t', '\r', '\n'] → EncodedName u n → EncodedName (c :: u) (c :: n)
  | coded {u n} (c : Char) {w : Str} : PctBytes (String.utf8EncodeChar c) w → EncodedName u n → EncodedName (w ++ u) (c :: n)

/-- The same for the names of a path. -/
inductive EncodedNames : List Str → List Str → Prop
  | nil : EncodedNames [] []
  | cons {u n us ns} : EncodedName u n → EncodedNames us ns → EncodedNames (u :: us) (n :: ns)

/-- The `file:` URL of an absolute path, percent-encoded. -/
def fileUrl (ns : List Str) (slash : Bool) : Str :=
  "file://".toList ++ quote (pathTextOf ns slash)

/-- A name as it stands in a remote URL: a file name without the characters that would end the path, without
backslashes, tabs and line ends, and without `;`. -/
def RemoteName (n : Str) : Prop := FileName n ∧ ∀ c ∈ n, c ∉ ['#', '?', ';', '\\', '\t', '\r', '\n']

/-- A scheme, in lower case: a letter, and letters, digits, and the characters `+`, `-` and `.`. -/
def SchemeText (s : Str) : Prop :=
  (∃ c t, s = c :: t ∧ 'a' ≤ c ∧ c ≤ 'z') ∧ ∀ c ∈ s, ('a' ≤ c ∧ c ≤ 'z') ∨ ('0' ≤ c ∧ c ≤ '9') ∨ c ∈ ['+', '-', '.']

/-- A URL of a remote workbook: scheme, host, the names of its path, and the query. -/
structure RemoteParts where
  scheme : Str
  host : Str
  names : List Str
  slash : Bool
  query : Str

/-- The text of a remote URL, with a path that has no `.`, `..` or empty segment inside. -/
def RemoteParts.text (r : RemoteParts) : Str :=
  r.scheme ++ "://".toList ++ r.host ++ pathTextOf r.names r.slash ++ (if r.query = [] then [] else '?' :: r.query)

/-- The parts of the URL of a remote workbook, of any scheme but that of files, and of more than one letter (which would be a drive). The host may
be missing only for the schemes of which Python knows that they have one. -/
structure RemoteParts.Ok (r : RemoteParts) : Prop where
  scheme : SchemeText r.scheme ∧ 2 ≤ r.scheme.length ∧ r.scheme ≠ "file".toList
  noHost : r.host = [] → r.scheme ∈ ["http".toList, "https".toList, "ftp".toList]
  host : ∀ c ∈ r.host, c ∉ ['/', '?', '#', '\\', '\t', '\r', '\n']
  names : ∀ n ∈ r.names, RemoteName n
  query : ∀ c ∈ r.query, c ∉ ['#', '\\', '\t', '\r', '\n']

end Spec
