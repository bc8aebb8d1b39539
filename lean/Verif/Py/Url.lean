import Verif.Py.Str
/-
Model of the functions of `urllib.parse` and `posixpath` that pandalone calls to turn paths into URLs and
back (CPython 3.11 on POSIX, standard library semantics, not repo code).  Compared with the
interpreter by `tools/url_diff.py`.
-/
namespace Py

/-! ### `posixpath.normpath` -/

/-- One step of the loop of `normpath` over the components of a path; `rooted` tells whether the path
starts with a slash. -/
def normStep (rooted : Bool) (comps : List Str) (comp : Str) : List Str :=
  if comp = [] ∨ comp = ['.'] then comps
  else if comp ≠ ['.', '.'] ∨ (rooted = false ∧ comps = []) ∨ comps.getLast? = some ['.', '.'] then
    comps ++ [comp]
  else comps.dropLast

/-- The slashes `normpath` puts first: two where the path has exactly two, else one or none. -/
def rootSlashes (path : Str) : Str :=
  if startsWith ['/', '/'] path && !startsWith ['/', '/', '/'] path then ['/', '/']
  else if startsWith ['/'] path then ['/']
  else []

/-- `posixpath.normpath` -/
def osNormpath (path : Str) : Str :=
  if path = [] then ['.']
  else
    let p := rootSlashes path ++
      join ['/'] ((splitOn '/' path).foldl (normStep (startsWith ['/'] path)) [])
    if p = [] then ['.'] else p

/-! ### `quote` and `unquote` -/

/-- `str.encode("utf-8")` -/
def utf8 (s : Str) : List UInt8 := s.flatMap String.utf8EncodeChar

/-- `bytes.decode("utf-8", "replace")`: only what it does to the encoding of a text is assumed. -/
structure Utf8Lib where
  dec : List UInt8 → Str
  dec_utf8 : ∀ s, dec (utf8 s) = s

/-- Upper-case hexadecimal digit. -/
def hexUpper (n : Nat) : Char := if n < 10 then Char.ofNat (0x30 + n) else Char.ofNat (0x37 + n)

/-- Value of a hexadecimal digit, of either case. -/
def hexValue (c : Char) : Option Nat :=
  if '0' ≤ c ∧ c ≤ '9' then some (c.toNat - 0x30)
  else if 'A' ≤ c ∧ c ≤ 'F' then some (c.toNat - 0x37)
  else if 'a' ≤ c ∧ c ≤ 'f' then some (c.toNat - 0x57)
  else none

def isAsciiLetter (c : Char) : Bool :=
  (decide ('a' ≤ c) && decide (c ≤ 'z')) || (decide ('A' ≤ c) && decide (c ≤ 'Z'))

def isAsciiDigit (c : Char) : Bool := decide ('0' ≤ c) && decide (c ≤ '9')

/-- The characters `quote(s)` leaves as they are (`_ALWAYS_SAFE` and the default `safe="/"`). -/
def quoteSafe (c : Char) : Bool :=
  isAsciiLetter c || isAsciiDigit c || decide (c ∈ ['_', '.', '-', '~', '/'])

/-- `%XX` for one byte. -/
def pct (b : UInt8) : Str := ['%', hexUpper (b.toNat / 16), hexUpper (b.toNat % 16)]

/-- `quote` of one character. -/
def quoteChar (c : Char) : Str :=
  if quoteSafe c then [c] else (String.utf8EncodeChar c).flatMap pct

/-- `quote(s)`, which on POSIX is `urllib.request.pathname2url(s)`. -/
def quote (s : Str) : Str := s.flatMap quoteChar

/-- The loop of `unquote`, character by character: the bytes of the current run of ASCII characters are
gathered, with `%XX` read as a byte, and decoded where the run ends. -/
def unquoteGo (U : Utf8Lib) (acc : List UInt8) : Str → Str
  | [] => U.dec acc
  | '%' :: h :: l :: rest =>
    match hexValue h, hexValue l with
    | some a, some b => unquoteGo U (acc ++ [UInt8.ofNat (16 * a + b)]) rest
    | _, _ => unquoteGo U (acc ++ [37]) (h :: l :: rest)
  | c :: cs =>
    if c.toNat < 128 then unquoteGo U (acc ++ [UInt8.ofNat c.toNat]) cs
    else U.dec acc ++ c :: unquoteGo U [] cs

/-- `unquote(s)`, which on POSIX is `urllib.request.url2pathname(s)`. -/
def unquote (U : Utf8Lib) (s : Str) : Str := if '%' ∈ s then unquoteGo U [] s else s

/-! ### `urlsplit` and the functions built on it -/

structure Url where
  scheme : Str
  netloc : Str
  path : Str
  query : Str
  fragment : Str
deriving DecidableEq, Repr

/-- `a.split(c, 1)` where `c` occurs in `a`. -/
def cut (c : Char) : Str → Option (Str × Str)
  | [] => none
  | x :: xs => if x = c then some ([], xs) else (cut c xs).map fun ab => (x :: ab.1, ab.2)

/-- `_WHATWG_C0_CONTROL_OR_SPACE` -/
def isC0Space (c : Char) : Bool := decide (c.toNat ≤ 32)

/-- `_UNSAFE_URL_BYTES_TO_REMOVE` -/
def isUnsafe (c : Char) : Bool := decide (c ∈ ['\t', '\r', '\n'])

/-- The cleaning `urlsplit` starts with. -/
def cleanUrl (url : Str) : Str := (url.dropWhile isC0Space).filter (fun c => !isUnsafe c)

/-- `scheme_chars` -/
def schemeChar (c : Char) : Bool := isAsciiLetter c || isAsciiDigit c || decide (c ∈ ['+', '-', '.'])

/-- The scheme of a URL and what follows it, `dflt` where there is none. -/
def takeScheme (dflt url : Str) : Str × Str :=
  match url with
  | [] => (dflt, url)
  | c :: _ =>
    if isAsciiLetter c then
      match cut ':' url with
      | some (a, b) => if a.all schemeChar then (lower a, b) else (dflt, url)
      | none => (dflt, url)
    else (dflt, url)

/-- The characters that end a host name. -/
def netlocEnd (c : Char) : Bool := decide (c ∈ ['/', '?', '#'])

/-- The host of a URL without its scheme, and what follows it. -/
def takeNetloc (url : Str) : Str × Str :=
  match url with
  | '/' :: '/' :: rest => (rest.takeWhile (fun c => !netlocEnd c), rest.dropWhile (fun c => !netlocEnd c))
  | _ => ([], url)

/-- `a.split(c, 1)` if `c` occurs in `a`, else `a` and nothing. -/
def cutOr (c : Char) (s : Str) : Str × Str := (cut c s).getD (s, [])

/-- `urlsplit(url, scheme)`; `none` is the `ValueError` for hosts `ok` does not accept (`[` without `]`, and
the like). -/
def urlsplit (ok : Str → Bool) (dflt url : Str) : Option Url :=
  let (scheme, u) := takeScheme dflt (cleanUrl url)
  let (netloc, u) := takeNetloc u
  let (u, fragment) := cutOr '#' u
  let (path, query) := cutOr '?' u
  if ok netloc then some ⟨scheme, netloc, path, query, fragment⟩ else none

/-- `uses_netloc` -/
def usesNetloc : List Str :=
  ["", "ftp", "http", "gopher", "nntp", "telnet", "imap", "wais", "file", "mms", "https", "shttp",
   "snews", "prospero", "rtsp", "rtsps", "rtspu", "rsync", "svn", "svn+ssh", "sftp", "nfs", "git",
   "git+ssh", "ws", "wss"].map String.toList

/-- `uses_relative` -/
def usesRelative : List Str :=
  ["", "ftp", "http", "gopher", "nntp", "imap", "wais", "file", "https", "shttp", "mms", "prospero",
   "rtsp", "rtsps", "rtspu", "sftp", "svn", "svn+ssh", "ws", "wss"].map String.toList

/-- `uses_params` -/
def usesParams : List Str :=
  ["", "ftp", "hdl", "prospero", "http", "imap", "https", "shttp", "rtsp", "rtsps", "rtspu", "sip",
   "sips", "mms", "sftp", "tel"].map String.toList

/-- `urlunsplit` -/
def urlunsplit (u : Url) : Str :=
  let p :=
    if u.netloc ≠ [] ∨ (u.scheme ≠ [] ∧ u.scheme ∈ usesNetloc) ∨ startsWith ['/', '/'] u.path = true then
      ['/', '/'] ++ u.netloc ++
        (if u.path ≠ [] ∧ startsWith ['/'] u.path = false then '/' :: u.path else u.path)
    else u.path
  let p := if u.scheme ≠ [] then u.scheme ++ ':' :: p else p
  let p := if u.query ≠ [] then p ++ '?' :: u.query else p
  if u.fragment ≠ [] then p ++ '#' :: u.fragment else p

/-- `_splitparams`: the parameters follow the first `;` of the last segment of a path. -/
def splitParams (path : Str) : Str × Str :=
  let segs := splitOn '/' path
  match cut ';' (segs.getLastD []) with
  | some (a, b) => (join ['/'] (segs.dropLast ++ [a]), b)
  | none => (path, [])

/-- `urlparse(url, scheme)`: like `urlsplit`, with the parameters cut from the path. -/
def urlparse (ok : Str → Bool) (dflt url : Str) : Option (Url × Str) :=
  (urlsplit ok dflt url).map fun u =>
    if u.scheme ∈ usesParams then
      let (p, params) := splitParams u.path
      ({ u with path := p }, params)
    else (u, [])

/-- `urlunparse` -/
def urlunparse (u : Url) (params : Str) : Str :=
  urlunsplit (if params ≠ [] then { u with path := u.path ++ ';' :: params } else u)

/-- `segments[1:-1] = filter(None, segments[1:-1])` -/
def filterMid (segs : List Str) : List Str :=
  match segs with
  | [] => []
  | [s] => [s]
  | s :: rest => s :: (rest.dropLast.filter (· ≠ []) ++ [rest.getLastD []])

/-- One step of the loop of `urljoin` over the segments. -/
def dotStep (res : List Str) (seg : Str) : List Str :=
  if seg = ['.', '.'] then res.dropLast
  else if seg = ['.'] then res
  else res ++ [seg]

/-- The path `urljoin` makes of the path of the base and a path that is not empty. -/
def joinUrlPath (bpath path : Str) : Str :=
  let base := splitOn '/' bpath
  let base := if base.getLastD [] ≠ [] then base.dropLast else base
  let segs :=
    if startsWith ['/'] path then splitOn '/' path else filterMid (base ++ splitOn '/' path)
  let res := segs.foldl dotStep []
  let res := if segs.getLastD [] = ['.'] ∨ segs.getLastD [] = ['.', '.'] then res ++ [[]] else res
  let p := join ['/'] res
  if p = [] then ['/'] else p

/-- `urljoin(base, url)` -/
def urljoin (ok : Str → Bool) (base url : Str) : Option Str :=
  if base = [] then some url
  else if url = [] then some base
  else
    match urlparse ok [] base with
    | none => none
    | some (b, bparams) =>
      match urlparse ok b.scheme url with
      | none => none
      | some (u, params) =>
        if u.scheme ≠ b.scheme ∨ u.scheme ∉ usesRelative then some url
        else if u.scheme ∈ usesNetloc ∧ u.netloc ≠ [] then some (urlunparse u params)
        else
          let u := if u.scheme ∈ usesNetloc then { u with netloc := b.netloc } else u
          if u.path = [] ∧ params = [] then
            some (urlunparse { u with path := b.path,
                                      query := if u.query = [] then b.query else u.query } bparams)
          else some (urlunparse { u with path := joinUrlPath b.path u.path } params)

end Py
