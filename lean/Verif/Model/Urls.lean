import Verif.Py.Url
/-
Model of the functions of `pandalone/utils.py` that turn paths into URLs and back, and of the way the
`xlrd` backend opens a workbook by its URL.  On POSIX: `os.sep` is `/`.
-/
namespace Model
open Py

/-- `pandalone/utils.py:134` `_unc_prefix`, the four characters `\\?\`. -/
def uncPrefix : Str := ['\\', '\\', '?', '\\']

/-- A slash of either kind. -/
def isSlash (c : Char) : Bool := decide (c = '/') || decide (c = '\\')

/-- Whether the last two characters are a non-slash and a slash (given the text reversed). -/
def endsInSlash : Str → Bool
  | y :: x :: _ => isSlash y && !isSlash x
  | _ => false

/-- `pandalone/utils.py:133` `_is_dir_regex.search(s)`, the expression `[^/\\][/\\]$`; the `$` of Python also
matches before a newline that ends the text. -/
def isDirText (s : Str) : Bool :=
  match s.reverse with
  | '\n' :: r => endsInSlash r
  | r => endsInSlash r

/-- `pandalone/utils.py:137-142` `normpath` (the result of `osp.normpath` is never empty). -/
def normpath (path : Str) : Str :=
  let p := osNormpath path
  if isDirText path && p.getLast? != some '/' then p ++ ['/'] else p

/-- `pandalone/utils.py:178-187` `urlpath2path`.  Simplification: `p[-1]` of an empty path is an
`IndexError` only where `url` ends with a slash, and then `p` is not empty. -/
def urlpath2path (U : Utf8Lib) (url : Str) : Str :=
  let p := unquote U url
  let p := if isDirText url && p.getLast? != some '/' then p ++ ['/'] else p
  if p.length > 200 then p ++ uncPrefix else p

/-- The characters that `[a-z]` matches under `re.I`. -/
def driveLetter (c : Char) : Bool :=
  isAsciiLetter c || decide (c.toNat ∈ [0x130, 0x131, 0x17f, 0x212a])

/-- `(.*)$`: the rest of a text with no newline but perhaps a last one, which is left out. -/
def dotStar (s : Str) : Option Str :=
  let r := if s.getLast? = some '\n' then s.dropLast else s
  if '\n' ∈ r then none else some r

/-- `pandalone/utils.py:132` `_file_drive_regex.match(path)`, the expression `^([a-z]):(/)?(.*)$`: the
letter, whether the slash is there, and the rest. -/
def driveMatch : Str → Option (Char × Bool × Str)
  | c :: ':' :: rest =>
    if driveLetter c then
      match rest with
      | '/' :: r => (dotStar r).map fun t => (c, true, t)
      | r => (dotStar r).map fun t => (c, false, t)
    else none
  | _ => none

/-- The text `file` -/
def fileScheme : Str := ['f', 'i', 'l', 'e']

/-- `pandalone/utils.py:190-245` `path2url`, called with a text and without flags, as all its callers do; `cwd`
is `os.getcwd()`.  `none` is the `ValueError` of `urllib`. -/
def path2url (ok : Str → Bool) (cwd path : Str) : Option Str :=
  if path = [] then some path
  else
    -- Trim UNCs
    let path := if startsWith uncPrefix path then path.drop 3 else path
    let path := replace1 '\\' ['/'] path
    let joined : Option Str :=
      match driveMatch path with
      | some (c, slash, rest) =>
        let path := if slash then path else c :: ':' :: '/' :: rest
        some (fileScheme ++ [':', '/', '/', '/'] ++ path)
      | none =>
        match urljoin ok (fileScheme ++ [':']) (quote (cwd ++ ['/'])) with
        | none => none
        | some base => urljoin ok base path
    match joined with
    | none => none
    | some url =>
      match urlsplit ok [] url with
      | none => none
      | some parts =>
        some (urlunsplit { parts with path := replace1 '\\' ['/'] (normpath parts.path) })

/-- What a workbook is read from. -/
inductive Source where
  /-- `xlrd.open_workbook(path)` -/
  | file (path : Str)
  /-- `request.urlopen(url)` -/
  | remote (url : Str)
deriving DecidableEq, Repr

/-- `pandalone/xleash/io/_xlrd.py:237-253` `_open_book`: what is opened for a URL.  Simplification: the options
of `xlrd` are left out; those taken from the parameters of the URL (line 239) make the assignment of line
241 fail, which is `none` here, as is the `ValueError` of `urlparse`. -/
def openBook (ok : Str → Bool) (U : Utf8Lib) (url : Str) : Option Source :=
  match urlparse ok [] url with
  | none => none
  | some (parts, params) =>
    if params ≠ [] then none
    else if parts.scheme = fileScheme then some (.file (urlpath2path U parts.path))
    else some (.remote url)

/-- `pandalone/xleash/io/backend.py:110-115` `_open_sheet`, together with line 83 of `fetch_sheet`: what is
opened for a workbook named by a text (`decide_backend`, which computes the URL of the URL at line 91, keeps
it to itself). -/
def openWorkbook (ok : Str → Bool) (U : Utf8Lib) (cwd wb : Str) : Option Source :=
  match path2url ok cwd wb with
  | none => none
  | some url => openBook ok U url

end Model
