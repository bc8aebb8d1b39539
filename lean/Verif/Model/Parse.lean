import Verif.Py.Regex
import Verif.Model.Capture
/-
Model of `pandalone/xleash/_parse.py`: the regular expressions, transcribed, and the functions.
-/
namespace Model
open Py

/-- `[A-Z]` under `re.IGNORECASE`; Python also lets U+0130, U+0131, U+017F and U+212A through. -/
def isAZi (c : Char) : Bool :=
  (0x41 ≤ c.toNat && c.toNat ≤ 0x5a) || (0x61 ≤ c.toNat && c.toNat ≤ 0x7a) ||
  [0x130, 0x131, 0x17f, 0x212a].contains c.toNat

/-- `[123456789]` -/
def isDigit19 (c : Char) : Bool := 0x31 ≤ c.toNat && c.toNat ≤ 0x39

/-- `[_^]` -/
def isMargin (c : Char) : Bool := c == '_' || c == '^'
/-- `[_^.]` -/
def isMarginDot (c : Char) : Bool := c == '_' || c == '^' || c == '.'

/-- `[LURD]` under `re.IGNORECASE`. -/
def isLURD (c : Char) : Bool := "LURDlurd".toList.contains c
/-- `[LURD?123456789]` under `re.IGNORECASE`. -/
def isExpChar (c : Char) : Bool := isLURD c || c == '?' || isDigit19 c

/-- `[123456789]\d*` -/
def reNum : Re := .seq (.cls isDigit19) (.star (.cls isDigitU))

/-- `pandalone/xleash/_parse.py:159,176` `L|U|R|D|LD|LU|UL|UR|RU|RD|DL|DR` -/
def reMoves : Re := .alts
  [.chrI 'L', .chrI 'U', .chrI 'R', .chrI 'D',
   .seq (.chrI 'L') (.chrI 'D'), .seq (.chrI 'L') (.chrI 'U'), .seq (.chrI 'U') (.chrI 'L'),
   .seq (.chrI 'U') (.chrI 'R'), .seq (.chrI 'R') (.chrI 'U'), .seq (.chrI 'R') (.chrI 'D'),
   .seq (.chrI 'D') (.chrI 'L'), .seq (.chrI 'D') (.chrI 'R')]

/-- Group names of an edge. -/
structure EdgeNames where
  col : String
  row : String
  row2 : String
  col2 : String
  mov : String
  mod : String

def stNames : EdgeNames := ⟨"st_col", "st_row", "st_row2", "st_col2", "st_mov", "st_mod"⟩
def ndNames : EdgeNames := ⟨"nd_col", "nd_row", "nd_row2", "nd_col2", "nd_mov", "nd_mod"⟩

/-- `pandalone/xleash/_parse.py:151-152,168-169` the A1 form; `special` is `[_^]` or `[_^.]`. -/
def reA1 (n : EdgeNames) (special : Char → Bool) : Re :=
  .seq (.grp n.col (.alt (.plus (.cls isAZi)) (.cls special)))
       (.grp n.row (.alt reNum (.cls special)))

/-- `-?[123456789]\d*|[_^.]` -/
def reRCnum : Re := .alt (.seq (Re.opt (.chr '-')) reNum) (.cls isMarginDot)

/-- `pandalone/xleash/_parse.py:154-155,171-172` the RC form. -/
def reRC (n : EdgeNames) : Re :=
  .seqs [.chrI 'R', .grp n.row2 reRCnum, .chrI 'C', .grp n.col2 reRCnum]

/-- `pandalone/xleash/_parse.py:158-162,175-179` moves and modifier in parentheses. -/
def reMovMod (n : EdgeNames) : Re :=
  .seqs [.chr '(', .grp n.mov reMoves, Re.opt (.grp n.mod (.cls (fun c => c == '+' || c == '?'))), .chr ')']

/-- `pandalone/xleash/_parse.py:148-163,165-180` an edge. -/
def reEdge (n : EdgeNames) (special : Char → Bool) : Re :=
  .seq (.alt (reA1 n special) (reRC n)) (Re.opt (reMovMod n))

/-- `pandalone/xleash/_parse.py:147` `\s*(?:(?P<sh_name>[^!]+)?!)?` -/
def reSheet : Re :=
  Re.opt (.seq (Re.opt (.grp "sh_name" (.plus (.cls (fun c => c != '!'))))) (.chr '!'))

/-- `pandalone/xleash/_parse.py:181-183` the expansion moves. -/
def reExp : Re := .seq (.chr ':') (.grp "exp_moves" (.plus (.cls isExpChar)))

/-- `pandalone/xleash/_parse.py:164-184` what follows the first edge. -/
def reRange : Re :=
  .seqs [.grp "colon" (.chr ':'), Re.opt (reEdge ndNames isMarginDot), Re.opt reExp]

/-- `pandalone/xleash/_parse.py:185-187` the filters. -/
def reFilt : Re :=
  .seqs [.chr ':', .star (.cls isSpaceU),
    .grp "js_filt" (.seq (.cls (fun c => c == '{' || c == '"' || c == '[')) (.star (.cls (fun _ => true))))]

/-- `pandalone/xleash/_parse.py:145-190` `_regular_xlref_regex`. -/
def reXlref : Re :=
  .seqs [.star (.cls isSpaceU), reSheet, Re.opt (reEdge stNames isMargin), Re.opt reRange, Re.opt reFilt, .eos]

/-- `pandalone/xleash/_parse.py:144` `_encase_regex`. -/
def reEncase : Re :=
  .seqs [.star (.cls isSpaceU), .grp "q" (.cls (fun c => "/\\\"$%&".toList.contains c)),
    .grp "2" (.plus (.cls (fun _ => true))), .backref "q", .star (.cls isSpaceU), .eos]

/-- `pandalone/xleash/_parse.py:193` `_re_exp_moves_splitter`. -/
def reExpSplit : Re := .seq (.cls isLURD) (.plus (.cls isDigitU))

/-- `pandalone/xleash/_parse.py:196-202` `_re_exp_moves_parser`. -/
def reExpParse : Re :=
  .seqs [.grp "moves" (.plus (.cls isLURD)), Re.opt (.grp "times" (.alt (.chr '?') (.plus (.cls isDigitU)))), .eos]

/-- The direction of a letter. -/
def dirOf (c : Char) : Option Dir :=
  if c = 'L' then some .L else if c = 'U' then some .U else if c = 'R' then some .R
  else if c = 'D' then some .D else none

/-- All letters as directions. -/
def dirsOf : Str → Option (List Dir)
  | [] => some []
  | c :: cs => match dirOf c, dirsOf cs with
    | some d, some ds => some (d :: ds)
    | _, _ => none

/-- `pandalone/xleash/_parse.py:290-313,347-349` one piece of the split expansion-moves.
Directions are interpreted here, which the code does later; `times` is `int(times)`. -/
def parsePiece (v : Str) : Option ExpGroup :=
  match reExpParse.match? v with
  | none => none
  | some (_, c) =>
    match (c "moves").bind dirsOf with
    | none => none
    | some dirs => match c "times" with
      | none => some ⟨dirs, none⟩
      | some t => (pyInt t).map (fun n => ⟨dirs, some n.toNat⟩)

/-- All pieces, or none. -/
def parsePieces : List Str → Option (List ExpGroup)
  | [] => some []
  | v :: vs => match parsePiece v, parsePieces vs with
    | some g, some gs => some (g :: gs)
    | _, _ => none

/-- `pandalone/xleash/_parse.py:316-360` `parse_expansion_moves`. -/
def parseExpMoves (s : Str) : Except PyErr (List ExpGroup) :=
  let t := replace1 '?' ['1'] (upper s)
  match parsePieces ((reExpSplit.splitGrp t.length t).filter (fun v => v ≠ [])) with
  | none => .error .valueError
  | some gs => .ok gs

/-- `pandalone/xleash/_parse.py:66-87` `Edge` as parsed, before its moves are interpreted. -/
structure TEdge where
  land : Cell
  mov : Option Str
  mod : Option Str
  deriving DecidableEq, Repr

/-- `pandalone/xleash/_parse.py:93` -/
def topLeftEdge : TEdge := ⟨⟨['^'], ['^']⟩, none, none⟩
/-- `pandalone/xleash/_parse.py:94` -/
def bottomRightEdge : TEdge := ⟨⟨['_'], ['_']⟩, none, none⟩

/-- `pandalone/xleash/_parse.py:97-141` `Edge_new`.  A landing cell with a missing coordinate does not
occur in parsed references; it is represented by an empty text. -/
def edgeNew (row col mov mod : Option Str) (default : Option TEdge) : Option TEdge :=
  if col = none ∧ row = none ∧ mov = none ∧ mod = none then default
  else some ⟨⟨upper (row.getD []), upper (col.getD [])⟩, mov.map upper, mod⟩

/-- `pandalone/xleash/_parse.py:363-372` `_parse_edge`. -/
def parseEdge (c : Caps) (n : EdgeNames) (default : Option TEdge) : Option TEdge :=
  edgeNew ((c n.row).or (c n.row2)) ((c n.col).or (c n.col2)) (c n.mov) (c n.mod) default

/-- `pandalone/xleash/_parse.py:208-212` `CallSpec`. -/
structure CallSpec where
  func : Str
  args : List Doc
  kwds : List (Str × Doc)
  deriving Repr

/-- `pandalone/xleash/_parse.py:237-251` `parse_list`, on the items after the function. -/
def parseCallItems (item1 item2 : Doc) : Except PyErr (Doc × Doc) :=
  match item1, item2 with
  | .list a, .dict k => .ok (.list a, .dict k)
  | .dict k, .list a => .ok (.list a, .dict k)
  | .list a, .null => .ok (.list a, .null)
  | .null, .list a => .ok (.list a, .null)
  | .dict k, .null => .ok (.null, .dict k)
  | .null, .dict k => .ok (.null, .dict k)
  | .null, .null => .ok (.null, .null)
  | _, _ => .error .valueError

/-- `pandalone/xleash/_parse.py:256-270` the three forms; the arguments of Python calls that do not fit
(`TypeError`) are turned into `ValueError` there too. -/
def splitCallSpec : Doc → Except PyErr (Doc × Doc × Doc)
  | .str f => .ok (.str f, .null, .null)
  | .list [f] => (parseCallItems .null .null).map (fun p => (f, p.1, p.2))
  | .list [f, a] => (parseCallItems a .null).map (fun p => (f, p.1, p.2))
  | .list [f, a, b] => (parseCallItems a b).map (fun p => (f, p.1, p.2))
  | .list _ => .error .valueError
  | .dict kvs =>
    if kvs.all (fun p => ["func".toList, "args".toList, "kwds".toList].contains p.1) then
      match dget kvs "func".toList with
      | some f => .ok (f, (dget kvs "args".toList).getD .null, (dget kvs "kwds".toList).getD .null)
      | none => .error .valueError
    else .error .valueError
  | _ => .error .valueError

/-- `pandalone/xleash/_parse.py:215-287` `parse_call_spec`. -/
def parseCallSpec (d : Doc) : Except PyErr CallSpec :=
  match splitCallSpec d with
  | .error e => .error e
  | .ok (f, a, k) =>
    match f with
    | .str f =>
      let args : Option (List Doc) := match a with
        | .null => some []
        | .list a => some a
        | _ => none
      match args with
      | none => .error .valueError
      | some args =>
        let kwds : Option (List (Str × Doc)) := match k with
          | .null => some []
          | .dict k => some k
          | _ => none
        match kwds with
        | none => .error .valueError
        | some kwds => .ok ⟨f, args, kwds⟩
    | _ => .error .valueError

/-- The dictionary returned by `parse_xlref`, without the url. -/
structure Fragment where
  shName : Option Str
  stEdge : Option TEdge
  ndEdge : Option TEdge
  expMoves : Option Str
  opts : Option (List (Str × Doc))
  callSpec : Option CallSpec
  deriving Repr

/-- `pandalone/xleash/_parse.py:429-441` sheet, edges and expansion from the groups. -/
def fragmentEdges (c : Caps) : Option TEdge × Option TEdge :=
  let colon := (c "colon").isSome
  let st := parseEdge c stNames (if colon then some topLeftEdge else none)
  let nd := parseEdge c ndNames (if colon then some bottomRightEdge else none)
  if st = none ∧ nd = none then (some topLeftEdge, some bottomRightEdge) else (st, nd)

/-- `pandalone/xleash/_parse.py:446-459` options and call-specification from the filter text;
`jsonLoads` stands for `json.loads`, `none` being `ValueError`. -/
def parseFilters (jsonLoads : Str → Option Doc) (js : Option Str) :
    Except PyErr (Option (List (Str × Doc)) × Option CallSpec) :=
  match js with
  | none => .ok (none, none)
  | some t => match jsonLoads t with
    | none => .error .valueError
    | some d =>
      let (o, d') : Option Doc × Doc := match d with
        | .dict kvs => (dget kvs "opts".toList, .dict (ddel kvs "opts".toList))
        | d => (none, d)
      let opts : Option (Option (List (Str × Doc))) := match o with
        | none => some none
        | some .null => some none
        | some (.dict kvs) => some (some kvs)
        | some _ => none
      match opts with
      | none => .error .valueError
      | some opts =>
        if d'.truthy then (parseCallSpec d').map (fun cs => (opts, some cs))
        else .ok (opts, none)

/-- `pandalone/xleash/_parse.py:375-461` `parse_xlref_fragment`. -/
def parseFragment (jsonLoads : Str → Option Doc) (s : Str) : Except PyErr Fragment :=
  match reXlref.match? s with
  | none => .error .syntaxError
  | some (_, c) =>
    let (st, nd) := fragmentEdges c
    match parseFilters jsonLoads (c "js_filt") with
    | .error e => .error e
    | .ok (opts, cs) => .ok ⟨c "sh_name", st, nd, c "exp_moves", opts, cs⟩

/-- `pandalone/xleash/_parse.py:205` `_excel_str_translator`. -/
def unsmart (s : Str) : Str := s.map (fun c => if c = '“' ∨ c = '”' then '"' else c)

/-- `urllib.parse.urldefrag`, simplified to splitting at the first `#`: Python versions that drop tabs
and newlines, and normalise the url, are not modelled. -/
def urldefrag (s : Str) : Str × Str :=
  match s.span (fun c => c != '#') with
  | (u, []) => (u, [])
  | (u, _ :: f) => (u, f)

/-- The dictionary returned by `parse_xlref`. `encased` is its entry under the key `xl-ref`, which is
not the key `xl_ref` of the other one. -/
structure XlRef where
  urlFile : Option Str
  frag : Fragment
  xlRef : Str
  encased : Option Str
  deriving Repr

/-- `pandalone/xleash/_parse.py:487-553` `_parse_xlref`. -/
def parseXlref1 (jsonLoads : Str → Option Doc) (s : Str) : Except PyErr XlRef :=
  let t := unsmart s
  let (u, f) := urldefrag t
  if f = [] then .error .syntaxError
  else match parseFragment jsonLoads f with
    | .error e => .error e
    | .ok fr => .ok ⟨if u = [] then none else some u, fr, t, none⟩

/-- `pandalone/xleash/_parse.py:464-484` `parse_xlref`. -/
def parseXlref (jsonLoads : Str → Option Doc) (s : Str) : Except PyErr XlRef :=
  match parseXlref1 jsonLoads s with
  | .error .syntaxError =>
    match reEncase.match? s with
    | none => .error .syntaxError
    | some (_, c) =>
      match parseXlref1 jsonLoads ((c "2").getD []) with
      | .error e => .error e
      | .ok r => .ok { r with encased := some s }
  | r => r

end Model
