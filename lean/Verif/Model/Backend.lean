import Verif.Model.Basic
import Verif.Py.Regex
/-
Model of the sheets factories of `pandalone/xleash/io/backend.py`, of the choice of sheets of
`pandalone/xleash/io/_xlrd.py` and of the Excel file names of `pandalone/xlsutils.py`.
-/
namespace Model
open Py

/-! ### Excel file names -/

/-- A letter under `re.IGNORECASE`: any character whose capital is `x` (for `S` also the long s). -/
def Re.chrU (x : Char) : Re := .cls (fun y => upperChar y == x)

/-- `[xm]?` under `re.IGNORECASE`. -/
def reXM : Re := Re.opt (.cls (fun y => upperChar y == 'X' || upperChar y == 'M'))

/-- The common part `\.xl((s[xm]?|t[xm]?)|w|m)` of the regexes at `pandalone/xlsutils.py:23-24`. -/
def reXlExt : Re :=
  .seqs [Re.chr '.', Re.chrU 'X', Re.chrU 'L',
    .alt (.alt (.seq (Re.chrU 'S') reXM) (.seq (Re.chrU 'T') reXM)) (.alt (Re.chrU 'W') (Re.chrU 'M'))]

/-- `_xl_extensions`, `pandalone/xlsutils.py:23`. -/
def reXlExtEnd : Re := .seq reXlExt .eos

/-- `xlsutils.is_excel_file` (pandalone/xlsutils.py:30-31), as a truth value. -/
def isExcelFile (path : Str) : Bool := (reXlExtEnd.search path).isSome

/-- `\b` after a letter: the end, or a character that is no word character. `isWord` is `\w`. -/
def boundary (isWord : Char → Bool) (s : Str) : Bool :=
  match s with
  | [] => true
  | c :: _ => !isWord c

/-- `_xl_extensions_anywhere.search(path)`, `pandalone/xlsutils.py:24`, as a truth value. -/
def xlExtAnywhere (isWord : Char → Bool) : Str → Bool
  | [] => false
  | c :: t => (reXlExt.m (c :: t) Caps.empty (fun s _ => if boundary isWord s then some () else none)).isSome
      || xlExtAnywhere isWord t

/-- `XlrdBackend.bid` (pandalone/xleash/io/_xlrd.py:216-221), given the path of the url: the functions
of `urllib` that extract it are not modelled. -/
def xlrdBid (isWord : Char → Bool) (url : Option (Str × Str)) : Option Int :=
  match url with
  | none => none
  | some (wbUrl, path) =>
    if wbUrl.isEmpty then none
    else if xlExtAnywhere isWord path then some 100 else none

/-! ### Choosing a backend -/

/-- `sorted(bids, key=score)`: stable insertion sort. -/
def insertBid {β : Type} (x : β × Int) : List (β × Int) → List (β × Int)
  | [] => [x]
  | y :: t => if x.2 ≤ y.2 then x :: y :: t else y :: insertBid x t

/-- Stable sort by score: later elements go after the equal ones before them. -/
def sortBids {β : Type} : List (β × Int) → List (β × Int)
  | [] => []
  | x :: t => insertBid x (sortBids t)

/-- `SimpleSheetsFactory.decide_backend` (pandalone/xleash/io/backend.py:88-103). Scores are integers.
`bids` are the backends with the scores they bid. The test that the winner is an `ABCBackend` is
left out. -/
def decideBackend {β : Type} (bids : List (β × Option Int)) : Except PyErr β :=
  let given := bids.filterMap (fun b => b.2.map (fun s => (b.1, s)))
  match (sortBids given).getLast? with
  | none => .error .valueError
  | some w => .ok w.1

/-! ### Opening a sheet of a workbook -/

/-- A sheet id: nothing, a number or a text. -/
inductive ShId
  | none
  | num (i : Int)
  | text (s : Str)
  deriving DecidableEq, Repr

/-- `xlrd.Book.sheet_by_index` of a book of `n` loaded sheets (*xlrd*, not repo code): an index of the
Python list of sheets. The result is the position of the sheet. -/
def sheetByIndex (n : Nat) (i : Int) : Except PyErr Nat :=
  match seqIndex n i with
  | some j => .ok j
  | .none => .error .lookupError

/-- `xlrd.Book.sheet_by_name` (*xlrd*, not repo code): the first sheet with this name. -/
def sheetByName (names : List Str) (s : Str) : Except PyErr Nat :=
  match names.findIdx? (· == s) with
  | some j => .ok j
  | .none => .error .xlrdError

/-- `_open_sheet_by_name_or_index` (pandalone/xleash/io/_xlrd.py:123-142) on a book with these sheet
names. -/
def openSheetBy (names : List Str) (id : ShId) : Except PyErr Nat :=
  match id with
  | .none => sheetByIndex names.length 0
  | .num i => sheetByIndex names.length i
  | .text s =>
    match sheetByName names s with
    | .ok j => .ok j
    | .error e =>
      match pyInt s with
      | .none => .error e
      | some i => sheetByIndex names.length i

/-! ### The cache of sheets -/

/-- A sheet object: its identity `oid` and the ids it reports (`get_sheet_ids`, the workbook and the ids in
it). The Python `is` of two objects is the equality of all this. -/
structure SheetObj where
  oid : Nat
  wb : Str
  ids : List ShId
  deriving DecidableEq, Repr

/-- A cache key: workbook id and sheet id. -/
abbrev SKey := Str × ShId

/-- A `SheetsFactory`: its `_cached_sheets` and, as ghost state, the objects closed so far and the
number of openings asked from backends or sheets. -/
structure Factory where
  cache : List (Str × List (ShId × SheetObj))
  closed : List SheetObj
  opened : Nat

/-- `SheetsFactory.__init__` (pandalone/xleash/io/backend.py:134-142). -/
def Factory.new : Factory := ⟨[], [], 0⟩

/-- `SheetsFactory._cache_get` (pandalone/xleash/io/backend.py:144-148). -/
def Factory.get (f : Factory) (k : SKey) : Option SheetObj :=
  match dget f.cache k.1 with
  | some shs => dget shs k.2
  | none => none

/-- `SheetsFactory._cache_put` (pandalone/xleash/io/backend.py:150-156). -/
def Factory.put (f : Factory) (k : SKey) (s : SheetObj) : Factory :=
  { f with cache := dset f.cache k.1 (dset ((dget f.cache k.1).getD []) k.2 s) }

/-- `SheetsFactory._close_sheet` (pandalone/xleash/io/backend.py:183-190). Objects are compared by
identity. -/
def Factory.closeSheet (f : Factory) (k : SKey) : Factory :=
  match f.get k with
  | none => f
  | some s =>
    { f with
      closed := s :: f.closed
      cache := f.cache.map (fun w => (w.1, w.2.filter (fun e => e.2 ≠ s))) }

/-- `utils.as_list` (pandalone/utils.py:91-96) for ids: a sequence as it is, one id alone, and `None`
as the list holding `None`. -/
inductive Ids (α : Type)
  | none
  | one (x : α)
  | many (xs : List α)

/-- The workbook ids after `as_list` (pandalone/xleash/io/backend.py:174), `None` and `''` left out as
they are at line 178. -/
def wbIds (own : Str) : Ids Str → List Str
  | .none => [own].filter (fun w => !w.isEmpty)
  | .one x => [own, x].filter (fun w => !w.isEmpty)
  | .many xs => (own :: xs).filter (fun w => !w.isEmpty)

/-- The sheet ids after `as_list` (pandalone/xleash/io/backend.py:175): not giving any adds `None`. -/
def shIds (own : List ShId) : Ids ShId → List ShId
  | .none => own ++ [ShId.none]
  | .one x => own ++ [x]
  | .many xs => own ++ xs

/-- `SheetsFactory._derive_sheet_keys` (pandalone/xleash/io/backend.py:162-181): the product of the ids.
The code takes a `set` of them, in no particular order: see `Factory.addKeys`. -/
def deriveKeys (s : SheetObj) (wbs : Ids Str) (shs : Ids ShId) : List SKey :=
  (wbIds s.wb wbs).flatMap (fun w => (shIds s.ids shs).map (fun i => (w, i)))

/-- The loop of `SheetsFactory.add_sheet` (pandalone/xleash/io/backend.py:210-214) over the keys, in the
order given. -/
def Factory.addKeys (f : Factory) (s : SheetObj) : List SKey → Factory
  | [] => f
  | k :: ks =>
    let f1 := match f.get k with
      | some old => if old ≠ s then f.closeSheet k else f
      | none => f
    (f1.put k s).addKeys s ks

/-- `SheetsFactory.add_sheet` (pandalone/xleash/io/backend.py:199-214); `order` is the order in which
the set of keys is visited; the assertion at line 179 fails when there is no key. -/
def Factory.add (order : List SKey → List SKey) (f : Factory) (s : SheetObj) (wbs : Ids Str) (shs : Ids ShId) :
    Except PyErr Factory :=
  let keys := deriveKeys s wbs shs
  if keys.isEmpty then .error .assertionError else .ok (f.addKeys s (order keys))

/-- The loop of `SheetsFactory.add_sheet` (pandalone/xleash/io/backend.py:210-214) when the `_close` of some sheets raises (line 186, before
anything is removed): the factory then, the keys registered, and whether it raised. -/
def Factory.addKeysOr (fails : SheetObj → Bool) (f : Factory) (s : SheetObj) : List SKey → Factory × List SKey × Bool
  | [] => (f, [], false)
  | k :: ks =>
    match f.get k with
    | some old =>
      if old ≠ s then
        if fails old then (f, [], true)
        else let r := Factory.addKeysOr fails ((f.closeSheet k).put k s) s ks
          (r.1, k :: r.2.1, r.2.2)
      else let r := Factory.addKeysOr fails (f.put k s) s ks
        (r.1, k :: r.2.1, r.2.2)
    | none => let r := Factory.addKeysOr fails (f.put k s) s ks
      (r.1, k :: r.2.1, r.2.2)

/-- The cached sheets, as `SheetsFactory.close` (pandalone/xleash/io/backend.py:194-195) visits them. -/
def Factory.sheets (f : Factory) : List SheetObj := f.cache.flatMap (fun w => w.2.map (fun e => e.2))

/-- The loops of `SheetsFactory.close` (pandalone/xleash/io/backend.py:194-196) over sheets of which some raise when closed (each time, if
cached twice): the sheets closed, and whether it raised. -/
def closeUntil (fails : SheetObj → Bool) : List SheetObj → List SheetObj × Bool
  | [] => ([], false)
  | s :: ss => if fails s then ([], true) else
    let r := closeUntil fails ss
    (s :: r.1, r.2)

/-- `SheetsFactory.close` (pandalone/xleash/io/backend.py:192-197) when `_close_all` of some sheets raises: the cache is only emptied at the
end. -/
def Factory.closeOr (fails : SheetObj → Bool) (f : Factory) : Factory × Bool :=
  let r := closeUntil fails f.sheets
  ({ f with closed := r.1 ++ f.closed, cache := if r.2 then f.cache else [] }, r.2)

/-- `SheetsFactory.close` (pandalone/xleash/io/backend.py:192-197): `_close_all` of every cached sheet, none of which raises. -/
def Factory.close (f : Factory) : Factory :=
  { f with
    closed := f.cache.flatMap (fun w => w.2.map (fun e => e.2)) ++ f.closed
    cache := [] }

/-- What opens sheets: the backends and the sheets' own `open_sibling_sheet`; either may fail. The
result may depend on how many openings were made before. -/
structure Openers where
  /-- `_open_sheet(path2url(wb), sheet_id)` (pandalone/xleash/io/backend.py:110-115) -/
  book : Nat → Option Str → ShId → Except PyErr SheetObj
  /-- `base_sheet.open_sibling_sheet(sheet_id)` -/
  sibling : Nat → SheetObj → ShId → Except PyErr SheetObj

/-- The end of the two branches of `fetch_sheet` that add what they open: the cached sheet, else a
new one which is added under the ids asked. -/
def Factory.cachedOr (order : List SKey → List SKey) (f : Factory) (wb : Str) (sh : ShId)
    (op : Nat → Except PyErr SheetObj) : Factory × Except PyErr SheetObj :=
  match f.get (wb, sh) with
  | some s => (f, .ok s)
  | none =>
    let f1 := { f with opened := f.opened + 1 }
    match op f.opened with
    | .error e => (f1, .error e)
    | .ok s => match f1.add order s (.one wb) (.one sh) with
      | .error e => (f1, .error e)
      | .ok f2 => (f2, .ok s)

/-- `SheetsFactory.fetch_sheet` (pandalone/xleash/io/backend.py:216-245). -/
def Factory.fetch (order : List SKey → List SKey) (o : Openers) (f : Factory) (wb : Option Str) (sh : ShId)
    (base : Option SheetObj) : Factory × Except PyErr SheetObj :=
  match wb, base with
  | none, some b =>
    if sh = .none then (f, .ok b)
    else f.cachedOr order b.wb sh (fun n => o.sibling n b sh)
  | none, none => ({ f with opened := f.opened + 1 }, o.book f.opened none sh)
  | some w, _ => f.cachedOr order w sh (fun n => o.book n (some w) sh)

/-- `SimpleSheetsFactory.fetch_sheet` (pandalone/xleash/io/backend.py:73-86): the branch that opens a
sibling does not assign `sheet`, so that the assertion raises `UnboundLocalError`. -/
def simpleFetch (o : Openers) (wb : Option Str) (sh : ShId) (base : Option SheetObj) : Except PyErr SheetObj :=
  match wb, base with
  | none, some b =>
    if sh = .none then .ok b
    else match o.sibling 0 b sh with
      | .error e => .error e
      | .ok _ => .error .unboundLocal
  | wb, _ => o.book 0 wb sh

end Model
