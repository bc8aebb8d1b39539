import Verif.Model.SheetNames
/-
Model of a `SheetsFactory` of `pandalone/xleash/io/backend.py` with the workbooks that the backend of `pandalone/xleash/io/_xlrd.py` opens for it.
-/
namespace Model
open Py

/-- `xlrd.Book.sheet_by_index` (*xlrd*, not repo code) of a book that was read at once, as line 246 and 251 of
`pandalone/xleash/io/_xlrd.py` do: a sheet that was unloaded cannot be loaded again. -/
def loadedByIndex (loaded : Nat → Bool) (n : Nat) (i : Int) : Except PyErr Nat :=
  match sheetByIndex n i with
  | .error e => .error e
  | .ok j => if loaded j then .ok j else .error .xlrdError

/-- `_open_sheet_by_name_or_index` (`pandalone/xleash/io/_xlrd.py:123-142`) on a book of which some sheets may have been unloaded; see
`openSheetBy`. Looking up a name in *xlrd* is looking up its number. -/
def openLoaded (loaded : Nat → Bool) (names : List Str) (id : ShId) : Except PyErr Nat :=
  match id with
  | .none => loadedByIndex loaded names.length 0
  | .num i => loadedByIndex loaded names.length i
  | .text s =>
    let byName : Except PyErr Nat := match sheetByName names s with
      | .error e => .error e
      | .ok j => loadedByIndex loaded names.length j
    match byName with
    | .ok j => .ok j
    | .error e =>
      match pyInt s with
      | none => .error e
      | some i => loadedByIndex loaded names.length i

/-- What a factory is used with: the current folder, and its backends (see `path2url` and `Plugin`). None of it changes. -/
structure Surroundings where
  ok : Str → Bool
  cwd : Str
  plugins : List Plugin

/-- A sheet of a workbook with the ids that it reports, `pandalone/xleash/io/_xlrd.py:164-166` `get_sheet_ids`; `n` is its identity. -/
def sheetAt (n : Nat) (url : Str) (names : List Str) (i : Nat) : SheetObj := ⟨n, url, [.text (names.getD i []), .num i]⟩

/-- A factory, and for each sheet object which opened book it belongs to and which number it has there; for each book, the names of its
sheets. A book has the number of the opening it was made by. -/
structure Desk where
  fac : Factory
  home : Nat → Nat × Nat
  names : Nat → List Str

/-- `SheetsFactory()`. -/
def Desk.new : Desk := ⟨Factory.new, fun _ => (0, 0), fun _ => []⟩

/-- Whether a sheet of a book is loaded: no sheet object for it was closed, `pandalone/xleash/io/_xlrd.py:156-158` `_close`. -/
def Desk.loaded (D : Desk) (book i : Nat) : Bool := !D.fac.closed.any (fun s => D.home s.oid == (book, i))

/-- What opens sheets: `_open_sheet` (`pandalone/xleash/io/backend.py:110-115`) with `XlrdBackend.open_sheet`
(`pandalone/xleash/io/_xlrd.py:223-230`), and `XlrdSheet.open_sibling_sheet` (168-170). Without a workbook no backend bids. -/
def Desk.openers (W : Surroundings) (D : Desk) : Openers where
  book n wb sh := match wb with
    | none => .error .valueError
    | some w => match urlAndBackend W.ok W.cwd W.plugins w with
      | .error e => .error e
      | .ok (url, p) => match p.book url with
        | .error e => .error e
        | .ok names => match openSheetBy names sh with
          | .error e => .error e
          | .ok i => .ok (sheetAt n url names i)
  sibling n b sh :=
    let book := (D.home b.oid).1
    match openLoaded (D.loaded book) (D.names book) sh with
    | .error e => .error e
    | .ok i => .ok (sheetAt n b.wb (D.names book) i)

/-- The number of a sheet in its workbook. -/
def SheetObj.number (s : SheetObj) : Nat :=
  match s.ids with
  | [_, .num i] => i.toNat
  | _ => 0

/-- Which book and number the next sheet object has, and which sheets its book has. -/
def Desk.note (D : Desk) (f : Factory) (book number : Nat) (names : List Str) : Desk :=
  ⟨f, fun k => if k = D.fac.opened then (book, number) else D.home k, fun k => if k = book then names else D.names k⟩

/-- `SheetsFactory.fetch_sheet` (`pandalone/xleash/io/backend.py:216-245`). A sheet opened by its workbook is in a new book, a sibling in
that of the base sheet; if nothing is opened, what is noted for the next number is overwritten later. -/
def Desk.fetch (W : Surroundings) (order : List SKey → List SKey) (D : Desk) (wb : Option Str) (sh : ShId) (base : Option SheetObj) :
    Desk × Except PyErr SheetObj :=
  let r := D.fac.fetch order (D.openers W) wb sh base
  let book : Nat := match wb, base with
    | none, some b => (D.home b.oid).1
    | _, _ => D.fac.opened
  let names : List Str := match wb, base with
    | none, some b => D.names (D.home b.oid).1
    | some w, _ => (match listSheetNames W.ok W.cwd W.plugins w with | .ok names => names | .error _ => [])
    | _, _ => []
  let number : Nat := match r.2 with
    | .ok s => s.number
    | .error _ => 0
  (D.note r.1 book number names, r.2)

end Model
