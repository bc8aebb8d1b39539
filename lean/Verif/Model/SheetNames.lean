import Verif.Model.Backend
import Verif.Model.Urls
/-
Model of the listing of sheets in `pandalone/xleash/io/backend.py` and `pandalone/xleash/io/_xlrd.py`.
-/
namespace Model
open Py

/-- A backend (`ABCBackend`, `pandalone/xleash/io/backend.py:27-52`): its bids, and the names of the sheets of the workbooks that it
can open (`_open_book` and, of *xlrd*, `sheet_names`). -/
structure Plugin where
  bid : Str → Option Int
  book : Str → Except PyErr (List Str)

/-- The URL of a workbook and the backend for it: `path2url` and `decide_backend`, `pandalone/xleash/io/backend.py:88-103, 105-107,
83-84, 110-111`; `decide_backend` computes the URL of the URL for the bids. -/
def urlAndBackend (ok : Str → Bool) (cwd : Str) (plugins : List Plugin) (wb : Str) : Except PyErr (Str × Plugin) :=
  match path2url ok cwd wb with
  | none => .error .valueError
  | some url => match path2url ok cwd url with
    | none => .error .valueError
    | some url2 => match decideBackend (plugins.map (fun p => (p, p.bid url2))) with
      | .error e => .error e
      | .ok p => .ok (url, p)

/-- `SimpleSheetsFactory.list_sheetnames`, `pandalone/xleash/io/backend.py:105-108`, with `XlrdBackend.list_sheetnames`,
`pandalone/xleash/io/_xlrd.py:232-235`. -/
def listSheetNames (ok : Str → Bool) (cwd : Str) (plugins : List Plugin) (wb : Str) : Except PyErr (List Str) :=
  match urlAndBackend ok cwd plugins wb with
  | .error e => .error e
  | .ok (url, p) => p.book url

/-- `SimpleSheetsFactory.fetch_sheet` of a workbook, and `_open_sheet`, `pandalone/xleash/io/backend.py:83-86, 110-115`, with
`XlrdBackend.open_sheet`, `pandalone/xleash/io/_xlrd.py:223-230`: the URL of the workbook and the position of the sheet in it. Sheets
are true. -/
def openSheetOf (ok : Str → Bool) (cwd : Str) (plugins : List Plugin) (wb : Str) (id : ShId) : Except PyErr (Str × Nat) :=
  match urlAndBackend ok cwd plugins wb with
  | .error e => .error e
  | .ok (url, p) => match p.book url with
    | .error e => .error e
    | .ok names => match openSheetBy names id with
      | .error e => .error e
      | .ok i => .ok (url, i)

end Model
