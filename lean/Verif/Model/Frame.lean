import Verif.Model.Lasso
/-
Model of the `df` filter of `pandalone/xleash/_pandas_filters.py`. What *pandas* does is a parameter.
-/
namespace Model
open Py

/-- The argument `header`: `None`, a boolean, a row or many rows. Negative rows are not modelled. -/
inductive Header
  | none
  | bool (b : Bool)
  | row (n : Nat)
  | rows (ns : List Nat)
  deriving DecidableEq

/-- The argument `index_col`: `None`, a column or many columns. Negative columns and names are not modelled. -/
inductive IndexCol
  | none
  | col (n : Nat)
  | cols (ns : List Nat)
  deriving DecidableEq

/-- The argument `skiprows`: `None`, how many rows, or which rows. -/
inductive SkipRows
  | none
  | first (n : Nat)
  | those (ns : List Nat)
  deriving DecidableEq

/-- The argument `usecols`: `None`, up to which column, letters of columns, or which columns. -/
inductive UseCols
  | none
  | upTo (n : Nat)
  | letters (s : Str)
  | those (ns : List Nat)
  deriving DecidableEq

/-- The arguments of `_df_filter`, `pandalone/xleash/_pandas_filters.py:96-121`. `passed` are `names`, `dtype`,
`true_values`, `false_values`, `nrows`, `na_values`, `parse_dates`, `thousands`, `comment`, `skipfooter` and
`mangle_dupe_cols`; `ignored` are `parse_cols`, `engine`, `keep_default_na`, `verbose` and `convert_float`. -/
structure DfArgs where
  header : Header := .row 0
  indexCol : IndexCol := .none
  useCols : UseCols := .none
  skipRows : SkipRows := .none
  squeeze : Bool := false
  passed : List (Str × Doc) := []
  ignored : List (Str × Doc) := []
  kwds : List (Str × Doc) := []

/-- What the parser of *pandas* is given, `pandalone/xleash/_pandas_filters.py:198-218`. -/
structure ParserCall where
  rows : List (List Doc)
  header : Header
  indexCol : IndexCol
  hasIndexNames : Bool
  useCols : UseCols
  skipRows : SkipRows
  squeeze : Bool
  passed : List (Str × Doc)
  kwds : List (Str × Doc)

/-- How parsing fails: `EmptyDataError` or otherwise. -/
inductive ParseErr
  | emptyData
  | other (e : PyErr)

/-- *pandas*: `_fill_mi_header`, `_pop_header_name`, `TextParser(...).read()`, whether the output is a
`DataFrame`, its columns given names, and `DataFrame()`. -/
structure FrameLib where
  fillHeader : List Doc → List Bool → List Doc × List Bool
  popName : List Doc → IndexCol → Except PyErr (Doc × List Doc)
  parse : ParserCall → Except ParseErr Doc
  isFrame : Doc → Bool
  setNames : Doc → List Doc → Except PyErr Doc
  emptyFrame : Doc

/-- `pandalone/xleash/_pandas_filters.py:57-93` `_maybe_convert_usecols`: `_range2cols` is not defined. -/
def convertUseCols : UseCols → Except PyErr UseCols
  | .none => .ok .none
  | .upTo n => .ok (.those (List.range (n + 1)))
  | .letters _ => .error .nameError
  | .those ns => .ok (.those ns)

/-- `pandalone/xleash/_pandas_filters.py:149-150`. -/
def unwrapHeader : Header → Header
  | .rows [n] => .row n
  | h => h

/-- How far `skiprows` moves header rows, `pandalone/xleash/_pandas_filters.py:158-159`. -/
def SkipRows.shift : SkipRows → Nat
  | .first n => n
  | _ => 0

/-- `pandalone/xleash/_pandas_filters.py:157-170`: the loop over header rows. The rows after it (changed in
place), and the names or the exception. The fallback for *pandas* before 0.19 is left out. -/
def fillHeaders (L : FrameLib) (idx : IndexCol) (skip : SkipRows) :
    List Nat → List Bool → List (List Doc) → List Doc → List (List Doc) × Except PyErr (List Doc)
  | [], _, data, names => (data, .ok names)
  | n :: ns, ctl, data, names =>
    match data[n + skip.shift]? with
    | none => (data, .error .lookupError)
    | some row =>
      let q := L.fillHeader row ctl
      if idx = .none then fillHeaders L idx skip ns q.2 (data.set (n + skip.shift) q.1) names
      else match L.popName q.1 idx with
        | .error e => (data.set (n + skip.shift) q.1, .error e)
        | .ok (name, row') => fillHeaders L idx skip ns q.2 (data.set (n + skip.shift) row') (names ++ [name])

/-- `pandalone/xleash/_pandas_filters.py:186` `data[row][col] == "" or data[row][col] is None`. -/
def blankCell : Doc → Bool
  | .null => true
  | .str [] => true
  | _ => false

/-- `pandalone/xleash/_pandas_filters.py:183-189`: one column filled downwards. -/
def fillCol (c : Nat) : Doc → List (List Doc) → List (List Doc) × Except PyErr Unit
  | _, [] => ([], .ok ())
  | last, row :: rows =>
    match row[c]? with
    | none => (row :: rows, .error .lookupError)
    | some v =>
      if blankCell v then
        let q := fillCol c last rows
        (row.set c last :: q.1, q.2)
      else
        let q := fillCol c v rows
        (row :: q.1, q.2)

/-- `pandalone/xleash/_pandas_filters.py:181-189`: the loop over the columns of the index. -/
def fillDown (off : Nat) : List Nat → List (List Doc) → List (List Doc) × Except PyErr Unit
  | [], data => (data, .ok ())
  | c :: cs, data =>
    match data[off]? with
    | none => (data, .ok ())
    | some row =>
      match row[c]? with
      | none => (data, .error .lookupError)
      | some last =>
        let q := fillCol c last (data.drop (off + 1))
        match q.2 with
        | .error e => (data.take (off + 1) ++ q.1, .error e)
        | .ok () => fillDown off cs (data.take (off + 1) ++ q.1)

/-- `max(ns)`. -/
def maxOf : List Nat → Except PyErr Nat
  | [] => .error .valueError
  | n :: ns => .ok (ns.foldl max n)

/-- `pandalone/xleash/_pandas_filters.py:172-177`: where the values start. -/
def offsetOf : Header → Except PyErr Nat
  | .none => .error .typeError
  | .bool _ => .error .typeError
  | .row n => .ok (1 + n)
  | .rows ns => match maxOf ns with
    | .error e => .error e
    | .ok n => .ok (1 + n)

/-- `pandalone/xleash/_pandas_filters.py:172-189`. -/
def fillIndex (h : Header) (idx : IndexCol) (data : List (List Doc)) : List (List Doc) × Except PyErr Unit :=
  match idx with
  | .cols cs => match offsetOf h with
    | .error e => (data, .error e)
    | .ok off => fillDown off cs data
  | _ => (data, .ok ())

/-- `pandalone/xleash/_pandas_filters.py:152-170`. -/
def fillHead (L : FrameLib) (h : Header) (idx : IndexCol) (skip : SkipRows) (data : List (List Doc)) :
    List (List Doc) × Except PyErr (List Doc) :=
  match h with
  | .rows ns => fillHeaders L idx skip ns (data.headD [] |>.map (fun _ => true)) data []
  | _ => (data, .ok [])

/-- Pandas expects `''` instead of `None`, `pandalone/xleash/_pandas_filters.py:194`. -/
def noNone : Doc → Doc
  | .null => .str []
  | v => v

/-- `pandalone/xleash/_pandas_filters.py:138-142`: arguments that are refused. -/
def refusedArgs : List Str :=
  ["skip_footer".toList, "chunksize".toList, "date_parser".toList, "converted".toList]

/-- The values as a table. One-dimensional lists and numbers are no tables and fail with `TypeError`; texts and
dictionaries, which can be iterated, are not modelled. -/
def tableOf : Doc → Option (List (List Doc))
  | .list rows => rows.mapM (fun r => match r with | .list cs => some cs | _ => none)
  | _ => none

/-- `has_index_names`, `pandalone/xleash/_pandas_filters.py:191`. -/
def manyRows : Header → Bool
  | .rows ns => decide (1 < ns.length)
  | _ => false

/-- `pandalone/xleash/_pandas_filters.py:191-227`: parse, and give names to the columns. -/
def parseTable (L : FrameLib) (a : DfArgs) (h : Header) (use : UseCols) (names : List Doc) (data : List (List Doc)) :
    Except PyErr Doc :=
  match L.parse ⟨data.map (·.map noNone), h, a.indexCol, manyRows h,
      use, a.skipRows, a.squeeze, a.passed, a.kwds⟩ with
  | .error .emptyData => .ok L.emptyFrame
  | .error (.other e) => .error e
  | .ok out => if (!a.squeeze || L.isFrame out) && !names.isEmpty then L.setNames out names else .ok out

/-- `pandalone/xleash/_pandas_filters.py:147-229` `_df_filter` on a table: the captured lists, as they are
left, and the output or the exception. -/
def dfTable (L : FrameLib) (a : DfArgs) (data : List (List Doc)) : List (List Doc) × Except PyErr Doc :=
  match convertUseCols a.useCols with
  | .error e => (data, .error e)
  | .ok use =>
    let h := unwrapHeader a.header
    let q := fillHead L h a.indexCol a.skipRows data
    match q.2 with
    | .error e => (q.1, .error e)
    | .ok names =>
      let r := fillIndex h a.indexCol q.1
      match r.2 with
      | .error e => (r.1, .error e)
      | .ok () => (r.1, parseTable L a h use names r.1)

/-- `pandalone/xleash/_pandas_filters.py:96-231` `_df_filter`: the captured values as they are left, and what
is returned or raised. -/
def dfFilter {S : Type} (L : FrameLib) (a : DfArgs) (l : Lasso S) : Doc × Except PyErr (FRes S) :=
  match a.header with
  | .bool _ => (l.values, .error .typeError)
  | _ =>
    if a.kwds.any (fun kv => refusedArgs.contains kv.1) then (l.values, .error .notImplemented)
    else if !l.values.truthy then (l.values, .ok (.other L.emptyFrame))
    else match tableOf l.values with
      | none => (l.values, match convertUseCols a.useCols with
        | .error e => .error e
        | .ok _ => .error .typeError)
      | some data =>
        let q := dfTable L a data
        (.list (q.1.map .list), match q.2 with
          | .error e => .error e
          | .ok out => .ok (.lasso { l with values := out }))

end Model
