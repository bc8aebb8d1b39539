import Verif.Model.Utils
import Verif.Model.Basic
/-
Model of the functions of `pandalone/xlsutils.py` that put VBA code into Excel workbooks. Excel itself is a parameter.
-/
namespace Model
open Py

/-- A VBA component of a workbook: `Name`, `Type` (1 for modules, 100 for sheets and the workbook itself) and its code. -/
structure VbComp where
  name : Str
  type : Nat
  code : Str
  deriving DecidableEq, Repr

/-- How Excel is asked to save a workbook, and the components it has then. -/
inductive SaveCall
  | save (comps : List VbComp)
  | saveAs (path : Str) (comps : List VbComp)
  deriving DecidableEq, Repr

/-- Excel and the file-system: how Excel compares names; what a file holds when imported (a name, a type and code; `none` is a `com_error`);
the name given to an imported component, other than those there; which names may be given to components; whether saving succeeds; and
the current folder. -/
structure ExcelLib where
  fold : Str → Str
  load : Str → Option (Str × Nat × Str)
  freeName : List Str → Str → Str
  validName : Str → Bool
  saves : SaveCall → Bool
  cwd : Str

/-- An open workbook: `Path` (empty if it was never saved), `Name`, whether the access to its VBA project is refused, its components, and
`Application.DisplayAlerts`. -/
structure Workbook where
  path : Str
  name : Str
  locked : Bool
  comps : List VbComp
  alerts : Bool
  deriving DecidableEq, Repr

/-- `Workbook.FullName` of Excel. -/
def Workbook.fullName (w : Workbook) : Str :=
  if w.path = [] then w.name else w.path ++ '\\' :: w.name

/-- A separator of folders on Windows. -/
def ntSep (c : Char) : Bool := c == '/' || c == '\\'

/-- The part of a path after its last separator. -/
def ntTail (p : Str) : Str := (p.reverse.takeWhile (fun c => !ntSep c)).reverse

/-- `os.path.basename(p)` on Windows (`ntpath`, standard library). Network drives are left out. -/
def ntBasename (p : Str) : Str :=
  match p with
  | _ :: ':' :: rest => ntTail rest
  | p => ntTail p

/-- `os.path.splitext(p)[1]` on Windows (`genericpath._splitext`, standard library). -/
def ntExt (p : Str) : Str :=
  let name := ntTail p
  let body := (name.reverse.takeWhile (fun c => c != '.')).reverse
  let stem := name.take (name.length - body.length - 1)
  if name.contains '.' && stem.any (fun c => c != '.') then '.' :: body else []

/-- `pandalone/xlsutils.py:99-101` `basename()`: the name of the module for a file. -/
def moduleName (f : Str) : Str :=
  (ntBasename f).take ((ntBasename f).length - (ntExt (ntBasename f)).length)

/-- `pandalone/xlsutils.py:93-103` `_gather_files`, for the files found by `glob`. -/
def gatherFiles (files : List Str) : List (Str × Str) :=
  files.foldl (fun acc f => dset acc (moduleName f) f) []

/-- `x in it` for an iterator: what is left of it. -/
def consumeIn (x : Str) : List Str → Bool × List Str
  | [] => (false, [])
  | y :: ys => if y = x then (true, ys) else consumeIn x ys

/-- The loop of `_remove_vba_modules`, `pandalone/xlsutils.py:124-132`: the components that are left; `it` is the iterator of names. -/
def removeLoop : List Str → List VbComp → List VbComp
  | _, [] => []
  | it, c :: cs =>
    if c.type ≠ 1 then c :: removeLoop it cs
    else
      let r := consumeIn (lower c.name) it
      if r.1 then removeLoop r.2 cs else c :: removeLoop r.2 cs

/-- `pandalone/xlsutils.py:114-132` `_remove_vba_modules`. A `map` is true, even when it is exhausted. `str.lower` is ASCII here. -/
def removeVbaModules (comps : List VbComp) (names : List Str) : List VbComp :=
  if names = [] then comps.filter (fun c => decide (c.type ≠ 1))
  else removeLoop (names.map lower) comps

/-- `xl_vbcs.Item(name)` and `xl_vbcs.Remove(...)`, `pandalone/xlsutils.py:146-156`: Excel refuses to remove the components of sheets, which is
a `com_error` as well. -/
def removeOld (X : ExcelLib) (comps : List VbComp) (name : Str) : List VbComp :=
  match comps with
  | [] => []
  | c :: cs =>
    if X.fold c.name = X.fold name then (if c.type = 100 then c :: cs else cs)
    else c :: removeOld X cs name

/-- `pandalone/xlsutils.py:135-165` `_import_vba_files`: the components, and whether there was no exception. The files are relative to the
current folder. Excel refuses names that are not valid or used by other components. -/
def importVbaFiles (X : ExcelLib) : List (Str × Str) → List VbComp → List VbComp × Bool
  | [], comps => (comps, true)
  | (name, file) :: rest, comps =>
    let comps := removeOld X comps name
    match X.load file with
    | none => (comps, false)
    | some (n, type, code) =>
      if X.validName name && comps.all (fun c => decide (X.fold c.name ≠ X.fold name)) then
        importVbaFiles X rest (comps ++ [⟨name, type, code⟩])
      else (comps ++ [⟨X.freeName (comps.map VbComp.name) n, type, code⟩], false)

/-- `os.path.join(folder, name)` on Windows, for a name without separators and drive, and a folder without a colon but that
of its drive. -/
def ntJoin (folder name : Str) : Str :=
  match folder.getLast? with
  | none => name
  | some c => if ntSep c || c == ':' then folder ++ name else folder ++ '\\' :: name

/-- `SaveAs` of Excel without alerts, `pandalone/xlsutils.py:180-188`: the workbook, how it was saved, and whether there was no exception. -/
def saveQuietly (X : ExcelLib) (w : Workbook) (path : Str) : Workbook × List SaveCall × Bool :=
  let c := SaveCall.saveAs path w.comps
  if X.saves c then ({ w with alerts := true }, [c], true) else ({ w with alerts := false }, [], false)

/-- `pandalone/xlsutils.py:167-188` `_save_workbook`. The new name of a workbook saved elsewhere is left out. -/
def saveWorkbook (X : ExcelLib) (w : Workbook) (path : Option Str) : Workbook × List SaveCall × Bool :=
  match path with
  | none =>
    if w.path ≠ [] then
      let c := SaveCall.save w.comps
      if X.saves c then (w, [c], true) else (w, [], false)
    else saveQuietly X w (ntJoin X.cwd w.name)
  | some p => if p ≠ [] then saveQuietly X w p else (w, [], true)

/-- `pandalone/xlsutils.py:191-205` `_save_excel_as_macro_enabled`. `str.lower` is ASCII here. -/
def saveMacroEnabled (X : ExcelLib) (w : Workbook) (newName : Option Str) : Workbook × List SaveCall × Bool :=
  if newName = none ∨ newName = some [] then
    if (lower (ntExt w.fullName)).getLast? ≠ some 'm' then saveWorkbook X w (some (w.fullName ++ ".xlsm".toList))
    else saveWorkbook X w newName
  else saveWorkbook X w newName

/-- `pandalone/xlsutils.py:208-239` `import_vba_into_excel_workbook`, on the workbook to update (`none` when there is none) and for the
files found. The workbook after it, how it was saved, and whether there was no exception. -/
def importVba (X : ExcelLib) (files : List Str) (w : Workbook) (newName : Option Str) : Workbook × List SaveCall × Bool :=
  if w.locked then (w, [], false)
  else if (gatherFiles files).isEmpty then (w, [], true)
  else
    let r := importVbaFiles X (gatherFiles files) w.comps
    let w := { w with comps := r.1 }
    if r.2 then saveMacroEnabled X w newName else (w, [], false)

/-- How a command line ends: with a message, with an exception, or by importing what a wildcard finds into a workbook. -/
inductive VbaCommand
  | exits
  | raises
  | imports (wildcard : Str) (book newName : Option Str)
  deriving DecidableEq, Repr

/-- `import_vba_into_excel_workbook(*args)`: how many arguments may be given. -/
def importArgs (wildcard : Str) : List Str → VbaCommand
  | [] => .imports wildcard none none
  | [b] => .imports wildcard (some b) none
  | [b, n] => .imports wildcard (some b) (some n)
  | _ => .raises

/-- `pandalone/xlsutils.py:249-277` `main`; `dir` is the folder of the package. -/
def vbaMain (dir : Str) : List Str → VbaCommand
  | [] => .raises
  | [_] => .exits
  | _ :: a :: rest =>
    if a = "--pandalone".toList then importArgs (ntJoin dir "*.vba".toList) rest
    else if startsWith "--".toList a then .exits
    else importArgs a rest

/-- `wrkb_fname and xw.Book(wrkb_fname) or xw.books.active`, `pandalone/xlsutils.py:219-221`: `open` gives the workbook of a file (`none` is an
exception), `active` the active one, if any (otherwise a `ValueError`). -/
def chooseBook (open_ : Str → Option Workbook) (active : Option Workbook) : Option Str → Option Workbook
  | none => active
  | some [] => active
  | some b => open_ b

end Model
