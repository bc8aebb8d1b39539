import Verif.Model.FactoryThreads
/-
Threads that fetch sheets from one factory, and threads that close it (`pandalone/xleash/io/backend.py`), one operation at a time. Since `close`
puts a new dictionary in place of `_cached_sheets`, it is an operation to read that attribute, and others are on the dictionary that was read.
-/
namespace Model
open Py

/-- What threads share: which dictionary `_cached_sheets` (pandalone/xleash/io/backend.py:142) is now, and what every dictionary of workbooks
and every dictionary of sheets made so far holds, in use or not; the number of the former and the latter made; the sheets that were closed, and
the number of sheets opened. -/
structure OpenFactory where
  now : Nat
  outers : Nat → List (Str × Nat)
  inner : DictRef → List (ShId × SheetObj)
  outersMade : Nat
  made : Nat
  closed : List SheetObj
  opened : Nat

/-- `SheetsFactory.__init__` (pandalone/xleash/io/backend.py:134-142). -/
def OpenFactory.new : OpenFactory := ⟨0, fun _ => [], fun _ => [], 1, 0, [], 0⟩

/-- What is left to do of a call, as the next operation that other threads see and what follows it. A call of `close` returns no sheet.
Simplifications: opening a workbook (line 239) is one operation; an iterator (lines 187, 194 and 195) counts positions in the dictionary as it
is, as if what was deleted had left no hole in it. -/
inductive Doing
  /-- The call ended. -/
  | done (r : Except ThreadErr (Option SheetObj))
  /-- `self._cached_sheets`, read. -/
  | books (k : Nat → Doing)
  /-- `self._cached_sheets = {}`. -/
  | emptied (k : Doing)
  /-- `wb in` a dictionary of workbooks. -/
  | hasBook (o : Nat) (w : Str) (k : Bool → Doing)
  /-- `[wb]` of one. -/
  | getBook (o : Nat) (w : Str) (k : Except ThreadErr DictRef → Doing)
  /-- `[wb] = {}` of one. -/
  | newBook (o : Nat) (w : Str) (k : DictRef → Doing)
  /-- `iter(….values())` of one, which notes the size. -/
  | iterBooks (o : Nat) (k : Nat → Doing)
  /-- `next` on it, at this position: a change of size is noticed first, the end of the dictionary afterwards. -/
  | nextBook (o : Nat) (size pos : Nat) (k : Except ThreadErr (Option DictRef) → Doing)
  /-- `shs.get(sh, None)`. -/
  | getSheet (d : DictRef) (sh : ShId) (k : Option SheetObj → Doing)
  /-- `sh_dict[sh] = sheet`. -/
  | putSheet (d : DictRef) (sh : ShId) (s : SheetObj) (k : Doing)
  /-- `list(sh_dict.items())`. -/
  | items (d : DictRef) (k : List (ShId × SheetObj) → Doing)
  /-- `del sh_dict[sh_id]`. -/
  | delSheet (d : DictRef) (sh : ShId) (k : Except ThreadErr Unit → Doing)
  /-- `iter(sh_dict.values())`. -/
  | iterSheets (d : DictRef) (k : Nat → Doing)
  /-- `next` on it. -/
  | nextSheet (d : DictRef) (size pos : Nat) (k : Except ThreadErr (Option SheetObj) → Doing)
  /-- `sheet._close()` or `sh._close_all()`. -/
  | close (s : SheetObj) (k : Doing)
  /-- `self._open_sheet(url, sheet_id)`. -/
  | openBook (w : Str) (sh : ShId) (k : Except PyErr SheetObj → Doing)

/-- One operation of a thread, where `op` opens workbooks. -/
def Doing.step (op : Nat → Str → ShId → Except PyErr SheetObj) (S : OpenFactory) : Doing → OpenFactory × Doing
  | .done r => (S, .done r)
  | .books k => (S, k S.now)
  | .emptied k =>
    ({ S with
      now := S.outersMade
      outers := fun o => if o = S.outersMade then [] else S.outers o
      outersMade := S.outersMade + 1 }, k)
  | .hasBook o w k => (S, k (dget (S.outers o) w).isSome)
  | .getBook o w k =>
    (S, k (match dget (S.outers o) w with
      | some n => .ok (w, n)
      | none => .error .missingKey))
  | .newBook o w k =>
    ({ S with
      outers := fun o' => if o' = o then dset (S.outers o) w S.made else S.outers o'
      made := S.made + 1 }, k (w, S.made))
  | .iterBooks o k => (S, k (S.outers o).length)
  | .nextBook o size pos k => (S, k (if (S.outers o).length = size then .ok ((S.outers o)[pos]?) else .error .changedSize))
  | .getSheet d sh k => (S, k (dget (S.inner d) sh))
  | .putSheet d sh s k => ({ S with inner := fun d' => if d' = d then dset (S.inner d) sh s else S.inner d' }, k)
  | .items d k => (S, k (S.inner d))
  | .delSheet d sh k =>
    match dget (S.inner d) sh with
    | none => (S, k (.error .missingKey))
    | some _ => ({ S with inner := fun d' => if d' = d then ddel (S.inner d) sh else S.inner d' }, k (.ok ()))
  | .iterSheets d k => (S, k (S.inner d).length)
  | .nextSheet d size pos k =>
    (S, k (if (S.inner d).length = size then .ok (((S.inner d)[pos]?).map (·.2)) else .error .changedSize))
  | .close s k => ({ S with closed := s :: S.closed }, k)
  | .openBook w sh k => ({ S with opened := S.opened + 1 }, k (op S.opened w sh))

/-- `SheetsFactory._cache_get` (pandalone/xleash/io/backend.py:144-148). -/
def cacheGetC (key : SKey) (k : Except ThreadErr (Option SheetObj) → Doing) : Doing :=
  .books (fun o => .hasBook o key.1 (fun b =>
    if b then
      .books (fun o => .getBook o key.1 (fun r => match r with
        | .error e => k (.error e)
        | .ok d => .getSheet d key.2 (fun x => k (.ok x))))
    else k (.ok none)))

/-- `SheetsFactory._cache_put` (pandalone/xleash/io/backend.py:150-156). -/
def cachePutC (key : SKey) (s : SheetObj) (k : Except ThreadErr Unit → Doing) : Doing :=
  .books (fun o => .hasBook o key.1 (fun b =>
    if b then
      .books (fun o => .getBook o key.1 (fun r => match r with
        | .error e => k (.error e)
        | .ok d => .putSheet d key.2 s (k (.ok ()))))
    else .books (fun o => .newBook o key.1 (fun d => .putSheet d key.2 s (k (.ok ()))))))

/-- The inner loop of `SheetsFactory._close_sheet` (pandalone/xleash/io/backend.py:188-190), over the items read before. -/
def sweepOneC (t : SheetObj) (d : DictRef) (k : Except ThreadErr Unit → Doing) : List (ShId × SheetObj) → Doing
  | [] => k (.ok ())
  | (sh, x) :: l =>
    if x = t then
      .delSheet d sh (fun r => match r with
        | .error e => k (.error e)
        | .ok () => sweepOneC t d k l)
    else sweepOneC t d k l

/-- The outer loop of `SheetsFactory._close_sheet` (pandalone/xleash/io/backend.py:187-190): `left` dictionaries of the `size` noted are left. -/
def sweepC (t : SheetObj) (o size : Nat) (k : Except ThreadErr Unit → Doing) : Nat → Doing
  | 0 => .nextBook o size size (fun r => match r with
    | .error e => k (.error e)
    | .ok _ => k (.ok ()))
  | left + 1 => .nextBook o size (size - (left + 1)) (fun r => match r with
    | .error e => k (.error e)
    | .ok none => k (.ok ())
    | .ok (some d) => .items d (fun l => sweepOneC t d (fun r => match r with
      | .error e => k (.error e)
      | .ok () => sweepC t o size k left) l))

/-- `SheetsFactory._close_sheet` (pandalone/xleash/io/backend.py:183-190). -/
def closeSheetC (key : SKey) (k : Except ThreadErr Unit → Doing) : Doing :=
  cacheGetC key (fun r => match r with
    | .error e => k (.error e)
    | .ok none => k (.ok ())
    | .ok (some t) => .close t (.books (fun o => .iterBooks o (fun size => sweepC t o size k size))))

/-- The loop of `SheetsFactory.add_sheet` (pandalone/xleash/io/backend.py:210-214). -/
def addKeysC (s : SheetObj) : List SKey → Doing
  | [] => .done (.ok (some s))
  | key :: ks =>
    cacheGetC key (fun r => match r with
      | .error e => .done (.error e)
      | .ok none => cachePutC key s (fun r => match r with
        | .error e => .done (.error e)
        | .ok () => addKeysC s ks)
      | .ok (some old) =>
        if old ≠ s then
          closeSheetC key (fun r => match r with
            | .error e => .done (.error e)
            | .ok () => cachePutC key s (fun r => match r with
              | .error e => .done (.error e)
              | .ok () => addKeysC s ks))
        else cachePutC key s (fun r => match r with
          | .error e => .done (.error e)
          | .ok () => addKeysC s ks))

/-- `SheetsFactory.fetch_sheet` (pandalone/xleash/io/backend.py:216-245) of a sheet of a given workbook. -/
def fetchC (order : List SKey → List SKey) (w : Str) (sh : ShId) : Doing :=
  cacheGetC (w, sh) (fun r => match r with
    | .error e => .done (.error e)
    | .ok (some s) => .done (.ok (some s))
    | .ok none => .openBook w sh (fun r => match r with
      | .error e => .done (.error (.raised e))
      | .ok s =>
        if (deriveKeys s (.one w) (.one sh)).isEmpty then .done (.error (.raised .assertionError))
        else addKeysC s (order (deriveKeys s (.one w) (.one sh)))))

/-- The inner loop of `SheetsFactory.close` (pandalone/xleash/io/backend.py:195-196): `left` sheets of the `size` noted are left. -/
def closeDictC (d : DictRef) (size : Nat) (k : Except ThreadErr Unit → Doing) : Nat → Doing
  | 0 => .nextSheet d size size (fun r => match r with
    | .error e => k (.error e)
    | .ok _ => k (.ok ()))
  | left + 1 => .nextSheet d size (size - (left + 1)) (fun r => match r with
    | .error e => k (.error e)
    | .ok none => k (.ok ())
    | .ok (some s) => .close s (closeDictC d size k left))

/-- The outer loop of `SheetsFactory.close` (pandalone/xleash/io/backend.py:194-197): `left` dictionaries of the `size` noted are left. -/
def closeBooksC (o size : Nat) : Nat → Doing
  | 0 => .nextBook o size size (fun r => match r with
    | .error e => .done (.error e)
    | .ok _ => .emptied (.done (.ok none)))
  | left + 1 => .nextBook o size (size - (left + 1)) (fun r => match r with
    | .error e => .done (.error e)
    | .ok none => .emptied (.done (.ok none))
    | .ok (some d) => .iterSheets d (fun n => closeDictC d n (fun r => match r with
      | .error e => .done (.error e)
      | .ok () => closeBooksC o size left) n))

/-- `SheetsFactory.close` (pandalone/xleash/io/backend.py:192-197), where no `_close_all` raises. -/
def closeC : Doing := .books (fun o => .iterBooks o (fun size => closeBooksC o size size))

/-- Threads at work on a factory. -/
structure Shift where
  shared : OpenFactory
  threads : List Doing

/-- One operation of the thread with this number. -/
def Shift.step (op : Nat → Str → ShId → Except PyErr SheetObj) (c : Shift) (j : Nat) : Shift :=
  match c.threads[j]? with
  | none => c
  | some t => ⟨(t.step op c.shared).1, c.threads.set j (t.step op c.shared).2⟩

/-- Operations of threads in the order in which they happen. -/
def Shift.run (op : Nat → Str → ShId → Except PyErr SheetObj) (c : Shift) (sched : List Nat) : Shift :=
  sched.foldl (Shift.step op) c

end Model
