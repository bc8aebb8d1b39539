import Verif.Model.FactoryBooks
/-
Threads that fetch sheets from one factory (`pandalone/xleash/io/backend.py`), one operation on a dictionary at a time.
-/
namespace Model
open Py

/-- What ends a call of `fetch_sheet` other than a sheet: what opening the workbook raises; the `RuntimeError` of Python when a dictionary
changed its size while iterated; the `KeyError` of deleting a key that is not there. -/
inductive ThreadErr
  | raised (e : PyErr)
  | changedSize
  | missingKey
  deriving DecidableEq, Repr

/-- A dictionary of the sheets of a workbook: the workbook that it was made for, and its identity. -/
abbrev DictRef := Str × Nat

/-- What threads share: `_cached_sheets` (pandalone/xleash/io/backend.py:142), that is, which dictionary each workbook has, and what every
dictionary made so far holds, in use or not; the number of dictionaries made; the sheets that were closed, and the number of sheets opened. -/
structure SharedFactory where
  outer : List (Str × Nat)
  inner : DictRef → List (ShId × SheetObj)
  made : Nat
  closed : List SheetObj
  opened : Nat

/-- `SheetsFactory.__init__` (pandalone/xleash/io/backend.py:134-142). -/
def SharedFactory.new : SharedFactory := ⟨[], fun _ => [], 0, [], 0⟩

/-- What is left to do of a call, as the next operation that other threads see and what follows it. Simplification: opening a workbook
(line 239) is one operation. -/
inductive Todo
  /-- The call ended. -/
  | done (r : Except ThreadErr SheetObj)
  /-- `if wb in self._cached_sheets: … self._cached_sheets[wb]`: the dictionary of a workbook is never taken away, so this is one reading. -/
  | outerGet (w : Str) (k : Option DictRef → Todo)
  /-- `sh_dict = self._cached_sheets[wb] = {}`. -/
  | outerNew (w : Str) (k : DictRef → Todo)
  /-- `iter(self._cached_sheets.values())`, which notes the size. -/
  | outerIter (k : Nat → Todo)
  /-- `next` on it, at this position: a change of size is noticed first, the end of the dictionary afterwards. -/
  | outerNext (size pos : Nat) (k : Except ThreadErr (Option DictRef) → Todo)
  /-- `shs.get(sh, None)`. -/
  | innerGet (d : DictRef) (sh : ShId) (k : Option SheetObj → Todo)
  /-- `sh_dict[sh] = sheet`. -/
  | innerPut (d : DictRef) (sh : ShId) (s : SheetObj) (k : Todo)
  /-- `list(sh_dict.items())`. -/
  | innerItems (d : DictRef) (k : List (ShId × SheetObj) → Todo)
  /-- `del sh_dict[sh_id]`. -/
  | innerDel (d : DictRef) (sh : ShId) (k : Except ThreadErr Unit → Todo)
  /-- `sheet._close()`. -/
  | close (s : SheetObj) (k : Todo)
  /-- `self._open_sheet(url, sheet_id)`. -/
  | openBook (w : Str) (sh : ShId) (k : Except PyErr SheetObj → Todo)

/-- One operation of a thread, where `op` opens workbooks. -/
def Todo.step (op : Nat → Str → ShId → Except PyErr SheetObj) (S : SharedFactory) : Todo → SharedFactory × Todo
  | .done r => (S, .done r)
  | .outerGet w k => (S, k ((dget S.outer w).map (fun n => (w, n))))
  | .outerNew w k =>
    ({ S with outer := dset S.outer w S.made, made := S.made + 1 }, k (w, S.made))
  | .outerIter k => (S, k S.outer.length)
  | .outerNext size pos k => (S, k (if S.outer.length = size then .ok (S.outer[pos]?) else .error .changedSize))
  | .innerGet d sh k => (S, k (dget (S.inner d) sh))
  | .innerPut d sh s k => ({ S with inner := fun d' => if d' = d then dset (S.inner d) sh s else S.inner d' }, k)
  | .innerItems d k => (S, k (S.inner d))
  | .innerDel d sh k =>
    match dget (S.inner d) sh with
    | none => (S, k (.error .missingKey))
    | some _ => ({ S with inner := fun d' => if d' = d then ddel (S.inner d) sh else S.inner d' }, k (.ok ()))
  | .close s k => ({ S with closed := s :: S.closed }, k)
  | .openBook w sh k => ({ S with opened := S.opened + 1 }, k (op S.opened w sh))

/-- `SheetsFactory._cache_get` (pandalone/xleash/io/backend.py:144-148). -/
def cacheGetT (key : SKey) (k : Option SheetObj → Todo) : Todo :=
  .outerGet key.1 (fun o => match o with
    | none => k none
    | some d => .innerGet d key.2 k)

/-- `SheetsFactory._cache_put` (pandalone/xleash/io/backend.py:150-156). -/
def cachePutT (key : SKey) (s : SheetObj) (k : Todo) : Todo :=
  .outerGet key.1 (fun o => match o with
    | some d => .innerPut d key.2 s k
    | none => .outerNew key.1 (fun d => .innerPut d key.2 s k))

/-- The inner loop of `SheetsFactory._close_sheet` (pandalone/xleash/io/backend.py:188-190), over the items read before. -/
def sweepOneT (t : SheetObj) (d : DictRef) (k : Except ThreadErr Unit → Todo) : List (ShId × SheetObj) → Todo
  | [] => k (.ok ())
  | (sh, x) :: l =>
    if x = t then
      .innerDel d sh (fun r => match r with
        | .error e => k (.error e)
        | .ok () => sweepOneT t d k l)
    else sweepOneT t d k l

/-- The outer loop of `SheetsFactory._close_sheet` (pandalone/xleash/io/backend.py:187-190): `left` dictionaries of the `size` noted are left. -/
def sweepT (t : SheetObj) (size : Nat) (k : Except ThreadErr Unit → Todo) : Nat → Todo
  | 0 => .outerNext size size (fun r => match r with
    | .error e => k (.error e)
    | .ok _ => k (.ok ()))
  | left + 1 => .outerNext size (size - (left + 1)) (fun r => match r with
    | .error e => k (.error e)
    | .ok none => k (.ok ())
    | .ok (some d) => .innerItems d (fun l => sweepOneT t d (fun r => match r with
      | .error e => k (.error e)
      | .ok () => sweepT t size k left) l))

/-- `SheetsFactory._close_sheet` (pandalone/xleash/io/backend.py:183-190). -/
def closeSheetT (key : SKey) (k : Except ThreadErr Unit → Todo) : Todo :=
  cacheGetT key (fun o => match o with
    | none => k (.ok ())
    | some t => .close t (.outerIter (fun size => sweepT t size k size)))

/-- The loop of `SheetsFactory.add_sheet` (pandalone/xleash/io/backend.py:210-214). -/
def addKeysT (s : SheetObj) : List SKey → Todo
  | [] => .done (.ok s)
  | key :: ks =>
    cacheGetT key (fun o => match o with
      | none => cachePutT key s (addKeysT s ks)
      | some old =>
        if old ≠ s then
          closeSheetT key (fun r => match r with
            | .error e => .done (.error e)
            | .ok () => cachePutT key s (addKeysT s ks))
        else cachePutT key s (addKeysT s ks))

/-- `SheetsFactory.fetch_sheet` (pandalone/xleash/io/backend.py:216-245) of a sheet of a given workbook. -/
def fetchT (order : List SKey → List SKey) (w : Str) (sh : ShId) : Todo :=
  cacheGetT (w, sh) (fun o => match o with
    | some s => .done (.ok s)
    | none => .openBook w sh (fun r => match r with
      | .error e => .done (.error (.raised e))
      | .ok s =>
        if (deriveKeys s (.one w) (.one sh)).isEmpty then .done (.error (.raised .assertionError))
        else addKeysT s (order (deriveKeys s (.one w) (.one sh)))))

/-- What opens workbooks: `_open_sheet` (`pandalone/xleash/io/backend.py:110-115`) with `XlrdBackend.open_sheet`, see `Desk.openers`. -/
def Surroundings.opener (W : Surroundings) (n : Nat) (w : Str) (sh : ShId) : Except PyErr SheetObj := (Desk.new.openers W).book n (some w) sh

/-- Threads at work on a factory. -/
structure Crew where
  shared : SharedFactory
  threads : List Todo

/-- One operation of the thread with this number. -/
def Crew.step (op : Nat → Str → ShId → Except PyErr SheetObj) (c : Crew) (j : Nat) : Crew :=
  match c.threads[j]? with
  | none => c
  | some t => ⟨(t.step op c.shared).1, c.threads.set j (t.step op c.shared).2⟩

/-- Operations of threads in the order in which they happen. -/
def Crew.run (op : Nat → Str → ShId → Except PyErr SheetObj) (c : Crew) (sched : List Nat) : Crew :=
  sched.foldl (Crew.step op) c

end Model
