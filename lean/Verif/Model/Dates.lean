import Verif.Model.Sheet
/-
Model of the reading of dates in `pandalone/xleash/io/_xlrd.py`.

A date cell of Excel holds a number: whole days since an epoch, and a part of a day. Simplification: the part of the day is given in
milliseconds, to which *xlrd* rounds it (`ms` may be a full day, after rounding); negative numbers are left out, Excel has none.
-/
namespace Model
open Py

/-- A day. -/
structure Date where
  y : Nat
  m : Nat
  d : Nat
  deriving DecidableEq, Repr

/-- Leap years of Python's `datetime` (standard library). -/
def isLeap (y : Nat) : Bool := y % 4 == 0 && (y % 100 != 0 || y % 400 == 0)

/-- The length of a month (standard library). -/
def daysIn (y m : Nat) : Nat :=
  if m = 2 then if isLeap y then 29 else 28
  else if m = 4 ∨ m = 6 ∨ m = 9 ∨ m = 11 then 30 else 31

/-- `date + timedelta(1)` (standard library). -/
def Date.next (t : Date) : Date :=
  if t.d < daysIn t.y t.m then { t with d := t.d + 1 }
  else if t.m < 12 then ⟨t.y, t.m + 1, 1⟩
  else ⟨t.y + 1, 1, 1⟩

/-- `date + timedelta(n)` (standard library). -/
def Date.add (t : Date) : Nat → Date
  | 0 => t
  | n + 1 => (t.add n).next

/-- Milliseconds of a day. -/
def dayMs : Nat := 86400000

/-- `xlrd.xldate.xldate_as_datetime(xldate, datemode)` (*xlrd*, not repo code): a day and the milliseconds since midnight. In the system
of 1900, Excel takes 1900 for a leap year, so from the day after the 28th of February on the epoch is a day earlier. -/
def xldateAsDatetime (datemode : Bool) (days ms : Nat) : Date × Nat :=
  let epoch : Date := if datemode then ⟨1904, 1, 1⟩ else if days < 60 then ⟨1899, 12, 31⟩ else ⟨1899, 12, 30⟩
  (epoch.add (days + ms / dayMs), ms % dayMs)

/-- What `_parse_cell` returns for dates: `datetime.time` or `datetime.datetime`. -/
inductive PyDate
  | time (ms : Nat)
  | datetime (day : Date) (ms : Nat)
  deriving DecidableEq, Repr

/-- `_parse_cell(xcell, epoch1904)`, `pandalone/xleash/io/_xlrd.py:96-106`, with *xlrd* 0.9.3 or later. -/
def parseDate (epoch1904 : Bool) (days ms : Nat) : PyDate :=
  let t := xldateAsDatetime epoch1904 days ms
  let epoch : Date := if epoch1904 then ⟨1904, 1, 1⟩ else ⟨1899, 12, 31⟩
  if t.1 = epoch then .time t.2 else .datetime t.1 t.2

/-- A date cell, read from a sheet of a workbook whose date system is that of 1904, or not: `XlrdSheet.__init__` and `read_rect`,
`pandalone/xleash/io/_xlrd.py:150-155, 188-206`. The sheet is made without telling it about the date system (line 142), so that
`epoch1904` is always its default, `False`. -/
def readDate (_book1904 : Bool) (days ms : Nat) : PyDate := parseDate false days ms

end Model
