import Verif.Py.Regex
/-
Model of parsing column names with units, pandalone/pandata.py.
-/
namespace Model
open Py

/-- The part of the regex after the name: pandalone/pandata.py:40-50. -/
def reUnits : Re :=
  .seq (.star (.cls isSpaceU)) (.seq
    (Re.opt (.grp "units" (.alt
      (.seq (Re.chr '[') (.seq (.star (.cls (fun c => c != ']'))) (Re.chr ']')))
      (.seq (Re.chr '<') (.seq (.star (.cls (fun c => c != ')'))) (Re.chr '>'))))))
    (.seq (.star (.cls isSpaceU)) .eos))

/-- `_value_with_units_regex`, pandalone/pandata.py:37-52 (`re.X`: the blanks of the pattern do not
count). `match` anchors at the start, so the `^` is left out. -/
def reValueUnits : Re :=
  .seq (.star (.cls isSpaceU)) (.seq
    (.grp "name" (.lazyStar (.cls (fun c => c != '[' && c != '<')))) reUnits)

/-- `_units_cleaner_regex.sub("", units)`, pandalone/pandata.py:53 and 99. The regex
`^[<[]|[\]>]$` matches single characters: an opening bracket at the start of the text, or a closing
one where `$` holds; `first` says whether we are at the start. -/
def cleanUnits : Bool → Str → Str
  | _, [] => []
  | first, x :: t =>
    if (first && (x == '<' || x == '[')) || ((x == ']' || x == '>') && atEnd t) then cleanUnits false t
    else x :: cleanUnits false t

/-- The units without their brackets, if there are any: pandalone/pandata.py:96-99. -/
def cleanGroup : Option Str → Option Str
  | some (x :: u) => some (cleanUnits true (x :: u))
  | u => u

/-- `parse_value_with_units(arg)`, pandalone/pandata.py:60-100, for a text: the name and the units,
`none` for bad syntax. The group `name` is never `None` in a match. -/
def parseValueWithUnits (arg : Str) : Option (Str × Option Str) :=
  match reValueUnits.match? arg with
  | none => none
  | some (_, c) =>
    some ((c "name").getD [], cleanGroup (c "units"))

end Model
