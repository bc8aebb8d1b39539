import Verif.Model.Dates
/-
The dates that Excel shows for the numbers in its cells.
-/
namespace Spec
open Py Model

/-- The milliseconds of a day: of 24 hours of 60 minutes of 60 seconds. -/
def dayLength : Nat := 24 * 60 * 60 * 1000

/-- A leap year for Excel: as in the calendar, but 1900 is one, too. -/
def ExcelLeap (y : Nat) : Prop := y = 1900 ∨ (4 ∣ y ∧ ¬ 100 ∣ y) ∨ 400 ∣ y

/-- The last day of a month. -/
inductive LastDay (leap : Nat → Prop) : Nat → Nat → Nat → Prop
  | long (y m) : m ∈ [1, 3, 5, 7, 8, 10, 12] → LastDay leap y m 31
  | short (y m) : m ∈ [4, 6, 9, 11] → LastDay leap y m 30
  | leap (y) : leap y → LastDay leap y 2 29
  | common (y) : ¬ leap y → LastDay leap y 2 28

/-- The second day is the one after the first. -/
inductive DayAfter (leap : Nat → Prop) : Date → Date → Prop
  | inMonth (y m d l) : LastDay leap y m l → d < l → DayAfter leap ⟨y, m, d⟩ ⟨y, m, d + 1⟩
  | month (y m d) : LastDay leap y m d → m < 12 → DayAfter leap ⟨y, m, d⟩ ⟨y, m + 1, 1⟩
  | year (y) : DayAfter leap ⟨y, 12, 31⟩ ⟨y + 1, 1, 1⟩

/-- The date that Excel shows for a number of days, in the date system of 1904 (`true`) or of 1900: the days are counted from the
first of January, which is number 0 or 1. -/
inductive ShownDay : Bool → Nat → Date → Prop
  | first1904 : ShownDay true 0 ⟨1904, 1, 1⟩
  | first1900 : ShownDay false 1 ⟨1900, 1, 1⟩
  | next (b n t t') : ShownDay b n t → DayAfter ExcelLeap t t' → ShownDay b (n + 1) t'

end Spec
