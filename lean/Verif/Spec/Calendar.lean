import Verif.Model.Date

/-! # The Gregorian calendar, without day numbers -/

namespace Verif.Spec

/-- A year with a 29th of February. -/
def LeapYear (y : Int) : Prop := 4 ∣ y ∧ (¬ 100 ∣ y ∨ 400 ∣ y)

instance (y : Int) : Decidable (LeapYear y) := by unfold LeapYear; infer_instance

/-- Number of days of the month in the year. -/
def monthLength (y m : Int) : Int :=
  if m = 2 then (if LeapYear y then 29 else 28)
  else if m = 4 ∨ m = 6 ∨ m = 9 ∨ m = 11 then 30
  else 31

/-- A day that exists, in the years 1 to 9999. -/
def RealDate (d : Date) : Prop :=
  1 ≤ d.year ∧ d.year ≤ 9999 ∧ 1 ≤ d.month ∧ d.month ≤ 12 ∧ 1 ≤ d.day ∧ d.day ≤ monthLength d.year d.month

instance (d : Date) : Decidable (RealDate d) := by unfold RealDate; infer_instance

/-- The Hungarian names of the months. -/
def monthNames : List Str :=
  [py"január", py"február", py"március", py"április", py"május", py"június", py"július",
   py"augusztus", py"szeptember", py"október", py"november", py"december"]

/-- The name is that of a month. -/
def MonthNamed (s : Str) (month : Int) : Prop := 1 ≤ month ∧ monthNames[(month - 1).toNat]? = some s

instance (s : Str) (month : Int) : Decidable (MonthNamed s month) := by unfold MonthNamed; infer_instance

/-- The day after. -/
def nextDay (d : Date) : Date :=
  if d.day < monthLength d.year d.month then { d with day := d.day + 1 }
  else if d.month < 12 then { d with month := d.month + 1, day := 1 }
  else { year := d.year + 1, month := 1, day := 1 }

/-- Earlier, by year, then month, then day. -/
def Before (a b : Date) : Prop :=
  a.year < b.year ∨ (a.year = b.year ∧ (a.month < b.month ∨ (a.month = b.month ∧ a.day < b.day)))

instance (a b : Date) : Decidable (Before a b) := by unfold Before; infer_instance

end Verif.Spec
