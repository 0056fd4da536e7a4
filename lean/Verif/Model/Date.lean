import Verif.Py.Basic

/-! # Dates: /repo/hun_law/utils.py lines 147-183 and 412-431

`datetime.date` and `datetime.timedelta` are Python's own; their day numbering is modelled as in the
reference implementation `Lib/datetime.py` (`_ymd2ord`, `_ord2ymd`), because `Date.add_days` is a thin layer
over it. -/

namespace Verif

/-- `Date` (utils.py:147-151). -/
structure Date where
  year : Int
  month : Int
  day : Int
  deriving DecidableEq, Repr

/-- `datetime._is_leap`. -/
def isLeap (y : Int) : Bool := y % 4 == 0 && (y % 100 != 0 || y % 400 == 0)

/-- `datetime._DAYS_IN_MONTH` with `_days_in_month`. -/
def daysInMonth (y m : Int) : Int :=
  if m = 2 then (if isLeap y then 29 else 28)
  else if m = 4 ∨ m = 6 ∨ m = 9 ∨ m = 11 then 30 else 31

/-- `datetime._days_before_month`: days of the year before the first of month `m`. -/
def daysBeforeMonth (y m : Int) : Int :=
  (match m with
    | 1 => 0 | 2 => 31 | 3 => 59 | 4 => 90 | 5 => 120 | 6 => 151
    | 7 => 181 | 8 => 212 | 9 => 243 | 10 => 273 | 11 => 304 | _ => 334)
  + (if m > 2 ∧ isLeap y then 1 else 0)

/-- `datetime._days_before_year`. -/
def daysBeforeYear (year : Int) : Int :=
  let y := year - 1
  y * 365 + y / 4 - y / 100 + y / 400

/-- `datetime._ymd2ord`. -/
def ymd2ord (y m d : Int) : Int := daysBeforeYear y + daysBeforeMonth y m + d

/-- The last step of `datetime._ord2ymd`: month and day from the day of the year, counted from 0. -/
def monthDay (leap : Bool) (n : Int) : Int × Int :=
  let l : Int := if leap then 1 else 0
  let month := (n + 50) / 32
  let preceding := (match month with
    | 1 => 0 | 2 => 31 | 3 => 59 | 4 => 90 | 5 => 120 | 6 => 151
    | 7 => 181 | 8 => 212 | 9 => 243 | 10 => 273 | 11 => 304 | _ => 334) + (if month > 2 then l else 0)
  if preceding > n then
    let month := month - 1
    let dim := if month = 2 then 28 + l else if month = 4 ∨ month = 6 ∨ month = 9 ∨ month = 11 then 30 else 31
    (month, n - (preceding - dim) + 1)
  else (month, n - preceding + 1)

/-- `datetime._ord2ymd`. -/
def ord2ymd (n : Int) : Date :=
  let n := n - 1
  let n400 := n / 146097
  let n := n % 146097
  let year := n400 * 400 + 1
  let n100 := n / 36524
  let n := n % 36524
  let n4 := n / 1461
  let n := n % 1461
  let n1 := n / 365
  let n := n % 365
  let year := year + n100 * 100 + n4 * 4 + n1
  if n1 = 4 ∨ n100 = 4 then { year := year - 1, month := 12, day := 31 }
  else
    let leap := n1 == 3 && (n4 != 24 || n100 == 3)
    let md := monthDay leap n
    { year := year, month := md.1, day := md.2 }

/-- `Date(year, month, day)`: `__attrs_post_init__` builds a `datetime.date` (utils.py:153-154), which raises
ValueError unless the year is from 1 to 9999, the month from 1 to 12 and the day exists. -/
def mkDate (y m d : Int) : Res Date :=
  if 1 ≤ y ∧ y ≤ 9999 ∧ 1 ≤ m ∧ m ≤ 12 ∧ 1 ≤ d ∧ d ≤ daysInMonth y m then .ok ⟨y, m, d⟩
  else .error .valueError

/-- `datetime.date.max.toordinal()`. -/
def maxOrdinal : Int := 3652059

/-- `Date.add_days` (utils.py:176-178): `timedelta(days=…)` raises OverflowError beyond 999999999 days, adding
it raises OverflowError outside the years 1 to 9999. -/
def Date.addDays (d : Date) (days : Int) : Res Date :=
  match mkDate d.year d.month d.day with
  | .error e => .error e
  | .ok _ =>
    if days < -999999999 ∨ 999999999 < days then .error .overflowError
    else
      let o := ymd2ord d.year d.month d.day + days
      if 0 < o ∧ o ≤ maxOrdinal then
        let r := ord2ymd o
        mkDate r.year r.month r.day
      else .error .overflowError

/-- `MONTHS_HUN` (utils.py:412-425). -/
def monthsHun : List Str :=
  [py"január", py"február", py"március", py"április", py"május", py"június", py"július",
   py"augusztus", py"szeptember", py"október", py"november", py"december"]

/-- `text_to_month_hun` (utils.py:428-431). -/
def textToMonthHun (s : Str) : Res Int :=
  match monthsHun.findIdx? (· == s) with
  | some i => .ok (i + 1)
  | none => .error .keyError

/-- `Date.from_hungarian_text` (utils.py:157-161). -/
def Date.fromHungarianText (s : Str) : Res Date :=
  let s := s.takeWhile (· ≠ ',')
  match splitOn ' ' s with
  | [year, month, day] => do
    let y ← pyInt year.dropLast
    let m ← textToMonthHun month
    let d ← pyInt day.dropLast
    mkDate y m d
  | _ => .error .valueError

/-- `Date.from_simple_string` (utils.py:164-174). -/
def Date.fromSimpleString (s : Str) : Res Date :=
  let parts :=
    if s.contains '.' then splitOn '.' (if endsWith s (py".") then s.dropLast else s)
    else if s.contains '/' then splitOn '/' s
    else []
  match parts with
  | [a, b, c] => do
    let y ← pyInt a
    let m ← pyInt b
    let d ← pyInt c
    mkDate y m d
  | _ => .error .valueError

end Verif
