import Verif.Py.Basic
/-! # Python's `datetime` module: the checks made by the constructors -/

namespace Verif

/-- `_is_leap` (Python 3.11, datetime.py 42-44) -/
def isLeap (y : Nat) : Bool := y % 4 == 0 && (y % 100 != 0 || y % 400 == 0)

/-- `_days_in_month` (datetime.py 51-55) -/
def daysInMonth (y m : Nat) : Nat :=
  if m == 2 && isLeap y then 29 else ([0, 31, 28, 31, 30, 31, 30, 31, 31, 30, 31, 30, 31][m]?).getD 0

/-- A `date`. -/
structure Date where
  year : Nat
  month : Nat
  day : Nat
deriving DecidableEq, Repr

/-- `date(year, month, day)` (datetime.py 515-526 `_check_date_fields`) -/
def mkDate (y m d : Nat) : Res Date :=
  if 1 ≤ y ∧ y ≤ 9999 ∧ 1 ≤ m ∧ m ≤ 12 ∧ 1 ≤ d ∧ d ≤ daysInMonth y m then .ok ⟨y, m, d⟩ else .err .valueError

/-- A `time` without its zone. -/
structure Clock where
  hour : Nat
  minute : Nat
  second : Nat
  micro : Nat := 0
deriving DecidableEq, Repr

/-- `time(hour, minute, second, microsecond)` (datetime.py 528-541 `_check_time_fields`) -/
def mkClock (h m s us : Nat) : Res Clock :=
  if h ≤ 23 ∧ m ≤ 59 ∧ s ≤ 59 ∧ us ≤ 999999 then .ok ⟨h, m, s, us⟩ else .err .valueError

/-- `timezone(timedelta(minutes=t))`: strictly between -24 and 24 hours (datetime.py 2307-2311). -/
def mkZone (t : Int) : Res Int := if -1440 < t ∧ t < 1440 then .ok t else .err .valueError

end Verif
