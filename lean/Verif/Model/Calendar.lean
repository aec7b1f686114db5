import Verif.Model.Tri

/-!
# Development lags from dates (`core/base.py:260-264`)

Months are numbered `12 * year + month - 1`.  Timestamps are nanoseconds; pandas uses the proleptic
Gregorian calendar.
-/

namespace CL
namespace Cal

/-- Leap years of the Gregorian calendar. -/
def isLeap (y : Nat) : Bool := y % 4 == 0 && (y % 100 != 0 || y % 400 == 0)

/-- Days in month `m` (pandas timestamps). -/
def monthDays (m : Nat) : Nat :=
  match m % 12 with
  | 1 => if isLeap (m / 12) then 29 else 28
  | 3 | 5 | 8 | 10 => 30
  | _ => 31

/-- Nanoseconds in a day. -/
def nsDay : Int := 86400000000000

/-- `valuation - origin` for an origin at the first instant of month `o` and a valuation at the last
nanosecond of month `v` (`to_timestamp(how="s")`, `to_timestamp(how="e")`). -/
def timedelta (o v : Nat) : Int := (∑ m ∈ Finset.Ico o (v + 1), (monthDays m : Int)) * nsDay - 1

/-- `dt.round("1d").dt.days`: nearest day, ties to even. -/
def roundDays (q : Int) : Int :=
  let r := q % nsDay
  if 2 * r < nsDay then q / nsDay
  else if 2 * r > nsDay then q / nsDay + 1
  else if (q / nsDay) % 2 = 0 then q / nsDay else q / nsDay + 1

/-- `_development_lag`: `((valuation - origin) / (365.25 / 12)).dt.round("1d").dt.days`, where
365.25 / 12 = 487 / 16; the quotient is cut to whole nanoseconds. -/
def developmentLag (o v : Nat) : Int := roundDays (timedelta o v * 16 / 487)

end Cal
end CL
