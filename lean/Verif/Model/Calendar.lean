import Verif.Model.Base
/-!
# Calendar dates

The part of the `chrono` crate (0.4.43, not in `/repo`) that literals go through: the proleptic
Gregorian calendar as a day count from 1970-01-01.  The conversion is the usual 400-year-cycle
arithmetic; `Verif/Proofs/Calendar.lean` proves it against the calendar rules.
-/

namespace Verif

set_option autoImplicit false

/-- A calendar date (`chrono::NaiveDate`). -/
structure Date where
  y : Int
  m : Int
  d : Int
  deriving DecidableEq, Repr

/-- Gregorian leap years. -/
def isLeap (y : Int) : Bool := y % 4 == 0 && (y % 100 != 0 || y % 400 == 0)

/-- Days of a month. -/
def daysInMonth (y m : Int) : Int :=
  if m = 2 then (if isLeap y then 29 else 28)
  else if m = 4 ∨ m = 6 ∨ m = 9 ∨ m = 11 then 30 else 31

/-- Smallest and largest year of `chrono::NaiveDate` (`MIN` is -262143-01-01, `MAX` is
+262142-12-31). -/
def minYear : Int := -262143
/-- See `minYear`. -/
def maxYear : Int := 262142

/-- `NaiveDate::from_ymd_opt` accepts the date. -/
def Date.Valid (t : Date) : Prop :=
  minYear ≤ t.y ∧ t.y ≤ maxYear ∧ 1 ≤ t.m ∧ t.m ≤ 12 ∧ 1 ≤ t.d ∧ t.d ≤ daysInMonth t.y t.m

instance (t : Date) : Decidable t.Valid := by unfold Date.Valid; infer_instance

/-- Days from 1970-01-01 to a date (`signed_duration_since(epoch).num_days()`). -/
def Date.toDays (t : Date) : Int :=
  let y := if t.m ≤ 2 then t.y - 1 else t.y
  let era := y / 400
  let yoe := y - era * 400
  let mp := if t.m > 2 then t.m - 3 else t.m + 9
  let doy := (153 * mp + 2) / 5 + t.d - 1
  let doe := yoe * 365 + yoe / 4 - yoe / 100 + doy
  era * 146097 + doe - 719468

/-- The date a number of days after 1970-01-01 (`epoch + Duration::days(days)`), without the range
check. -/
def Date.ofDays (z : Int) : Date :=
  let z := z + 719468
  let era := z / 146097
  let doe := z - era * 146097
  let c := if doe / 36524 < 3 then doe / 36524 else 3
  let r := doe - c * 36524
  let q := r / 1461
  let r := r - q * 1461
  let yy := if r / 365 < 3 then r / 365 else 3
  let doy := r - yy * 365
  let yoe := 100 * c + 4 * q + yy
  let mp := (5 * doy + 2) / 153
  let d := doy - (153 * mp + 2) / 5 + 1
  let m := if mp < 10 then mp + 3 else mp - 9
  let y := yoe + era * 400
  ⟨if m ≤ 2 then y + 1 else y, m, d⟩

/-- Day counts of `chrono::NaiveDate::MIN` and `MAX`. -/
def minDays : Int := Date.toDays ⟨minYear, 1, 1⟩
/-- See `minDays`. -/
def maxDays : Int := Date.toDays ⟨maxYear, 12, 31⟩

end Verif
