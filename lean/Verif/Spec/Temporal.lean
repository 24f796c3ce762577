import Verif.Model.Calendar
import Verif.Model.Chrono
/-!
# Specification: the spellings of dates, times of day and timestamps

Written as grammars with values, without reference to the order in which formats are tried.
-/

namespace Verif.TemporalSpec

set_option autoImplicit false

/-- Only white space, possibly nothing. -/
def Blank (w : Str) : Prop := ∀ c ∈ w, isWs c = true

/-- At least one digit. -/
def Number (x : Str) (n : Nat) : Prop := x ≠ [] ∧ (∀ c ∈ x, isDigit c = true) ∧ decVal x = n

/-- White space and one or two digits. -/
def Short (x : Str) (n : Nat) : Prop := ∃ w ds, x = w ++ ds ∧ Blank w ∧ Number ds n ∧ ds.length ≤ 2

/-- White space and up to four digits, or a sign and any number of digits. -/
def Year (x : Str) (y : Int) : Prop :=
  ∃ w ds n, Blank w ∧ Number ds n ∧
    ((x = w ++ ds ∧ ds.length ≤ 4 ∧ y = n) ∨ (x = w ++ '+' :: ds ∧ y = n) ∨ (x = w ++ '-' :: ds ∧ y = -n))

/-- Year, month and day with the same separator between them. -/
def DateText (sep : Char) (x : Str) (t : Date) : Prop :=
  ∃ a b c m d, x = a ++ sep :: (b ++ sep :: c) ∧ Year a t.y ∧ Short b m ∧ Short c d ∧ t.m = m ∧ t.d = d

/-- Nothing, or a point and digits: whole nanoseconds, the rest is cut off. -/
def Fraction (x : Str) (n : Nat) : Prop :=
  (x = [] ∧ n = 0) ∨ ∃ ds v, x = '.' :: ds ∧ Number ds v ∧ n = v * 10 ^ 9 / 10 ^ ds.length

/-- Hours, minutes and seconds, in nanoseconds; there may be a leap second. -/
def TimeText (x : Str) (ns : Nat) : Prop :=
  ∃ a b c f h m s n, x = a ++ ':' :: (b ++ ':' :: (c ++ f)) ∧ Short a h ∧ Short b m ∧ Short c s ∧ Fraction f n ∧
    h ≤ 23 ∧ m ≤ 59 ∧ s ≤ 60 ∧ ns = ((h * 60 + m) * 60 + s) * 10 ^ 9 + n

/-- If `r` goes on with a digit, then `a` ends with two digits. -/
def Apart (a r : Str) : Prop :=
  ∀ c r', r = c :: r' → isDigit c = true → ∃ a' d e, a = a' ++ [d, e] ∧ isDigit d = true ∧ isDigit e = true

/-- A date, `T` or white space (or nothing after a day of two digits), and a time of day. -/
def StampText (x : Str) (t : Date) (ns : Nat) : Prop :=
  ∃ sep a g b, (sep = '-' ∨ sep = '/') ∧ x = a ++ (g ++ b) ∧ DateText sep a t ∧ TimeText b ns ∧
    (g = cs!"T" ∨ (Blank g ∧ Apart a (g ++ b)))

end Verif.TemporalSpec
