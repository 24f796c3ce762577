import Verif.Model.Calendar
import Verif.Model.Chunks
import Verif.Model.Peg
/-!
# Reading and writing dates and times

The `chrono` 0.4.43 formatting and parsing of the formats used by `src/textify/expressions.rs`
L119-191 and `src/parser/expressions.rs` L365-383, L493-555.  `chrono` itself is not in `/repo`; this
is a model of its documented behaviour: numeric items are zero padded when written; when read they
skip white space, take at most their width in digits and need at least one, years outside 0..9999
carry a sign, `%.f` is optional and drops digits after the ninth, second 60 is accepted.
-/

namespace Verif

set_option autoImplicit false

/-! ## Writing -/

/-- Decimal padded with zeros to a width. -/
def pad (w n : Nat) : Str := List.replicate (w - (dec n).length) '0' ++ dec n

/-- `%Y`. -/
def showYear (y : Int) : Str :=
  if 0 ≤ y ∧ y ≤ 9999 then pad 4 y.natAbs
  else (if y < 0 then '-' else '+') :: pad 4 y.natAbs

/-- `%Y-%m-%d`. -/
def showDate (t : Date) : Str :=
  showYear t.y ++ cs!"-" ++ pad 2 t.m.natAbs ++ cs!"-" ++ pad 2 t.d.natAbs

/-- textify/expressions.rs L145-152 `fractional_spec`, applied to the nanoseconds of a second. -/
def showFrac (p : Int) (ns : Nat) : Str :=
  if p = 3 then '.' :: pad 3 (ns / 1000000)
  else if p = 6 then '.' :: pad 6 (ns / 1000)
  else if p = 9 ∨ p = 12 then '.' :: pad 9 ns
  else []

/-- Nanoseconds of a day. -/
def dayNs : Int := 86400000000000

/-- `%H:%M:%S` and the fraction, of nanoseconds since midnight. -/
def showTime (p : Int) (ns : Nat) : Str :=
  let secs := ns / 1000000000
  pad 2 (secs / 3600) ++ cs!":" ++ pad 2 (secs / 60 % 60) ++ cs!":" ++ pad 2 (secs % 60) ++
    showFrac p (ns % 1000000000)

/-- textify/expressions.rs L119-123 `days_to_date_string`; `none` is the panic of
`NaiveDate + Duration` outside chrono's range. -/
def dateText (days : Int) : Option Str :=
  if minDays ≤ days ∧ days ≤ maxDays then some (showDate (Date.ofDays days)) else none

/-- textify/expressions.rs L127-139 `duration_from_precision_units`, in nanoseconds; `none` is
`UnsupportedPrecision`.  The `OutOfRange` cases of `try_seconds` and `try_milliseconds` are left
out: both callers reject such durations as `OutOfRange` anyway. -/
def unitsToNs (v p : Int) : Option Int :=
  if p = 0 then some (v * 1000000000)
  else if p = 3 then some (v * 1000000)
  else if p = 6 then some (v * 1000)
  else if p = 9 then some v
  else if p = 12 then some (v.tdiv 1000)
  else none

/-- textify/expressions.rs L156-168 `precision_timestamp_to_string`; `none` is either error. -/
def timestampText (v p : Int) : Option Str :=
  match unitsToNs v p with
  | none => none
  | some ns =>
    if minDays ≤ ns / dayNs ∧ ns / dayNs ≤ maxDays then
      some (showDate (Date.ofDays (ns / dayNs)) ++ cs!"T" ++ showTime p (ns % dayNs).natAbs)
    else none

/-- textify/expressions.rs L178-191 `precision_time_to_string`; `none` is either error. -/
def timeText (v p : Int) : Option Str :=
  if v < 0 then none
  else
    match unitsToNs v p with
    | none => none
    | some ns => if ns ≥ dayNs then none else some (showTime p ns.natAbs)

/-! ## Reading -/

/-- `scan::number(s, 1, w)`. -/
def scanNum (w : Nat) (s : Str) : Option (Nat × Str) :=
  let ds := (s.take w).takeWhile isDigit
  if ds.isEmpty then none else some (decVal ds, s.drop ds.length)

/-- `%Y`: unsigned years have at most four digits, signed years any number. -/
def scanYear (s : Str) : Option (Int × Str) :=
  match trimStart s with
  | '-' :: s =>
    match scanNum s.length s with
    | some (n, r) => some (-(n : Int), r)
    | none => none
  | '+' :: s =>
    match scanNum s.length s with
    | some (n, r) => some ((n : Int), r)
    | none => none
  | s =>
    match scanNum 4 s with
    | some (n, r) => some ((n : Int), r)
    | none => none

/-- `%m`, `%d`, `%H`, `%M`, `%S`. -/
def scan2 (s : Str) : Option (Nat × Str) := scanNum 2 (trimStart s)

/-- `%.f`: an optional fraction; digits after the ninth are skipped. -/
def scanFrac (s : Str) : Option (Nat × Str) :=
  match s with
  | '.' :: s =>
    let ds := s.takeWhile isDigit
    if ds.isEmpty then none
    else some (decVal (ds.take 9) * 10 ^ (9 - (ds.take 9).length), s.dropWhile isDigit)
  | s => some (0, s)

/-- `%Y-%m-%d` or `%Y/%m/%d`. -/
def scanDate (sep : Char) (s : Str) : Option (Date × Str) := do
  let (y, s) ← scanYear s
  let s ← lit [sep] s
  let (m, s) ← scan2 s
  let s ← lit [sep] s
  let (d, s) ← scan2 s
  if Date.Valid ⟨y, m, d⟩ then some (⟨y, m, d⟩, s) else none

/-- `%H:%M:%S`, with `%.f` if `frac`: nanoseconds since midnight.  Second 60 is the leap second,
which chrono keeps as second 59 and a nanosecond count of a thousand million or more. -/
def scanTime (frac : Bool) (s : Str) : Option (Nat × Str) := do
  let (h, s) ← scan2 s
  let s ← lit cs!":" s
  let (m, s) ← scan2 s
  let s ← lit cs!":" s
  let (sec, s) ← scan2 s
  let (ns, s) ← if frac then scanFrac s else some (0, s)
  if h ≤ 23 ∧ m ≤ 59 ∧ sec ≤ 60 then some (((h * 60 + m) * 60 + sec) * 1000000000 + ns, s) else none

/-- The item between date and time: a literal `T`, or a space, which matches any white space. -/
def scanGap (t : Bool) (s : Str) : Option Str := if t then lit cs!"T" s else some (trimStart s)

/-- `NaiveDateTime::parse_from_str` with one of the eight formats, as nanoseconds since the
epoch. -/
def scanStamp (sep : Char) (t frac : Bool) (s : Str) : Option Int := do
  let (d, s) ← scanDate sep s
  let s ← scanGap t s
  let (ns, s) ← scanTime frac s
  if s = [] then some (d.toDays * dayNs + ns) else none

/-- The value if nothing is left. -/
def complete {α : Type} : Option (α × Str) → Option α
  | some (a, []) => some a
  | _ => none

/-- parser/expressions.rs L365-383 `parse_date_to_days`: first format that matches.  `days as i32`
keeps the value (`Date.ofDays_valid_iff`). -/
def readDate (s : Str) : Option Int :=
  ((complete (scanDate '-' s)).or (complete (scanDate '/' s))).map Date.toDays

/-- parser/expressions.rs L493-519, the loop over formats of `parse_timestamp_to_precision_units`. -/
def readStamp (s : Str) : Option Int :=
  (((((((scanStamp '-' true true s).or (scanStamp '-' true false s)).or (scanStamp '-' false true s)).or
    (scanStamp '-' false false s)).or (scanStamp '/' true true s)).or (scanStamp '/' true false s)).or
    (scanStamp '/' false true s)).or (scanStamp '/' false false s)

/-- parser/expressions.rs L531-547, the loop over formats of `parse_time_to_precision_units`. -/
def readTime (s : Str) : Option Int :=
  ((complete (scanTime true s)).or (complete (scanTime false s))).map Int.ofNat

end Verif
