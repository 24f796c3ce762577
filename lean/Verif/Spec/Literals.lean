import Verif.Model.Literals
import Verif.Spec.Types
import Verif.Spec.Text
/-!
# Which literals the text can express

Written against the protobuf values, not against the parser.
-/

namespace Verif
open TextSpec

set_option autoImplicit false

/-- The Unicode tables print ASCII characters as themselves. -/
def AsciiPrintable [UTab] : Prop :=
  ∀ c : Char, 32 ≤ c.toNat → c.toNat ≤ 126 → UTab.printable c = true ∧ UTab.graphemeExt c = false

/-- Fits an `i32`. -/
def InI32 (i : Int) : Prop := -(2 ^ 31) ≤ i ∧ i < 2 ^ 31

/-- Fits an `i64`. -/
def InI64 (i : Int) : Prop := -(2 ^ 63) ≤ i ∧ i < 2 ^ 63

/-- A decimal number with digits on both sides of the point. -/
def FloatText (x : Str) : Prop :=
  ∃ (neg : Bool) (ds fs : Str), ds ≠ [] ∧ fs ≠ [] ∧ (∀ c ∈ ds, isDigit c = true) ∧
    (∀ c ∈ fs, isDigit c = true) ∧ x = (if neg then ['-'] else []) ++ ds ++ ['.'] ++ fs

/-- Number of units in a second. -/
def perSecond (p : Int) : Int := 10 ^ p.toNat

/-- A count of units since the epoch falls on a day chrono can represent. -/
def InCalendar (v p : Int) : Prop :=
  minDays ≤ v / (86400 * perSecond p) ∧ v / (86400 * perSecond p) ≤ maxDays

/-- The literal values that have a faithful text.  Not among them: binary values, nullable strings
and nulls (their nullability is not read back), floats printed without a decimal point, numbers of
other ranges or precisions, and every kind the printer does not implement. -/
def Spelled [UTab] [FTab] (st : Store) (nullable : Bool) : Lit → Prop
  | .bool _ => True
  | .int .i64 i => InI64 i
  | .int _ i => InI32 i
  | .fp32 f => FloatText (FTab.show32 f) ∧ FTab.to32 (FTab.parse64 (FTab.show32 f)) = f
  | .fp64 f => FloatText (FTab.show64 f) ∧ FTab.parse64 (FTab.show64 f) = f
  | .string s => Spellable s ∧ nullable = false
  | .date d => minDays ≤ d ∧ d ≤ maxDays
  | .time us => 0 ≤ us ∧ us < 86400 * perSecond 6
  | .timestamp us => InI64 us ∧ InCalendar us 6
  | .interval i => ∃ p, i.mode = .precision p ∧ p ∈ [(0 : Int), 3, 6, 9, 12] ∧ (p = 0 → i.sub = 0) ∧
      InI32 i.days ∧ InI32 i.secs ∧ InI64 i.sub
  | .prec .time p v => p ∈ [(0 : Int), 3, 6, 9] ∧ 0 ≤ v ∧ v < 86400 * perSecond p
  | .prec _ p v => p ∈ [(0 : Int), 3, 6, 9] ∧ InI64 v ∧ InCalendar v p
  | .null t => Writable st t ∧ nullable = false
  | _ => False

/-- The literals that survive: a spelled value and no type variation. -/
def Survives [UTab] [FTab] (st : Store) (l : Literal) : Prop :=
  l.tvar = 0 ∧ ∃ v, l.value = some v ∧ Spelled st l.nullable v

/-- What may stand after a literal: not something that would continue it. -/
def litContinues (c : Char) : Bool := typeContinues c || c == '.' || c == ':'

end Verif

namespace Verif

set_option autoImplicit false

/-! ## Written intervals -/

/-- An optional minus sign and digits, denoting an integer. -/
def IntText (x : Str) (i : Int) : Prop :=
  ∃ (neg : Bool) (ds : Str), ds ≠ [] ∧ (∀ c ∈ ds, isDigit c = true) ∧
    x = (if neg then ['-'] else []) ++ ds ∧ i = if neg then -(decVal ds : Int) else decVal ds

/-- An optional term: a number and a unit; an absent term denotes 0. -/
def TermText (unit : Str) : Option Str → Int → Prop
  | none, i => i = 0
  | some t, i => ∃ x, t = x ++ unit ∧ IntText x i

/-- Terms separated by single spaces. -/
def spaced : List Str → Str
  | [] => []
  | [a] => a
  | a :: b :: l => a ++ ' ' :: spaced (b :: l)

/-- `s` writes an interval at precision `p`: days, seconds, sub-seconds in this order, each at most
once and at least one of them, with the sub-second unit of the precision and numbers that fit. -/
def WritesInterval (s : Str) (p : Precision) (i : Interval) : Prop :=
  i.mode = .precision p.units ∧ InI32 i.days ∧ InI32 i.secs ∧ InI64 i.sub ∧
  ∃ a b c : Option Str, ¬ (a = none ∧ b = none ∧ c = none) ∧
    s = spaced (a.toList ++ b.toList ++ c.toList) ∧
    TermText cs!"d" a i.days ∧ TermText cs!"s" b i.secs ∧
    (if c = none then i.sub = 0 else ∃ u, p.subsecondUnit = some u ∧ TermText u c i.sub)

/-! ## What the parser can build -/

/-- The literals the parser can ever build. -/
def LitImage (st : Store) (l : Literal) : Prop :=
  l.tvar = 0 ∧ ∃ v, l.value = some v ∧
    match v with
    | .bool _ => True
    | .int .i64 i => InI64 i
    | .int _ i => InI32 i
    | .fp32 _ => True
    | .fp64 _ => True
    | .string _ => l.nullable = false
    | .binary _ => False
    | .date d => minDays ≤ d ∧ d ≤ maxDays
    | .time us => 0 ≤ us ∧ us < 86401 * perSecond 6
    | .timestamp us => InI64 us
    | .interval i => (∃ p ∈ [(0 : Int), 3, 6, 9, 12], i.mode = .precision p ∧ (p = 0 → i.sub = 0)) ∧
        InI32 i.days ∧ InI32 i.secs ∧ InI64 i.sub
    | .prec .time p v => p ∈ [(0 : Int), 3, 6, 9] ∧ 0 ≤ v ∧ v < 86401 * perSecond p
    | .prec _ p v => p ∈ [(0 : Int), 3, 6, 9] ∧ (p = 6 ∨ p = 9 → InI64 v)
    | .null t => Producible st t ∧ l.nullable = false
    | .other _ => False

/-- A literal with nothing to report: printable kind, date and time in range. -/
def CompleteLit (st : Store) (l : Literal) : Prop :=
  ∃ v, l.value = some v ∧
    match v with
    | .other _ => False
    | .date d => minDays ≤ d ∧ d ≤ maxDays
    | .time us => 0 ≤ us ∧ us < 86400 * perSecond 6
    | .timestamp us => InCalendar us 6
    | .interval i => i.units.1 ∈ [(0 : Int), 3, 6, 9, 12] ∧ ¬ i.outOfBounds ∧
        (i.units.1 = 0 → i.units.2 = 0) ∧ (i.units.2 < perSecond i.units.1 ∧ -perSecond i.units.1 < i.units.2)
    | .prec .time p v => p ∈ [(0 : Int), 3, 6, 9] ∧ 0 ≤ v ∧ v < 86400 * perSecond p
    | .prec _ p v => p ∈ [(0 : Int), 3, 6, 9] ∧ InCalendar v p
    | .null t => CompleteTy st t
    | _ => True

end Verif
