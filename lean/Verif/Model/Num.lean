import Verif.Model.Base
/-!
# Decimal integers

Rust `{}` formatting of integers and `str::parse` for integers, as used all over `src/textify`
and `src/parser`.
-/

namespace Verif

/-- ASCII digit (pest `ASCII_DIGIT`). -/
def isDigit (c : Char) : Bool := 48 ≤ c.toNat && c.toNat ≤ 57

/-- The character of a decimal digit. -/
def digitChar (n : Nat) : Char := Char.ofNat (48 + n)

/-- Rust `{}` of an unsigned integer. -/
def dec (n : Nat) : Str := if n < 10 then [digitChar n] else dec (n / 10) ++ [digitChar (n % 10)]
  termination_by n

/-- Rust `{}` of a signed integer. -/
def decInt (i : Int) : Str := if i < 0 then '-' :: dec i.natAbs else dec i.natAbs

/-- Value of a digit string. -/
def decVal (ds : Str) : Nat := ds.foldl (fun a c => a * 10 + (c.toNat - 48)) 0

/-- A token matched by pest rule `integer` (expression_grammar.pest L9): optional minus sign and a
digit string, of which only the value matters. -/
structure IntTok where
  neg : Bool
  val : Nat
  deriving DecidableEq, Repr

namespace IntTok

/-- The integer a token denotes. -/
def toInt (t : IntTok) : Int := if t.neg then -(t.val : Int) else t.val

/-- `str::parse::<i64>` of an integer token. -/
def toI64 (t : IntTok) : Option Int :=
  if -(2 ^ 63 : Int) ≤ t.toInt ∧ t.toInt < 2 ^ 63 then some t.toInt else none

/-- `str::parse::<i32>` of an integer token. -/
def toI32 (t : IntTok) : Option Int :=
  if -(2 ^ 31 : Int) ≤ t.toInt ∧ t.toInt < 2 ^ 31 then some t.toInt else none

/-- `str::parse::<u32>` of an integer token; a minus sign is never accepted. -/
def toU32 (t : IntTok) : Option Nat :=
  if t.neg then none else if t.val < 2 ^ 32 then some t.val else none

/-- The token printed for an integer. -/
def ofInt (i : Int) : IntTok := ⟨decide (i < 0), i.natAbs⟩

end IntTok

/-- Remove one leading plus sign. -/
def stripPlus : Str → Str
  | '+' :: ds => ds
  | ds => ds

/-- `str::parse::<u32>` of an arbitrary string: optional plus sign, at least one digit. -/
def parseU32 (s : Str) : Option Nat :=
  let ds := stripPlus s
  if ds ≠ [] ∧ ds.all isDigit ∧ decVal ds < 2 ^ 32 then some (decVal ds) else none

end Verif
