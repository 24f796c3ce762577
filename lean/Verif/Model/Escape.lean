import Verif.Model.Peg
/-!
# Printing of strings and names

`str::escape_debug` and `Name` (`src/textify/types.rs`).
-/

namespace Verif

/-- The two Unicode tables `char::escape_debug` consults.  They are left open: every theorem holds
for any tables. -/
class UTab where
  /-- `core::unicode::printable::is_printable` -/
  printable : Char → Bool
  /-- `char::is_grapheme_extended` -/
  graphemeExt : Char → Bool

/-- Lower-case hexadecimal digit. -/
def hexChar (n : Nat) : Char := Char.ofNat (if n < 10 then 48 + n else 87 + n)

/-- Lower-case hexadecimal without leading zeros. -/
def hex (n : Nat) : Str := if n < 16 then [hexChar n] else hex (n / 16) ++ [hexChar (n % 16)]
  termination_by n

/-- `char::escape_unicode`. -/
def escUnicode (c : Char) : Str := cs!"\\u{" ++ hex c.toNat ++ cs!"}"

/-- `char::escape_debug_ext` (core library), with quotes escaped; `first` also escapes grapheme
extenders. -/
def escChar [UTab] (first : Bool) (c : Char) : Str :=
  if c = '\x00' then cs!"\\0"
  else if c = '\t' then cs!"\\t"
  else if c = '\r' then cs!"\\r"
  else if c = '\n' then cs!"\\n"
  else if c = '\\' then cs!"\\\\"
  else if c = '"' then cs!"\\\""
  else if c = '\'' then cs!"\\'"
  else if first && UTab.graphemeExt c then escUnicode c
  else if UTab.printable c then [c]
  else escUnicode c

/-- `str::escape_debug`, used by textify/types.rs L65-67 `escaped`. -/
def escape [UTab] : Str → Str
  | [] => []
  | c :: s => escChar true c ++ s.flatMap (escChar false)

/-- textify/types.rs L44-62 `is_identifer`. -/
def isIdentifier : Str → Bool
  | [] => false
  | c :: s => isAlpha c && s.all isIdentChar

/-- textify/types.rs L74-82 `Name`. -/
def showName [UTab] (s : Str) : Str :=
  if isIdentifier s then s else cs!"\"" ++ escape s ++ cs!"\""

/-- textify/expressions.rs `'{}'` of an escaped string (L308-381). -/
def showString [UTab] (s : Str) : Str := cs!"'" ++ escape s ++ cs!"'"

end Verif
