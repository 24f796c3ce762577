import Verif.Model.Num
/-!
# PEG primitives and terminals

pest matching of the terminals of `src/parser/expression_grammar.pest`.  A rule is a function from
the remaining characters to the matched value and the characters after it; `none` is failure and
leaves the position unchanged (ordered choice tries the next alternative from the same place).
-/

namespace Verif

/-- Match a fixed string; answers with the rest. -/
def lit : Str → Str → Option Str
  | [], s => some s
  | _ :: _, [] => none
  | c :: p, d :: s => if c = d then lit p s else none

/-- ASCII upper-case letters. -/
def isUpper (c : Char) : Bool := 65 ≤ c.toNat && c.toNat ≤ 90
/-- ASCII lower-case letters. -/
def isLower (c : Char) : Bool := 97 ≤ c.toNat && c.toNat ≤ 122
/-- pest `ASCII_ALPHA`. -/
def isAlpha (c : Char) : Bool := isUpper c || isLower c
/-- pest `ASCII_ALPHANUMERIC`. -/
def isAlnum (c : Char) : Bool := isAlpha c || isDigit c
/-- Characters of an identifier after the first (expression_grammar.pest L8). -/
def isIdentChar (c : Char) : Bool := isAlnum c || c == '_'

/-- ASCII lower-casing. -/
def toLower (c : Char) : Char := if isUpper c then Char.ofNat (c.toNat + 32) else c

/-- Match a fixed string ignoring ASCII case (pest `^"..."`). -/
def litI : Str → Str → Option Str
  | [], s => some s
  | _ :: _, [] => none
  | c :: p, d :: s => if toLower c = toLower d then litI p s else none

/-- `sp` (L5): any number of spaces. -/
def skipSp (s : Str) : Str := s.dropWhile (· == ' ')

/-- `identifier` (L8). -/
def pIdent (s : Str) : Option (Str × Str) :=
  match s with
  | [] => none
  | c :: cs =>
    if isAlpha c then some (c :: cs.takeWhile isIdentChar, cs.dropWhile isIdentChar) else none

/-- A nonempty run of digits. -/
def pDigits (s : Str) : Option (Str × Str) :=
  let ds := s.takeWhile isDigit
  if ds.isEmpty then none else some (ds, s.dropWhile isDigit)

/-- Optional minus sign. -/
def pMinus (s : Str) : Bool × Str :=
  match s with
  | '-' :: s => (true, s)
  | _ => (false, s)

/-- `integer` (L9). -/
def pInteger (s : Str) : Option (IntTok × Str) :=
  let (neg, s) := pMinus s
  match pDigits s with
  | none => none
  | some (ds, s) => some (⟨neg, decVal ds⟩, s)

/-- `float` (L10); the matched text is kept. -/
def pFloat (s : Str) : Option (Str × Str) :=
  let (neg, s) := pMinus s
  match pDigits s with
  | none => none
  | some (ds, s) =>
    match lit cs!"." s with
    | none => none
    | some s =>
      match pDigits s with
      | none => none
      | some (fs, s) => some ((if neg then ['-'] else []) ++ ds ++ ['.'] ++ fs, s)

/-- `boolean` (L11). -/
def pBoolean (s : Str) : Option (Bool × Str) :=
  match lit cs!"true" s with
  | some s => some (true, s)
  | none =>
    match lit cs!"false" s with
    | some s => some (false, s)
    | none => none

/-- `null` (L12). -/
def pNull (s : Str) : Option Str := lit cs!"null" s

/-- Body and closing quote of `string_literal` (L16-22) and `quoted_name` (L24-30), after the
opening quote `q`: either a backslash and any character, or any character but the quote; then
the quote.  Answers with the raw text between the quotes. -/
def pQuoted (q : Char) : Str → Option (Str × Str)
  | [] => none
  | c :: s =>
    if c = '\\' then
      match s with
      | [] => none
      | d :: s =>
        match pQuoted q s with
        | none => none
        | some (b, r) => some (c :: d :: b, r)
    else if c = q then some ([], s)
    else
      match pQuoted q s with
      | none => none
      | some (b, r) => some (c :: b, r)

/-- parser/common.rs L102-153 `unescape_string`, on the text between the quotes.  The panics at
L127 and L131 cannot happen on text matched by `pQuoted` (`unescape_total`); a trailing lone
backslash is dropped here. -/
def unescape : Str → Str
  | [] => []
  | ['\\'] => []
  | '\\' :: c :: s =>
    (if c = 'n' then '\n' else if c = 't' then '\t' else if c = 'r' then '\r' else c) :: unescape s
  | c :: s => c :: unescape s

/-- `string_literal` (L16-22) followed by `unescape_string`. -/
def pString (s : Str) : Option (Str × Str) :=
  match lit cs!"'" s with
  | none => none
  | some s =>
    match pQuoted '\'' s with
    | none => none
    | some (b, r) => some (unescape b, r)

/-- `quoted_name` (L24-30) followed by `unescape_string`. -/
def pQuotedName (s : Str) : Option (Str × Str) :=
  match lit cs!"\"" s with
  | none => none
  | some s =>
    match pQuoted '"' s with
    | none => none
    | some (b, r) => some (unescape b, r)

/-- `name` (L33) with the conversion of parser/expressions.rs L1017-1037. -/
def pName (s : Str) : Option (Str × Str) :=
  match pIdent s with
  | some r => some r
  | none => pQuotedName s

end Verif
