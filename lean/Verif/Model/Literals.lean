import Verif.Model.Types
import Verif.Model.Chrono
/-!
# Literals

`substrait::proto::expression::Literal`, its printing (`src/textify/expressions.rs`), the rule
`expression_literal` and its conversion (`src/parser/expressions.rs`), and `src/precision.rs`.
-/

namespace Verif

set_option autoImplicit false

/-! ## Precisions -/

/-- precision.rs L16-22 `SupportedPrecision`. -/
inductive Precision where
  | seconds | milliseconds | microseconds | nanoseconds | picoseconds
  deriving DecidableEq, Repr

namespace Precision

/-- precision.rs L26-34. -/
def units : Precision → Int
  | seconds => 0
  | milliseconds => 3
  | microseconds => 6
  | nanoseconds => 9
  | picoseconds => 12

/-- precision.rs L37-46. -/
def fromUnits (i : Int) : Option Precision :=
  if i = 0 then some seconds
  else if i = 3 then some milliseconds
  else if i = 6 then some microseconds
  else if i = 9 then some nanoseconds
  else if i = 12 then some picoseconds
  else none

/-- precision.rs L51-59. -/
def subsecondUnit : Precision → Option Str
  | seconds => none
  | milliseconds => some cs!"ms"
  | microseconds => some cs!"us"
  | nanoseconds => some cs!"ns"
  | picoseconds => some cs!"ps"

/-- precision.rs L62-70. -/
def fromSubsecondUnit (s : Str) : Option Precision :=
  if s = cs!"ms" then some milliseconds
  else if s = cs!"us" then some microseconds
  else if s = cs!"ns" then some nanoseconds
  else if s = cs!"ps" then some picoseconds
  else none

end Precision

/-! ## Literal values -/

/-- The four integer literal kinds. -/
inductive IntW where
  | i8 | i16 | i32 | i64
  deriving DecidableEq, Repr

/-- `interval_day_to_second::PrecisionMode`, an optional field. -/
inductive PMode where
  | unset
  | precision (p : Int)
  | microseconds (us : Int)
  deriving DecidableEq, Repr

/-- `proto::expression::literal::IntervalDayToSecond`. -/
structure Interval where
  days : Int
  secs : Int
  sub : Int
  mode : PMode
  deriving DecidableEq, Repr

/-- `proto::expression::literal::LiteralType`.  Floating-point numbers are their bit patterns;
`other` is any variant the printer refuses, whatever it holds. -/
inductive Lit where
  | bool (b : Bool)
  | int (w : IntW) (i : Int)
  | fp32 (bits : Nat)
  | fp64 (bits : Nat)
  | string (s : Str)
  | binary (bytes : List Nat)
  | date (days : Int)
  | time (us : Int)
  | timestamp (us : Int)
  | interval (i : Interval)
  | prec (k : PrecKind) (p v : Int)
  | null (t : Ty)
  | other (variant : Str)

/-- `proto::expression::Literal`. -/
structure Literal where
  value : Option Lit
  nullable : Bool
  tvar : Nat

/-- The floating-point operations of the standard library, left open: every theorem holds for any
of them. -/
class FTab where
  /-- `{}` of the `f32` with these bits -/
  show32 : Nat → Str
  /-- `{}` of the `f64` with these bits -/
  show64 : Nat → Str
  /-- `str::parse::<f64>`, of text matched by `float` -/
  parse64 : Str → Nat
  /-- `as f32` -/
  to32 : Nat → Nat

/-! ## Printing -/

/-- Marks a panic of the printer in a list of errors; the text is then meaningless. -/
def panicMark : Str := cs!"panic!"

/-- A panic while printing. -/
def Out.panic : Out := ⟨[], [panicMark]⟩

/-- Two hexadecimal digits. -/
def hex2 (n : Nat) : Str := [hexChar (n / 16 % 16), hexChar (n % 16)]

/-- textify/expressions.rs L33-43 `textify_binary`. -/
def textBinary (o : Opts) (bs : List Nat) : Out :=
  .s (if o.binaries then cs!"0x" ++ bs.flatMap hex2 else cs!"{binary}")

/-- textify/expressions.rs L46-60 and the failures at L77, L108, L222, L258: all name
`LiteralType`. -/
def litFail : Out := .fail cs!"LiteralType"

/-- textify/expressions.rs L94-110 `write_precision_literal`. -/
def textPrecLit [UTab] (p : Int) : Option Str → Out
  | some s => ⟨showString s, if p = 12 then [cs!"LiteralType"] else []⟩
  | none => litFail

/-- textify/expressions.rs L200-207 `interval_day_precision_units`. -/
def Interval.units (i : Interval) : Int × Int :=
  match i.mode with
  | .precision p => (p, i.sub)
  | .microseconds us => (6, us)
  | .unset => (6, i.sub)

/-- textify/expressions.rs L227-240: outside the Substrait bounds. -/
def Interval.outOfBounds (i : Interval) : Prop :=
  i.days < -3650000 ∨ 3650000 < i.days ∨
  i.days * 86400 + i.secs < -3650000 * 86400 ∨ 3650000 * 86400 < i.days * 86400 + i.secs

instance (i : Interval) : Decidable i.outOfBounds := by unfold Interval.outOfBounds; infer_instance

/-- textify/expressions.rs L244-250. -/
def Interval.wholeTerms (i : Interval) : List Str :=
  (if i.days ≠ 0 then [decInt i.days ++ cs!"d"] else []) ++
  (if i.secs ≠ 0 then [decInt i.secs ++ cs!"s"] else [])

/-- `parts.join(" ")`, or `0s` (L294-299). -/
def joinTerms : List Str → Str
  | [] => cs!"0s"
  | [a] => a
  | a :: b :: l => a ++ cs!" " ++ joinTerms (b :: l)

/-- textify/expressions.rs L209-302 `write_interval_day_to_second_literal`. -/
def textInterval [UTab] (i : Interval) : Out :=
  match Precision.fromUnits i.units.1 with
  | none => litFail
  | some pr =>
    let range : Out := ⟨[], if i.outOfBounds then [cs!"LiteralType"] else []⟩
    if i.units.2 ≠ 0 then
      match pr.subsecondUnit with
      | none => range ++ litFail
      | some u =>
        range ++ ⟨[], if i.units.2 ≤ -(10 ^ pr.units.toNat) ∨ 10 ^ pr.units.toNat ≤ i.units.2
            then [cs!"LiteralType"] else []⟩ ++
          .s (showString (joinTerms (i.wholeTerms ++ [decInt i.units.2 ++ u])))
    else range ++ .s (showString (joinTerms i.wholeTerms))

/-- textify/expressions.rs L308-381 `write_literal_value`. -/
def textValue [UTab] [FTab] (o : Opts) : Lit → Out
  | .bool b => .s (if b then cs!"true" else cs!"false")
  | .int _ i => .s (decInt i)
  | .fp32 f => .s (FTab.show32 f)
  | .fp64 f => .s (FTab.show64 f)
  | .string s => .s (showString s)
  | .binary bs => textBinary o bs
  | .date d =>
    match dateText d with
    | some s => .s (showString s)
    | none => .panic
  | .time us => textPrecLit 6 (timeText us 6)
  | .timestamp us => textPrecLit 6 (timestampText us 6)
  | .interval i => textInterval i
  | .prec .time p v => textPrecLit p (timeText v p)
  | .prec _ p v => textPrecLit p (timestampText v p)
  | .null _ => .s cs!"null"
  | .other _ => litFail

/-- textify/expressions.rs L395-419: type name and precision parameter. -/
def Lit.suffix : Lit → Option (Str × Option Int)
  | .bool _ => some (cs!"boolean", none)
  | .int .i8 _ => some (cs!"i8", none)
  | .int .i16 _ => some (cs!"i16", none)
  | .int .i32 _ => some (cs!"i32", none)
  | .int .i64 _ => some (cs!"i64", none)
  | .fp32 _ => some (cs!"fp32", none)
  | .fp64 _ => some (cs!"fp64", none)
  | .string _ => some (cs!"string", none)
  | .binary _ => some (cs!"binary", none)
  | .date _ => some (cs!"date", none)
  | .time _ => some (cs!"time", none)
  | .timestamp _ => some (cs!"timestamp", none)
  | .prec .timestamp p _ => some (cs!"precisiontimestamp", some p)
  | .prec .timestampTz p _ => some (cs!"precisiontimestamptz", some p)
  | .prec .time p _ => some (cs!"precisiontime", some p)
  | .interval i => some (cs!"interval_day", some i.units.1)
  | .null _ => none
  | .other _ => none

/-- textify/expressions.rs L390-431 `write_literal_type_suffix`. -/
def textSuffix (l : Lit) (nullable : Bool) : Out :=
  match l.suffix with
  | none => .s []
  | some (name, p) =>
    .s (cs!":" ++ name ++ (if nullable then cs!"?" else []) ++
      (match p with | some p => cs!"<" ++ decInt p ++ cs!">" | none => []))

/-- textify/expressions.rs L445-454 `is_default_for_syntax`. -/
def Lit.isDefault : Lit → Bool
  | .bool _ => true
  | .string _ => true
  | .binary _ => true
  | .int .i64 _ => true
  | .fp64 _ => true
  | _ => false

/-- textify/expressions.rs L471-475. -/
def showSuffix (o : Opts) (nullable : Bool) (l : Lit) : Bool :=
  match o.litTypes with
  | .never => false
  | .always => true
  | .required => nullable || !l.isDefault

/-- textify/expressions.rs L456-488. -/
def textLit [UTab] [FTab] (st : Store) (o : Opts) (l : Literal) : Out :=
  match l.value with
  | none => .fail cs!"Literal"
  | some (.null t) => textValue o (.null t) ++ .s cs!":" ++ textTy st o t
  | some v => textValue o v ++ (if showSuffix o l.nullable v then textSuffix v l.nullable else .s [])

/-! ## Syntax -/

/-- The value alternatives of `expression_literal` (L58); strings already unescaped. -/
inductive SVal where
  | float (text : Str)
  | int (i : IntTok)
  | bool (b : Bool)
  | str (s : Str)
  | null

/-- Parse tree of `expression_literal` (L58). -/
structure SLit where
  value : SVal
  ty : Option STy

/-- The value of `expression_literal` (L58), alternatives in order. -/
def pValue (s : Str) : Option (SVal × Str) :=
  ((((mapFst .float (pFloat s)).or (mapFst .int (pInteger s))).or (mapFst .bool (pBoolean s))).or
    (mapFst .str (pString s))).or ((pNull s).map fun r => (.null, r))

/-- `":" ~ sp ~ type`. -/
def pAscription (s : Str) : Option (STy × Str) := do pType (skipSp (← lit cs!":" s))

/-- `expression_literal` (L58). -/
def pLiteral (s : Str) : Option (SLit × Str) := do
  let (v, s) ← pValue s
  let (t, s) := pOpt pAscription s
  some (⟨v, t⟩, s)

/-! ### Day intervals -/

/-- `integer ~ "d"` and `integer ~ "s"` (L440-441). -/
def pTerm (unit : Str) (s : Str) : Option (IntTok × Str) := do
  let (i, s) ← pInteger s
  let s ← lit unit s
  some (i, s)

/-- `duration_subseconds` (L442-446). -/
def pSub (s : Str) : Option ((IntTok × Str) × Str) := do
  let (i, s) ← pInteger s
  let (u, s) ← pFirst [cs!"ms", cs!"us", cs!"ns", cs!"ps"] s
  some ((i, u), s)

/-- `whitespace ~ p`. -/
def spThen {α : Type} (p : Str → Option (α × Str)) (s : Str) : Option (α × Str) := do p (← lit cs!" " s)

/-- Parse tree of `interval_day_duration`. -/
structure SDur where
  days : Option IntTok
  secs : Option IntTok
  sub : Option (IntTok × Str)

/-- `interval_day_duration` (L432-438), between `SOI` and `EOI`. -/
def pDurBody (s : Str) : Option (SDur × Str) :=
  match pTerm cs!"d" s with
  | some (d, s) =>
    let (sec, s) := pOpt (spThen (pTerm cs!"s")) s
    let (sub, s) := pOpt (spThen pSub) s
    some (⟨some d, sec, sub⟩, s)
  | none =>
    match pTerm cs!"s" s with
    | some (sec, s) =>
      let (sub, s) := pOpt (spThen pSub) s
      some (⟨none, some sec, sub⟩, s)
    | none => mapFst (fun sub => ⟨none, none, some sub⟩) (pSub s)

/-- `interval_day_duration` (L432-438). -/
def pDuration (s : Str) : Option SDur := complete (pDurBody s)

/-! ## Conversion -/

/-- `nullability != Required` (e.g. parser/expressions.rs L135). -/
def Nul.asNullable (n : Nul) : Bool := n != .required

/-- Rust `as i32` of an `i64`. -/
def wrap32 (i : Int) : Int := (i + 2 ^ 31) % 2 ^ 32 - 2 ^ 31

/-- parser/expressions.rs L95-138 `to_int_literal`; the `unwrap` of L97 panics on numbers outside
`i64`. -/
def toIntLit (i : IntTok) (t : Option Ty) : Res Err Literal :=
  match i.toI64 with
  | none => .panic
  | some i =>
    match t with
    | none => .ok ⟨some (.int .i64 i), false, 0⟩
    | some .missing => .ok ⟨some (.int .i64 i), false, 0⟩
    | some (.simple .i8 n v) => .ok ⟨some (.int .i8 (wrap32 i)), n.asNullable, v⟩
    | some (.simple .i16 n v) => .ok ⟨some (.int .i16 (wrap32 i)), n.asNullable, v⟩
    | some (.simple .i32 n v) => .ok ⟨some (.int .i32 (wrap32 i)), n.asNullable, v⟩
    | some (.simple .i64 n v) => .ok ⟨some (.int .i64 i), n.asNullable, v⟩
    | some _ => .err (.invalid cs!"int_literal_type")

/-- parser/expressions.rs L145-177 `to_float_literal`. -/
def toFloatLit [FTab] (x : Str) (t : Option Ty) : Res Err Literal :=
  match t with
  | none => .ok ⟨some (.fp64 (FTab.parse64 x)), false, 0⟩
  | some .missing => .ok ⟨some (.fp64 (FTab.parse64 x)), false, 0⟩
  | some (.simple .fp32 n v) => .ok ⟨some (.fp32 (FTab.to32 (FTab.parse64 x))), n.asNullable, v⟩
  | some (.simple .fp64 n v) => .ok ⟨some (.fp64 (FTab.parse64 x)), n.asNullable, v⟩
  | some _ => .err (.invalid cs!"float_literal_type")

/-- parser/expressions.rs L179-203 `to_boolean_literal`. -/
def toBoolLit (b : Bool) (t : Option Ty) : Res Err Literal :=
  match t with
  | none => .ok ⟨some (.bool b), false, 0⟩
  | some .missing => .ok ⟨some (.bool b), false, 0⟩
  | some (.simple .boolean n v) => .ok ⟨some (.bool b), n.asNullable, v⟩
  | some _ => .err (.invalid cs!"bool_literal_type")

/-- Number fits an `i64`. -/
def inI64 (i : Int) : Bool := decide (-(2 ^ 63) ≤ i ∧ i < 2 ^ 63)

/-- parser/expressions.rs L402-464 `duration_to_precision_units`, of a duration in nanoseconds. -/
def nsToUnits (ns : Int) (p : Precision) : Res Err Int :=
  match p with
  | .seconds =>
    let v := ns.tdiv 1000000000
    if v * 1000000000 ≠ ns then .err (.invalid cs!"precision_literal_fractional_truncated") else .ok v
  | .milliseconds =>
    let v := ns.tdiv 1000000
    if v * 1000000 ≠ ns then .err (.invalid cs!"precision_literal_fractional_truncated") else .ok v
  | .microseconds =>
    let v := ns.tdiv 1000
    if !inI64 v then .err (.invalid cs!"precision_literal_out_of_range")
    else if v * 1000 ≠ ns then .err (.invalid cs!"precision_literal_fractional_truncated") else .ok v
  | .nanoseconds => if inI64 ns then .ok ns else .err (.invalid cs!"precision_literal_out_of_range")
  | .picoseconds => .err (.invalid cs!"precision_literal_unsupported_precision")

/-- parser/expressions.rs L466-490 `check_supported_precision`. -/
def checkPrecision (p : Int) : Res Err Precision :=
  match Precision.fromUnits p with
  | some .picoseconds => .err (.invalid cs!"precision_literal_unsupported_precision")
  | some p => .ok p
  | none => .err (.invalid cs!"precision_literal_invalid_precision")

/-- parser/expressions.rs L493-528 `parse_timestamp_to_precision_units`. -/
def stampUnits (s : Str) (p : Int) : Res Err Int :=
  (checkPrecision p).bind fun p =>
    match readStamp s with
    | some ns => nsToUnits ns p
    | none => .err (.invalid cs!"timestamp_parse_format")

/-- parser/expressions.rs L531-555 `parse_time_to_precision_units`. -/
def timeUnits (s : Str) (p : Int) : Res Err Int :=
  (checkPrecision p).bind fun p =>
    match readTime s with
    | some ns => nsToUnits ns p
    | none => .err (.invalid cs!"time_parse_format")

/-- An optional number that must fit, or the overflow error of parser/expressions.rs L596-605. -/
def fitOr {α : Type} (conv : α → Option Int) : Option α → Res Err Int
  | none => .ok 0
  | some t =>
    match conv t with
    | some i => .ok i
    | none => .err (.invalid cs!"interval_day_duration")

/-- parser/expressions.rs L640-700 `interval_day_from_pair`, the sub-second term. -/
def convSub (p : Precision) : Option (IntTok × Str) → Res Err Int
  | none => .ok 0
  | some (t, u) =>
    if Precision.fromSubsecondUnit u ≠ some p then .err (.invalid cs!"interval_day_duration")
    else fitOr IntTok.toI64 (some t)

/-- parser/expressions.rs L610-700 `parse_interval_day_duration`. -/
def readInterval (s : Str) (p : Precision) : Res Err Interval :=
  match pDuration s with
  | none => .err (.invalid cs!"interval_day_duration")
  | some d =>
    (fitOr IntTok.toI32 d.days).bind fun days =>
      (fitOr IntTok.toI32 d.secs).bind fun secs =>
        (convSub p d.sub).bind fun sub => .ok ⟨days, secs, sub, .precision p.units⟩

/-- parser/expressions.rs L205-345 `to_string_literal`. -/
def toStringLit (s : Str) (t : Option Ty) : Res Err Literal :=
  match t with
  | some (.simple .date n v) =>
    match readDate s with
    | some d => .ok ⟨some (.date d), n.asNullable, v⟩
    | none => .err (.invalid cs!"date_parse_format")
  | some (.intervalDay p n v) =>
    match p.bind Precision.fromUnits with
    | some p => (readInterval s p).bind fun i => .ok ⟨some (.interval i), n.asNullable, v⟩
    | none => .err (.invalid cs!"interval_day_literal_type")
  | some (.simple .time n v) =>
    (timeUnits s 6).bind fun us => .ok ⟨some (.time us), n.asNullable, v⟩
  | some (.simple .timestamp n v) =>
    (stampUnits s 6).bind fun us => .ok ⟨some (.timestamp us), n.asNullable, v⟩
  | some (.prec .time p n v) =>
    (timeUnits s p).bind fun x => .ok ⟨some (.prec .time p x), n.asNullable, v⟩
  | some (.prec k p n v) =>
    (stampUnits s p).bind fun x => .ok ⟨some (.prec k p x), n.asNullable, v⟩
  | _ => .ok ⟨some (.string s), false, 0⟩

/-- parser/expressions.rs L347-362 `to_null_literal`. -/
def toNullLit (t : Option Ty) : Res Err Literal :=
  match t with
  | none => .err (.invalid cs!"null_literal_type")
  | some t => .ok ⟨some (.null t), false, 0⟩

/-- The match of parser/expressions.rs L724-731. -/
def convValue [FTab] (v : SVal) (t : Option Ty) : Res Err Literal :=
  match v with
  | .int i => toIntLit i t
  | .float x => toFloatLit x t
  | .bool b => toBoolLit b t
  | .str s => toStringLit s t
  | .null => toNullLit t

/-- parser/expressions.rs L702-733: the type is converted first. -/
def convLit [FTab] (st : Store) (l : SLit) : Res Err Literal :=
  (match l.ty with | some t => (convTy st t).map some | none => .ok none).bind fun t =>
    convValue l.value t

end Verif
