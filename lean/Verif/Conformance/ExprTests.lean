import Verif.Conformance.Tools
import Verif.Model.ExprEq
/-!
# The unit tests of src/parser/expressions.rs, on the model

Where a test compares a message of an error or only looks at part of a value, the comparison here is
with the class of the error and with the whole value.
-/

namespace Verif.Conformance

open Store

set_option autoImplicit false

scoped instance testUTab : UTab := asciiTab
scoped instance testFTab : FTab := textTab

/-- `parse_exact` followed by `parse_pair` (parser/expressions.rs L1097-1120): the value, if there is
one. -/
def exact {α β : Type} (p : Str → Option (α × Str)) (conv : α → Res Err β) (s : Str) : Option β :=
  match complete (p s) with
  | some a => match conv a with
    | .ok b => some b
    | _ => none
  | none => none

/-- The text is matched by the rule but refused with an error, not with a panic. -/
def refused {α β : Type} (p : Str → Option (α × Str)) (conv : α → Res Err β) (s : Str) : Bool :=
  match complete (p s) with
  | some a => match conv a with
    | .err _ => true
    | _ => false
  | none => false

def literal (st : Store) (s : Str) : Option Literal := exact pLiteral (convLit st) s
def literalRefused (s : Str) : Bool := refused pLiteral (convLit empty) s
def expr (st : Store) (s : Str) : Option Expr := exact pExpr (convExpr st) s

/-- A literal without type variation. -/
def lit! (v : Lit) (nullable : Bool := false) : Option Literal := some ⟨some v, nullable, 0⟩

/-- L1122 `test_parse_field_reference` -/
example : expr empty cs!"$1" = some (.selection (.field 1 none)) := by decide +kernel
/-- L1127 `test_parse_integer_literal` -/
example : literal empty cs!"1" = lit! (.int .i64 1) := by decide +kernel
/-- L1138 `test_parse_float_literal` -/
example : literal empty cs!"3.82" = lit! (.fp64 (textTab.parse64 cs!"3.82")) := by decide +kernel
/-- L1154 `test_parse_negative_float_literal` -/
example : literal empty cs!"-2.5" = lit! (.fp64 (textTab.parse64 cs!"-2.5")) := by decide +kernel
/-- L1165 `test_parse_boolean_true_literal` -/
example : literal empty cs!"true" = lit! (.bool true) := by decide +kernel
/-- L1176 `test_parse_boolean_false_literal` -/
example : literal empty cs!"false" = lit! (.bool false) := by decide +kernel
/-- L1187 `test_parse_nullable_boolean_literal` -/
example : literal empty cs!"true:boolean?" = lit! (.bool true) true ∧
    literal empty cs!"false:boolean?" = lit! (.bool false) true := by decide +kernel
/-- L1204 `test_parse_nullable_integer_literal` -/
example : literal empty cs!"78:i32?" = lit! (.int .i32 78) true ∧
    literal empty cs!"42:i64?" = lit! (.int .i64 42) true := by decide +kernel
/-- L1221 `test_parse_nullable_float_literal` -/
example : literal empty cs!"3.19:fp64?" = lit! (.fp64 (textTab.parse64 cs!"3.19")) true := by decide +kernel
/-- L1232 `test_parse_float_literal_with_fp32_type` -/
example : literal empty cs!"3.82:fp32" = lit! (.fp32 (textTab.to32 (textTab.parse64 cs!"3.82"))) := by decide +kernel
/-- L1244 `test_parse_date_literal` -/
example : literal empty cs!"'2023-12-25':date" = lit! (.date 19716) := by decide +kernel
/-- L1263 `test_parse_time_literal` -/
example : literal empty cs!"'14:30:45':time" = lit! (.time ((14 * 3600 + 30 * 60 + 45) * 1000000)) := by decide +kernel
/-- L1280 `test_parse_timestamp_literal_with_t` -/
example : literal empty cs!"'2023-01-01T12:00:00':timestamp" = lit! (.timestamp 1672574400000000) := by decide +kernel
/-- L1301 `test_parse_timestamp_literal_with_space` -/
example : literal empty cs!"'2023-01-01 12:00:00':timestamp" = lit! (.timestamp 1672574400000000) := by decide +kernel
/-- L1322 `test_parse_precision_timestamp_literal` -/
example : literal empty cs!"'2023-01-01T12:00:00.123456789':precisiontimestamp<9>" =
    lit! (.prec .timestamp 9 1672574400123456789) := by decide +kernel
/-- L1347 `test_parse_precision_timestamp_tz_literal_nullable` -/
example : literal empty cs!"'2023-01-01T12:00:00.123':precisiontimestamptz?<3>" =
    lit! (.prec .timestampTz 3 1672574400123) true := by decide +kernel
/-- L1369 `test_parse_precision_time_literal` -/
example : literal empty cs!"'14:30:45.123456':precisiontime<6>" =
    lit! (.prec .time 6 ((14 * 3600 + 30 * 60 + 45) * 1000000 + 123456)) := by decide +kernel
/-- L1391 `test_parse_precision_timestamp_literal_precision_12_unsupported` -/
example : literalRefused cs!"'2023-01-01T12:00:00':precisiontimestamp<12>" = true := by decide +kernel
/-- L1402 `test_parse_precision_timestamp_literal_invalid_precision` -/
example : literalRefused cs!"'2023-01-01T12:00:00':precisiontimestamp<5>" = true := by decide +kernel
/-- L1414 `test_parse_precision_timestamp_literal_nullable` -/
example : literal empty cs!"'2023-01-01T12:00:00.123456789':precisiontimestamp?<9>" =
    lit! (.prec .timestamp 9 1672574400123456789) true := by decide +kernel
/-- L1425 `test_parse_precision_time_literal_nullable` -/
example : literal empty cs!"'14:30:45.123456':precisiontime?<6>" =
    lit! (.prec .time 6 52245123456) true := by decide +kernel
/-- L1436 `test_parse_precision_timestamp_literal_fractional_truncated` -/
example : literalRefused cs!"'2023-01-01T12:00:00.999':precisiontimestamp<0>" = true := by decide +kernel
/-- L1449 `test_parse_precision_time_literal_fractional_truncated` -/
example : literalRefused cs!"'14:30:45.123456':precisiontime<3>" = true := by decide +kernel
/-- L1462 `test_parse_precision_timestamp_literal_nanosecond_overflow` -/
example : literalRefused cs!"'2300-01-01T00:00:00':precisiontimestamp<9>" = true := by decide +kernel

/-- L1499 `test_parse_interval_day_literals` -/
example : [
    (cs!"'5d':interval_day<0>", 5, 0, 0, 0),
    (cs!"'5d':interval_day<9>", 5, 0, 0, 9),
    (cs!"'4d 5s':interval_day<0>", 4, 5, 0, 0),
    (cs!"'123ms':interval_day<3>", 0, 0, 123, 3),
    (cs!"'123456us':interval_day<6>", 0, 0, 123456, 6),
    (cs!"'123456789ns':interval_day<9>", 0, 0, 123456789, 9),
    (cs!"'5d 3s 100ns':interval_day<9>", 5, 3, 100, 9),
    (cs!"'-5d 3s':interval_day<0>", -5, 3, 0, 0),
    (cs!"'-500000000ns':interval_day<9>", 0, 0, -500000000, 9),
    (cs!"'5d':interval_day?<6>", 5, 0, 0, 6),
    (cs!"'3650001d':interval_day<0>", 3650001, 0, 0, 0),
    (cs!"'1000000000ns':interval_day<9>", 0, 0, 1000000000, 9)].all (fun (s, d, x, b, p) =>
      match literal empty s with
      | some l => l.value == some (.interval ⟨d, x, b, .precision p⟩)
      | none => false) = true := by decide +kernel

/-- L1525 `test_parse_interval_day_literal_errors` -/
example : [
    cs!"'':interval_day<0>", cs!"'5x':interval_day<0>", cs!"'5':interval_day<0>",
    cs!"'5d 3d':interval_day<0>", cs!"'5s 3s':interval_day<0>", cs!"'3ms 5us':interval_day<3>",
    cs!"'3s 5d':interval_day<0>", cs!"'100ns 5d 3s':interval_day<9>",
    cs!"'5d   3s':interval_day<0>", cs!"'  5d 3s  ':interval_day<0>", cs!"'5d\t3s':interval_day<0>",
    cs!"'100ns':interval_day<6>", cs!"'5d 3s':interval_day<4>", cs!"'5d':interval_day<13>",
    cs!"'5d':interval_day<-1>", cs!"'2200000000s':interval_day<0>",
    cs!"'99999999999d':interval_day<0>", cs!"'99999999999999999999ns':interval_day<9>"].all
      literalRefused = true := by decide +kernel

/-- L1562 `test_parse_interval_day_literal_requires_precision` -/
example : literalRefused cs!"'5d':interval_day" = true := by decide +kernel
/-- L1574 `test_parse_interval_day_literal_unit_precision_mismatch_message` -/
example : literalRefused cs!"'100ns':interval_day<6>" = true := by decide +kernel

/-- Literal expressions, as the tests write them. -/
def int! (i : Int) : Expr := .literal ⟨some (.int .i64 i), false, 0⟩
def int32! (i : Int) : Expr := .literal ⟨some (.int .i32 i), false, 0⟩
def bool! (b : Bool) : Expr := .literal ⟨some (.bool b), false, 0⟩
def str! (s : Str) : Expr := .literal ⟨some (.string s), false, 0⟩
def val! (v : Lit) : Expr := .literal ⟨some v, false, 0⟩
def ref! (i : Int) : Expr := .selection (.field i none)
def then! (c t : Expr) : Clause := .mk (some c) (some t)
def i16 : Ty := .simple .i16 .required 0
def boolean : Ty := .simple .boolean .required 0

/-- L1595 `test_parse_if_then_single_clause` -/
example : expr empty cs!"if_then(true -> 42, _ -> 0)" =
    some (.ifThen [then! (bool! true) (int! 42)] (some (int! 0))) := by decide +kernel
/-- L1606 `test_parse_if_then_with_typed_literals` -/
example : expr empty cs!"if_then(true -> 100:i32, _ -> -100:i32)" =
    some (.ifThen [then! (bool! true) (int32! 100)] (some (int32! (-100)))) := by decide +kernel
/-- L1617 `test_parse_if_then_with_date_literals` -/
example : expr empty cs!"if_then(true -> '2023-12-25':date, _ -> '1970-01-01':date)" =
    some (.ifThen [then! (bool! true) (val! (.date 19716))] (some (val! (.date 0)))) := by decide +kernel
/-- L1628 `test_parse_if_then_with_time_literals` -/
example : expr empty cs!"if_then(true -> '14:30:45':time, _ -> '00:00:00':time)" =
    some (.ifThen [then! (bool! true) (val! (.time 52245000000))] (some (val! (.time 0)))) := by decide +kernel
/-- L1639 `test_parse_if_then_with_timestamp_literals` -/
example : expr empty cs!"if_then(true -> '2023-01-01T12:00:00':timestamp, _ -> '1970-01-01T00:00:00':timestamp)" =
    some (.ifThen [then! (bool! true) (val! (.timestamp 1672574400000000))]
      (some (val! (.timestamp 0)))) := by decide +kernel

/-- L1650 `test_parse_if_clause_with_whitespace_variations` -/
example : [cs!"true->false", cs!"true -> false", cs!"true  ->  false"].all (fun s =>
    (exact (pClauseWith pExpr) (fun c => convClauses empty [c]) s).any
      (Clause.beqList [then! (bool! true) (bool! false)])) = true := by decide +kernel
/-- L1665 `test_if_clause_structure` -/
example : (exact (pClauseWith pExpr) (fun c => convClauses empty [c]) cs!"42 -> 100").any
      (Clause.beqList [then! (int! 42) (int! 100)]) = true := by decide +kernel

/-- L1684 `test_if_then_structure` -/
example : expr empty cs!"if_then(true -> 1, false -> 2, _ -> 0)" =
    some (.ifThen [then! (bool! true) (int! 1), then! (bool! false) (int! 2)] (some (int! 0))) := by decide +kernel
/-- L1704 `test_parse_if_then_mixed_types_in_conditions` -/
example : expr empty cs!"if_then(true -> 1, true -> 'yes', 'yes' -> true, 42 -> 2, $0 -> 3, _ -> 0)" =
    some (.ifThen [then! (bool! true) (int! 1), then! (bool! true) (str! cs!"yes"),
      then! (str! cs!"yes") (bool! true), then! (int! 42) (int! 2), then! (ref! 0) (int! 3)]
      (some (int! 0))) := by decide +kernel
/-- L1716 `test_if_then_preserves_clause_order` -/
example : expr empty cs!"if_then(1 -> 10, 2 -> 20, 3 -> 30, _ -> 0)" =
    some (.ifThen [then! (int! 1) (int! 10), then! (int! 2) (int! 20), then! (int! 3) (int! 30)]
      (some (int! 0))) := by decide +kernel
/-- L1737 `test_parse_if_then` -/
example : expr empty cs!"if_then(true -> true , false -> false, _ -> false)" =
    some (.ifThen [then! (bool! true) (bool! true), then! (bool! false) (bool! false)]
      (some (bool! false))) := by decide +kernel

/-- `function_signature`, matched as a whole. -/
def signature (s : Str) : Option Str := complete (pFunSig s)

/-- L1769 `test_compound_name_plain` -/
example : signature cs!"add" = some cs!"add" := by decide +kernel
/-- L1774 `test_compound_name_full_zero_arg_type_signature` -/
example : signature cs!"add:" = some cs!"add:" ∧ baseName cs!"add:" = cs!"add" ∧
    nameMatches cs!"add:" cs!"add:" = true ∧ nameMatches cs!"add:" cs!"add:i64_i64" = false ∧
    nameMatches cs!"add:" cs!"add" = true := by decide +kernel
/-- L1785 `test_compound_name_with_signature` -/
example : signature cs!"equal:any_any" = some cs!"equal:any_any" ∧
    signature cs!"regexp_match_substring:str_str_i64" = some cs!"regexp_match_substring:str_str_i64" ∧
    signature cs!"add:i64_i64" = some cs!"add:i64_i64" := by decide +kernel
/-- L1801 `test_compound_name_trailing_colon_grammar` -/
example : signature cs!"count:" = some cs!"count:" ∧ baseName cs!"count:" = cs!"count" ∧
    hasColon cs!"count:" = true := by decide +kernel
/-- L1814 `test_compound_name_stops_at_opening_paren` -/
example : pFunSig cs!"equal:any_any" = some (cs!"equal:any_any", []) := by decide +kernel

/-- L1821 `test_parse_function_arguments` -/
example : (exact (pArgsWith pExpr) (convArgs empty) cs!"()").any (Arg.beqList []) = true ∧
    (exact (pArgsWith pExpr) (convArgs empty) cs!"($0, 1)").any
      (Arg.beqList [.value (ref! 0), .value (int! 1)]) = true := by decide +kernel

/-- L1854 `make_extensions_for_fn_tests` -/
def overloads : Store :=
  ((((empty.addUrn cs!"urn" 1).1.addExt .function 1 1 cs!"equal:any_any").1.addExt
    .function 1 2 cs!"equal:str_str").1.addExt .function 1 3 cs!"add:i64_i64").1

def call! (f : Nat) (args : List Expr) (t : Ty) : Expr := .call f (args.map .value) [] (some t)

/-- L1867 `test_scalar_function_full_compound_name` -/
example : expr overloads cs!"equal:any_any($0, $1):boolean" =
    some (call! 1 [ref! 0, ref! 1] boolean) := by decide +kernel
/-- L1881 `test_scalar_function_second_overload` -/
example : expr overloads cs!"equal:str_str($0, $1):boolean" =
    some (call! 2 [ref! 0, ref! 1] boolean) := by decide +kernel
/-- L1891 `test_scalar_function_base_name_unique_overload` -/
example : expr overloads cs!"add($0, $1):i64" = some (call! 3 [ref! 0, ref! 1] i64) := by decide +kernel
/-- L1906 `test_scalar_function_base_name_ambiguous_fails` -/
example : refused pExpr (convExpr overloads) cs!"equal($0, $1):boolean" = true := by decide +kernel
/-- L1915 `test_scalar_function_compound_name_with_anchor` -/
example : expr overloads cs!"equal:any_any#1($0, $1):boolean" =
    some (call! 1 [ref! 0, ref! 1] boolean) := by decide +kernel
/-- L1924 `test_scalar_function_base_name_with_anchor` -/
example : expr overloads cs!"equal#1($0, $1):boolean" =
    some (call! 1 [ref! 0, ref! 1] boolean) := by decide +kernel
/-- L1934 `test_scalar_function_wrong_name_for_anchor_fails` -/
example : refused pExpr (convExpr overloads) cs!"like#1($0):boolean" = true := by decide +kernel
/-- L1942 `test_scalar_function_user_defined_type_in_signature` -/
example : expr ((empty.addUrn cs!"urn" 1).1.addExt .function 1 10 cs!"json_extract_path:u!json_str").1
    cs!"json_extract_path:u!json_str($0, $1):string" =
    some (call! 10 [ref! 0, ref! 1] string) := by decide +kernel
/-- L1964 `test_scalar_function_missing_type_fails_to_parse` -/
example : (pCallWith pExpr cs!"add($0, $1)").isNone = true := by decide +kernel

def cast! (e : Expr) (t : Ty) (fb : Int) : Expr := .cast (some e) (some t) fb

/-- L1974 `test_parse_cast_expression_basic`, L2000 `test_parse_cast_expression_via_expression_rule`,
L2066 `test_parse_cast_unspecified_failure_behavior` -/
example : expr empty cs!"(78:i32)::i16" = some (cast! (int32! 78) i16 0) := by decide +kernel
/-- L2012 `test_parse_cast_expression_nested` -/
example : expr empty cs!"((78:i32)::i16)::i32" = some (cast! (cast! (int32! 78) i16 0) i32 0) := by decide +kernel
/-- L2040 `test_parse_cast_expression_with_boolean` -/
example : expr empty cs!"(true)::i32" = some (cast! (bool! true) i32 0) := by decide +kernel
/-- L2056 `test_parse_cast_expression_with_whitespace` -/
example : expr empty cs!"( 78:i32 ) :: i16" = some (cast! (int32! 78) i16 0) := by decide +kernel
/-- L2077 `test_parse_cast_return_null_failure_behavior` -/
example : expr empty cs!"(78:i32)::?i16" = some (cast! (int32! 78) i16 1) := by decide +kernel
/-- L2088 `test_parse_cast_throw_exception_failure_behavior` -/
example : expr empty cs!"(78:i32)::!i16" = some (cast! (int32! 78) i16 2) := by decide +kernel
/-- L2099 `test_parse_cast_to_user_defined_type_with_u_prefix` -/
example : expr ((empty.addUrn cs!"urn" 1).1.addExt .type 1 5 cs!"u!json").1 cs!"($0)::u!json" =
    some (cast! (ref! 0) (.user 5 [] .required 0) 0) := by decide +kernel
/-- L2118 `test_function_call_u_prefix_base_name_rejected` -/
example : (pCallWith pExpr cs!"u!json_get($0)").isNone = true := by decide +kernel

end Verif.Conformance
