import Verif.Conformance.ExprTests
/-!
# The unit tests of src/textify/expressions.rs, on the model
-/

namespace Verif.Conformance

open Store

set_option autoImplicit false


def litText (l : Literal) : Out := textLit empty .default l
def exprText (st : Store) (e : Expr) : Out := textExpr st .default e

def days! (d s b : Int) (p : Int) : Lit := .interval ⟨d, s, b, .precision p⟩

/-! ## src/textify/expressions.rs -/

/-- L960 `test_literal_textify` -/
example : litText ⟨some (.bool true), false, 0⟩ = .s cs!"true" := by decide +kernel

/-- L984 `test_interval_day_literal_textify` -/
example : [
    (days! 5 0 0 6, cs!"'5d':interval_day<6>"), (days! 5 0 0 0, cs!"'5d':interval_day<0>"),
    (days! 4 5 0 9, cs!"'4d 5s':interval_day<9>"), (days! 0 0 123 3, cs!"'123ms':interval_day<3>"),
    (days! 0 0 123456 6, cs!"'123456us':interval_day<6>"),
    (days! 5 3 123456789 9, cs!"'5d 3s 123456789ns':interval_day<9>"),
    (days! 0 0 (-500) 12, cs!"'-500ps':interval_day<12>"),
    (days! 0 0 0 0, cs!"'0s':interval_day<0>"), (days! 0 0 0 9, cs!"'0s':interval_day<9>")].all
      (fun (l, t) => litText ⟨some l, false, 0⟩ == .s t) = true := by decide +kernel

/-- L1018 `test_interval_day_literal_textify_nullable` -/
example : litText ⟨some (days! 5 0 0 6), true, 0⟩ = .s cs!"'5d':interval_day?<6>" := by decide +kernel

/-- L1033 `test_interval_day_literal_textify_precision_modes` -/
example : litText ⟨some (.interval ⟨5, 0, 0, .microseconds 123⟩), false, 0⟩ = .s cs!"'5d 123us':interval_day<6>" ∧
    litText ⟨some (.interval ⟨5, 0, 123, .unset⟩), false, 0⟩ = .s cs!"'5d 123us':interval_day<6>" := by
  decide +kernel

/-- L1065 `test_interval_day_literal_textify_invalid_precision_is_error` -/
example : [(4, cs!"4"), (13, cs!"13"), (-1, cs!"-1")].all (fun (p, t) =>
    litText ⟨some (days! 0 0 2 p), false, 0⟩ ==
      ⟨cs!"!{LiteralType}:interval_day<" ++ t ++ cs!">", [cs!"LiteralType"]⟩) = true := by decide +kernel

/-- L1087 `test_interval_day_literal_textify_subseconds_at_precision_zero_is_error` -/
example : litText ⟨some (days! 0 0 2 0), false, 0⟩ =
    ⟨cs!"!{LiteralType}:interval_day<0>", [cs!"LiteralType"]⟩ := by decide +kernel

/-- L1108 `test_interval_day_literal_textify_out_of_range_is_written_with_warning` -/
example : [(days! 3650001 0 0 0, cs!"'3650001d':interval_day<0>"),
    (days! 3649999 100000 0 0, cs!"'3649999d 100000s':interval_day<0>"),
    (days! 0 0 1000000000 9, cs!"'1000000000ns':interval_day<9>")].all (fun (l, t) =>
      litText ⟨some l, false, 0⟩ == ⟨t, [cs!"LiteralType"]⟩) = true := by decide +kernel

/-- L1153 `test_nullable_boolean_literal_textify` -/
example : litText ⟨some (.bool true), true, 0⟩ = .s cs!"true:boolean?" ∧
    litText ⟨some (.bool false), true, 0⟩ = .s cs!"false:boolean?" := by decide +kernel
/-- L1168 `test_nullable_integer_literal_textify` -/
example : litText ⟨some (.int .i32 78), true, 0⟩ = .s cs!"78:i32?" ∧
    litText ⟨some (.int .i64 42), true, 0⟩ = .s cs!"42:i64?" := by decide +kernel
/-- L1181 `test_nullable_float_literal_textify` -/
example : litText ⟨some (.fp32 (textTab.to32 (textTab.parse64 cs!"2.5"))), true, 0⟩ = .s cs!"2.5:fp32?" ∧
    litText ⟨some (.fp64 (textTab.parse64 cs!"3.19")), true, 0⟩ = .s cs!"3.19:fp64?" := by decide +kernel

/-- L1194 `test_precision_timestamp_to_string` -/
example : timestampText 10 0 = some cs!"1970-01-01T00:00:10" ∧
    timestampText 123456789 9 = some cs!"1970-01-01T00:00:00.123456789" ∧
    timestampText 123456789500 12 = some cs!"1970-01-01T00:00:00.123456789" ∧
    timestampText 0 13 = none := by decide +kernel
/-- L1216 `test_precision_time_to_string` -/
example : timeText 0 0 = some cs!"00:00:00" ∧
    timeText 3661000000 6 = some cs!"01:01:01.000000" ∧
    timeText 3661000000000500 12 = some cs!"01:01:01.000000000" ∧
    timeText 0 13 = none ∧ timeText (-1) 12 = none := by decide +kernel

/-- L1244 `test_nullable_precision_timestamp_literal_textify` -/
example : litText ⟨some (.prec .timestamp 6 1000), true, 0⟩ = .s cs!"'1970-01-01T00:00:00.001000':precisiontimestamp?<6>" ∧
    litText ⟨some (.prec .timestampTz 3 5), true, 0⟩ = .s cs!"'1970-01-01T00:00:00.005':precisiontimestamptz?<3>" ∧
    litText ⟨some (.prec .time 0 61), true, 0⟩ = .s cs!"'00:01:01':precisiontime?<0>" := by decide +kernel
/-- L1278 `test_precision_time_literal_precision_12_best_effort` -/
example : litText ⟨some (.prec .time 12 3661000000000500), false, 0⟩ =
    ⟨cs!"'01:01:01.000000000':precisiontime<12>", [cs!"LiteralType"]⟩ := by decide +kernel
/-- L1294 `test_precision_timestamp_literal_supported_precision_no_warning` -/
example : (litText ⟨some (.prec .timestamp 9 123456789), false, 0⟩).errs = [] := by decide +kernel
/-- L1308 `test_precision_timestamp_literal_unrecognized_precision_invalid` -/
example : litText ⟨some (.prec .timestamp 13 0), false, 0⟩ =
    ⟨cs!"!{LiteralType}:precisiontimestamp<13>", [cs!"LiteralType"]⟩ := by decide +kernel
/-- L1324 `test_precision_timestamp_literal_out_of_range_does_not_panic` -/
example : litText ⟨some (.prec .timestamp 0 9000000000000), false, 0⟩ =
    ⟨cs!"!{LiteralType}:precisiontimestamp<0>", [cs!"LiteralType"]⟩ := by decide +kernel
/-- L1341 `test_precision_time_literal_beyond_one_day_invalid` -/
example : litText ⟨some (.prec .time 0 86460), false, 0⟩ =
    ⟨cs!"!{LiteralType}:precisiontime<0>", [cs!"LiteralType"]⟩ := by decide +kernel
/-- L1357 `test_precision_time_literal_unrecognized_precision_invalid` -/
example : litText ⟨some (.prec .time 13 0), false, 0⟩ =
    ⟨cs!"!{LiteralType}:precisiontime<13>", [cs!"LiteralType"]⟩ := by decide +kernel
/-- L1371 `test_nullable_precision_timestamp_literal_precision_12_best_effort` -/
example : litText ⟨some (.prec .timestamp 12 123456789500), true, 0⟩ =
    ⟨cs!"'1970-01-01T00:00:00.123456789':precisiontimestamp?<12>", [cs!"LiteralType"]⟩ := by decide +kernel

/-- L1389 `test_expression_textify` -/
example : exprText empty .missing = ⟨cs!"!{RexType}", [cs!"RexType"]⟩ ∧
    exprText empty (bool! true) = .s cs!"true" := by decide +kernel
/-- L1410 `test_rextype_textify` -/
example : exprText empty (call! 1000 [] i64) = ⟨cs!"!{function}#1000():i64", [cs!"function"]⟩ ∧
    exprText ((empty.addUrn cs!"first" 1).1.addExt .function 1 100 cs!"first").1 (call! 100 [] i64) =
      .s cs!"first():i64" ∧
    exprText ((((empty.addUrn cs!"somewhere_on_the_internet" 1).1.addUrn cs!"somewhere_else" 2).1.addExt
      .function 1 231 cs!"duplicated").1.addExt .function 2 232 cs!"duplicated").1
      (call! 231 [bool! true] boolean) = .s cs!"duplicated#231(true):boolean" := by decide +kernel
/-- L1490 `test_ifthen_textify` -/
example : exprText empty (.ifThen [then! (bool! true) (bool! false), then! (bool! false) (bool! true)]
    (some (bool! true))) = .s cs!"if_then(true -> false, false -> true, _ -> true)" := by decide +kernel
/-- L1512 `test_ifthen_textify_missing_else` -/
example : exprText empty (.ifThen [then! (bool! true) (bool! false)] none) =
    ⟨cs!"if_then(true -> false, _ -> !{Expression})", [cs!"Expression"]⟩ := by decide +kernel
/-- L1557 `test_cast_textify`, L1568 `test_cast_textify_via_rextype` -/
example : exprText empty (cast! (int32! 78) i16 0) = .s cs!"(78:i32)::i16" := by decide +kernel
/-- L1579 `test_cast_textify_nested` -/
example : exprText empty (cast! (cast! (int32! 78) i16 0) i32 0) = .s cs!"((78:i32)::i16)::i32" := by decide +kernel
/-- L1598 `test_cast_textify_return_null` -/
example : exprText empty (cast! (int32! 78) i16 1) = .s cs!"(78:i32)::?i16" := by decide +kernel
/-- L1609 `test_cast_textify_throw_exception` -/
example : exprText empty (cast! (int32! 78) i16 2) = .s cs!"(78:i32)::!i16" := by decide +kernel
/-- L1620 `test_cast_textify_missing_input` -/
example : exprText empty (.cast none (some i16) 0) = ⟨cs!"(!{Expression})::i16", [cs!"Expression"]⟩ := by decide +kernel
/-- L1639 `test_cast_textify_missing_type` -/
example : exprText empty (.cast (some (int32! 78)) none 0) = ⟨cs!"(78:i32)::!{Type}", [cs!"Type"]⟩ := by decide +kernel
/-- L1685 `test_field_reference_root_reference` -/
example : textFieldRef (.field 3 none) = .s cs!"$3" := by decide +kernel
/-- L1669 `test_field_reference_missing_root_type`, L1692 `test_field_reference_outer_reference_unimplemented`,
L1710 `test_field_reference_expression_unimplemented` -/
example : textFieldRef .badReference = ⟨cs!"!{FieldReference}", [cs!"FieldReference"]⟩ := by decide +kernel
/-- L1726 `test_cast_textify_invalid_failure_behavior` -/
example : exprText empty (cast! (int32! 78) i16 99) = ⟨cs!"(78:i32)::!{Cast}i16", [cs!"Cast"]⟩ := by decide +kernel
/-- L1748 `test_cast_to_user_defined_type_textifies_without_u_prefix` -/
example : exprText ((empty.addUrn cs!"urn:example:types" 1).1.addExt .type 1 5 cs!"u!json").1
    (cast! (int32! 1) (.user 5 [] .required 0) 0) = .s cs!"(1:i32)::json" := by decide +kernel

end Verif.Conformance
