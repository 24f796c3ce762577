import Verif.Conformance.ReadTypeTests
/-!
# The unit tests of src/types_tests.rs, on the model
-/

namespace Verif.Conformance

open Store

set_option autoImplicit false


/-- Reading and writing again gives the same text and no errors. -/
def same {α : Type} (read : Str → Option α) (write : α → Out) (s : Str) : Bool :=
  match read s with
  | some a => write a == .s s
  | none => false

/-- L74 `test_types` -/
example : [cs!"i32", cs!"i32?", cs!"binary", cs!"binary?", cs!"timestamp", cs!"timestamp?",
    cs!"timestamp_tz", cs!"timestamp_tz?", cs!"date", cs!"date?", cs!"time", cs!"time?",
    cs!"interval_year", cs!"interval_year?", cs!"interval_day<9>", cs!"interval_day?<6>",
    cs!"interval_day?<0>", cs!"uuid", cs!"uuid?", cs!"MyType#12", cs!"MyType#12?", cs!"MyType#12<i32>",
    cs!"MyType#12<i32?>", cs!"MyType#12<i32, string?>", cs!"MyType#12?<i32, string?>",
    cs!"precisiontimestamp<9>", cs!"precisiontimestamp?<9>", cs!"precisiontimestamptz<6>",
    cs!"precisiontimestamptz?<6>", cs!"precisiontime<3>", cs!"precisiontime?<3>"].all (fun s =>
      let st := decl! .type 4 12 cs!"MyType" (urn! 4 cs!"some_source")
      same (readTy st) (textTy st .verbose) s) = true := by decide +kernel

/-- L129 `test_expression` and `test_verbose_and_simple_output`: the declarations. -/
def fooBar : Store :=
  decl! .function 4 14 cs!"bar" (decl! .function 4 12 cs!"foo" (urn! 4 cs!"some_source"))

/-- L129 `test_expression` -/
example : [cs!"12", cs!"12:i32", cs!"'2023-01-01T12:00:00.123456789':precisiontimestamp<9>",
    cs!"'2023-01-01T12:00:00.123456789':precisiontimestamp?<9>",
    cs!"'2023-01-01T12:00:00.123':precisiontimestamptz<3>",
    cs!"'2023-01-01T12:00:00.123':precisiontimestamptz?<3>", cs!"'14:30:45.123456':precisiontime<6>",
    cs!"'14:30:45.123456':precisiontime?<6>", cs!"'2023-01-01T12:00:00':precisiontimestamp<0>",
    cs!"'2023-01-01T12:00:00':precisiontimestamptz<0>", cs!"'14:30:45':precisiontime<0>",
    cs!"'5d':interval_day<0>", cs!"'5d':interval_day<9>", cs!"'4d 5s':interval_day<6>",
    cs!"'123456789ns':interval_day<9>", cs!"'5d 3s 100ms':interval_day<3>", cs!"'-5d 3s':interval_day<0>",
    cs!"'0s':interval_day<0>", cs!"'5d':interval_day?<6>"].all
      (same (literal fooBar) (textLit fooBar .default)) = true ∧
    [cs!"$1", cs!"foo():i64", cs!"bar(12):i64", cs!"foo(bar(12:i16, 18):i64, -4:i16):i64",
     cs!"foo($2, bar($5, 18):i64, -4:i16):i64"].all
      (same (expr fooBar) (textExpr fooBar .default)) = true := by decide +kernel

/-- L185 `test_verbose_and_simple_output` -/
example : [(cs!"foo#12():i64", cs!"foo():i64"), (cs!"foo#12(3:i32, 5:i64):i64", cs!"foo(3:i32, 5):i64"),
    (cs!"foo#12(bar#14(5:i64, $2):i64):i64", cs!"foo(bar(5, $2):i64):i64")].all (fun (verbose, simple) =>
      same (expr fooBar) (textExpr fooBar .verbose) verbose &&
      match expr fooBar verbose with
      | some e => textExpr fooBar .default e == .s simple
      | none => false) = true := by decide +kernel

end Verif.Conformance
