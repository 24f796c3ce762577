import Verif.Conformance.RelTests
/-!
# The unit tests of src/textify/rels.rs and src/textify/plan.rs, on the model

`errs` holds the names of the errors only, so what the tests say about the rest of an error is not
repeated here.
-/

namespace Verif.Conformance

open Store

set_option autoImplicit false


def env! (st : Store) : Env := ⟨st, .default, {}⟩
def relText (st : Store) (r : Rel) : Out := textRel (env! st) 0 r

/-- A schema with nullable columns. -/
def schema! (l : List (Str × SimpleKind)) : Option NamedStruct :=
  some ⟨l.map (·.1), some ⟨l.map (fun c => opt! c.2), 0, .nullable⟩⟩

def table! (names : List Str) (l : List (Str × SimpleKind)) : Rel :=
  .node (.read none (schema! l) none (.named names 0) none 0) []

/-- L1146 `test_read_rel` -/
example : relText empty (table! [cs!"some_db", cs!"test_table"] [(cs!"col1", .i32), (cs!"column 2", .string)]) =
    .s cs!"Read[some_db.test_table => col1:i32?, \"column 2\":string?]" := by decide +kernel
/-- L1195 `test_filter_rel` -/
example : relText (decl! .function 1 10 cs!"gt" (urn! 1 cs!"test_urn"))
    (.node (.filter none (some (call! 10 [ref! 0, int32! 10] boolean)) none)
      [some (table! [cs!"test_table"] [(cs!"col1", .i32), (cs!"col2", .i32)])]) =
    .s cs!"Filter[gt($0, 10:i32):boolean => $0, $1]\n  Read[test_table => col1:i32?, col2:i32?]" := by
  decide +kernel

/-- L1771 `get_aggregate_func` -/
def agg! (f : Nat) (i : Int) : AggFn := ⟨f, [.value (ref! i)], [], some i64, 0⟩

/-- L1831 `get_basic_schema` -/
def basic! (table : Str) : Rel :=
  table! [table] [(cs!"category", .string), (cs!"amount", .fp64), (cs!"value", .i32)]

/-- L1796 `create_aggregate_rel` -/
def aggregate! (g : List Expr) (sets : List Grouping) (ms : List AggFn) (c : Option Common := direct) : Rel :=
  .node (.aggregate c g sets (ms.map fun f => ⟨some f, 0⟩) none) [some (basic! cs!"orders")]

/-- The text contains the given one, and there are no errors. -/
def shows (o : Out) (s : Str) : Bool := o.errs == [] && contains o.text s

/-- L1287 `test_aggregate_function_textify` -/
example : textAggFn sums .default (agg! 10 1) = .s cs!"sum($1):i64" := by decide +kernel
/-- L1304 `test_aggregate_relation_textify` -/
example : shows (relText sums (aggregate! [ref! 0] [] [agg! 10 1, agg! 11 1] (emits [1, 2])))
    cs!"Aggregate[_ => sum($1):i64, count($1):i64]" = true := by decide +kernel
/-- L1351 `test_multiple_groupings_on_aggregate_deprecated` -/
example : shows (relText sums (aggregate! [] [⟨[], [ref! 0]⟩, ⟨[], [ref! 0, ref! 1]⟩] []))
    cs!"Aggregate[($0), ($0, $1) => $0, $1]" = true := by decide +kernel
/-- L1386 `test_multiple_groupings_with_measure_deprecated` -/
example : shows (relText sums (aggregate! [] [⟨[], [ref! 0]⟩, ⟨[], [ref! 0, ref! 1]⟩] [agg! 11 2]))
    cs!"($0), ($0, $1) => $0, $1, count($2):i64" = true := by decide +kernel
/-- L1428 `test_multiple_groupings_on_aggregate` -/
example : shows (relText sums (aggregate! [ref! 0, ref! 1]
      [⟨[0, 1], []⟩, ⟨[0, 1], []⟩, ⟨[1], []⟩, ⟨[1, 1], []⟩, ⟨[], []⟩] [agg! 11 2]))
    cs!"Aggregate[($0, $1), ($0, $1), ($1), ($1, $1), _ => $0, $1, count($2):i64]" = true := by decide +kernel
/-- L1498 `test_deprecated_reordered_grouping` -/
example : shows (relText empty (aggregate! [] [⟨[], [ref! 5]⟩] [])) cs!"Aggregate[$5 => $5]" = true := by
  decide +kernel
/-- L1526 `test_reordered_grouping_textifies_expression_not_raw_index` -/
example : shows (relText sums (aggregate! [ref! 2, ref! 0] [⟨[0, 1], []⟩] [agg! 11 1]))
    cs!"Aggregate[$2, $0 => $2, $0, count($1):i64]" = true := by decide +kernel

/-- `ReadRel::default()` -/
def blankRead : Option Rel := some (.node (.read none none none .other none 0) [])

/-- L1575 `test_join_relation_unknown_type` -/
example :
    let o := relText empty (.node (.join none (.unknown 999) (some .missing) none none) [blankRead, blankRead])
    o.errs ≠ [] ∧ contains o.text cs!"!{JoinRel}" = true ∧ contains o.text cs!"Join[" = true := by
  decide +kernel
/-- L1611 `test_set_relation_unknown_op` -/
example :
    let o := relText empty (.node (.set none (.unknown 999) none) [blankRead, blankRead])
    o.errs ≠ [] ∧ contains o.text cs!"!{SetRel}" = true ∧ contains o.text cs!"Set[" = true := by
  decide +kernel

/-- The reads below the crosses of the next two tests. -/
def twoReads : Str := cs!"
  Read[left_tbl => category:string?, amount:fp64?, value:i32?]
  Read[right_tbl => category:string?, amount:fp64?, value:i32?]"

/-- L1661 `test_cross_relation` -/
example : relText empty (.node (.cross direct none) [some (basic! cs!"left_tbl"), some (basic! cs!"right_tbl")]) =
    .s (cs!"Cross[$0, $1, $2, $3, $4, $5]" ++ twoReads) := by decide +kernel
/-- L1690 `test_cross_relation_prunes_columns` -/
example : relText empty (.node (.cross (emits [0, 3]) none)
      [some (basic! cs!"left_tbl"), some (basic! cs!"right_tbl")]) =
    .s (cs!"Cross[$0, $3]" ++ twoReads) := by decide +kernel
/-- L1720 `test_join_type_enum_textify` -/
example : JoinType.inner.spell = some cs!"Inner" ∧ JoinType.left.spell = some cs!"Left" ∧
    JoinType.leftSemi.spell = some cs!"LeftSemi" ∧ JoinType.leftAnti.spell = some cs!"LeftAnti" := by
  decide +kernel
/-- L1735 `test_join_output_columns` -/
example : joinWidth .inner 2 3 = 5 ∧ joinWidth .leftSemi 2 3 = 2 ∧ joinWidth .rightSemi 2 3 = 3 ∧
    joinWidth .leftMark 2 3 = 3 ∧ joinWidth .rightMark 2 3 = 4 := by decide +kernel
/-- L1870 `test_unsupported_rel_type_produces_failure_token` -/
example : contains (relText empty (.node (.other 0) [])).text cs!"!{Rel}" = true ∧
    (relText empty (.node (.other 0) [])).errs = [cs!"Rel"] := by decide +kernel

/-! ## src/textify/plan.rs and src/cli.rs -/

/-- The address of the functions in `test_plan_writer`. -/
def arithmetic : Str :=
  cs!"https://github.com/substrait-io/substrait/blob/main/extensions/functions_arithmetic.yaml"

/-- src/textify/plan.rs L147 `test_plan_writer` -/
example : write {} .default ⟨none, [(1, arithmetic)], [some (.function, 1, 10, cs!"add")],
      [.rel (.node (.project none [call! 10 [ref! 0, ref! 1] i64] none)
        [some (.node (.read none (some ⟨[cs!"col1", cs!"col2"],
            some ⟨[opt! .i32, opt! .i32], 0, .unspecified⟩⟩) none (.named [cs!"table1"] 0) none 0) [])])]⟩
    = .s (cs!"=== Extensions\nURNs:\n  @  1: " ++ arithmetic ++ cs! r#"
Functions:
  # 10 @  1: add

=== Plan
Project[$0, $1, add($0, $1):i64]
  Read[table1 => col1:i32?, col2:i32?]
"#) := by decide +kernel

/-- src/cli.rs L1064 `test_write_plan_reports_formatting_issues`: a call of a function that is not
declared is written, with an error. -/
example :
    let r := write {} .default ⟨none, [(1, cs!"urn")], [some (.function, 1, 10, cs!"equal")],
      [.root [cs!"result"] (some (.node (.filter (emits [0])
          (some (call! 999 [ref! 0, int32! 42] boolean)) none)
        [some (.node (.read direct (schema! [(cs!"a", .i32)]) none (.named [cs!"data"] 0) none 0) [])]))]⟩
    r.errs ≠ [] ∧ r.text ≠ [] := by decide +kernel

end Verif.Conformance
