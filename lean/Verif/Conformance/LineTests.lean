import Verif.Conformance.Tools
/-!
# tests/multi_line_roundtrip.rs, tests/literal_roundtrip.rs
-/

namespace Verif.Conformance

set_option maxRecDepth 20000

/-- tests/multi_line_roundtrip.rs L17 `test_virtual_read_multiline_single_row` -/
example : canonical {} cs! r#"
=== Plan
Root[id, name]
  Read:Virtual[(1, 'alice') => id:i64, name:string]"#
    cs! r#"
=== Plan
Root[id, name]
  Read:Virtual[
    - (1, 'alice')
    - => id:i64, name:string]"# = true := by decide +kernel

/-- tests/multi_line_roundtrip.rs L34 `test_virtual_read_multiline_multi_row` -/
example : canonical {} cs! r#"
=== Plan
Root[id, name]
  Read:Virtual[
    - (1, 'alice'),
    - (2, 'bob'),
    - (3, 'carol')
    - => id:i64, name:string]"#
    cs! r#"
=== Plan
Root[id, name]
  Read:Virtual[(1, 'alice'), (2, 'bob'), (3, 'carol') => id:i64, name:string]"# = true := by decide +kernel

/-- tests/multi_line_roundtrip.rs L55 `test_virtual_read_multiline_filter` -/
example : canonical {} cs! r#"=== Extensions
URNs:
  @  1: https://github.com/substrait-io/substrait/blob/main/extensions/functions_comparison.yaml
Functions:
  # 10 @  1: gt

=== Plan
Root[id, name]
  Read:Virtual[
    - (1, 'alice'),
    - (2, 'bob'),
    - (3, 'carol'),
    - filter=gt($0, 1):boolean
    - => id:i64, name:string]"#
    cs! r#"=== Extensions
URNs:
  @  1: https://github.com/substrait-io/substrait/blob/main/extensions/functions_comparison.yaml
Functions:
  # 10 @  1: gt

=== Plan
Root[id, name]
  Read:Virtual[(1, 'alice'), (2, 'bob'), (3, 'carol'), filter=gt($0, 1:i64):boolean => id:i64, name:string]"# = true := by decide +kernel

/-- tests/multi_line_roundtrip.rs L85 `test_virtual_read_multiline_typed_null` -/
example : canonical {} cs! r#"
=== Plan
Root[id, name]
  Read:Virtual[(1, null:string?), (2, 'bob') => id:i64, name:string?]"#
    cs! r#"
=== Plan
Root[id, name]
  Read:Virtual[
    - (1, null:string?),
    - (2, 'bob')
    - => id:i64, name:string?]"# = true := by decide +kernel

/-- tests/multi_line_roundtrip.rs L103 `test_virtual_read_multiline_nested_in_plan` -/
example : canonical {} cs! r#"
=== Extensions
URNs:
  @  1: https://github.com/substrait-io/substrait/blob/main/extensions/functions_comparison.yaml
Functions:
  # 10 @  1: gt

=== Plan
Root[name]
  Filter[gt($0, 1):boolean => $0, $1]
    Read:Virtual[(1, 'alice'), (2, 'bob') => id:i64, name:string]"#
    cs! r#"
=== Extensions
URNs:
  @  1: https://github.com/substrait-io/substrait/blob/main/extensions/functions_comparison.yaml
Functions:
  # 10 @  1: gt

=== Plan
Root[name]
  Filter[gt($0, 1):boolean => $0, $1]
    Read:Virtual[
      - (1, 'alice'),
      - (2, 'bob')
      - => id:i64, name:string]"# = true := by decide +kernel

/-- tests/multi_line_roundtrip.rs L157 `test_virtual_read_multiline_rejects_child` -/
example : rejected {} cs! r#"
=== Plan
Root[id]
  Read:Virtual[
    - (1)
    - => id:i64]
    Read[t => x:i64]"# = true := by decide +kernel

/-- tests/multi_line_roundtrip.rs L175 `test_virtual_read_multiline_rejects_stray_continuation` -/
example : rejected {} cs! r#"
=== Plan
Root[id]
  Read:Virtual[
    - (1)
    - => id:i64]
    - (99)"# = true := by decide +kernel

/-- tests/multi_line_roundtrip.rs L193 `test_virtual_read_multiline_rejects_malformed_row` -/
example : rejected {} cs! r#"
=== Plan
Root[id]
  Read:Virtual[
    - not_a_row
    - => id:i64]"# = true := by decide +kernel

/-- tests/multi_line_roundtrip.rs L209 `test_virtual_read_two_rows_stays_inline` -/
example : canonical {} cs! r#"
=== Plan
Root[id, name]
  Read:Virtual[(1, 'alice'), (2, 'bob') => id:i64, name:string]"#
    cs! r#"
=== Plan
Root[id, name]
  Read:Virtual[
    - (1, 'alice'),
    - (2, 'bob')
    - => id:i64, name:string]"# = true := by decide +kernel

/-- tests/multi_line_roundtrip.rs L136 `test_virtual_read_multiline_tolerates_trailing_whitespace` -/
example : canonical {} cs!"=== Plan\nRoot[id, name]\n  Read:Virtual[(1, 'alice'), (2, 'bob') => id:i64, name:string]"
    cs!"=== Plan\nRoot[id, name]\n  Read:Virtual[  \n    - (1, 'alice'),  \n    - (2, 'bob')  \n    - => id:i64, name:string]" = true := by decide +kernel

/-- tests/multi_line_roundtrip.rs L229 `test_virtual_read_threshold_is_configurable` -/
example : becomes {} { Opts.default with vthreshold := 100 } cs! r#"
=== Plan
Root[id]
  Read:Virtual[(1), (2), (3) => id:i64]"#
    cs! r#"
=== Plan
Root[id]
  Read:Virtual[(1), (2), (3) => id:i64]"# = true := by decide +kernel

/-- tests/multi_line_roundtrip.rs L251 `test_virtual_read_empty_stays_inline_even_at_zero_threshold` -/
example : becomes {} { Opts.default with vthreshold := 0 } cs! r#"
=== Plan
Root[id, name]
  Read:Virtual[_ => id:i64, name:string]"#
    cs! r#"
=== Plan
Root[id, name]
  Read:Virtual[_ => id:i64, name:string]"# = true := by decide +kernel

/-- tests/literal_roundtrip.rs L9 `test_float_literal_roundtrip` -/
example : survives {} cs! r#"
=== Plan
Root[result]
  Project[3.14, -2.5, 1]
    Read[data => a:i64]
"# = true := by decide +kernel

/-- tests/literal_roundtrip.rs L20 `test_boolean_literal_roundtrip` -/
example : survives {} cs! r#"
=== Plan
Root[result]
  Project[true, false]
    Read[data => a:i64]
"# = true := by decide +kernel

/-- tests/literal_roundtrip.rs L31 `test_mixed_literal_roundtrip` -/
example : survives {} cs! r#"
=== Plan
Root[result]
  Project[42, 3.14, true, 'hello']
    Read[data => a:i64]
"# = true := by decide +kernel

/-- tests/literal_roundtrip.rs L42 `test_negative_literals_roundtrip` -/
example : survives {} cs! r#"
=== Plan
Root[result]
  Project[-42, -3.14, false]
    Read[data => a:i64]
"# = true := by decide +kernel

/-- tests/literal_roundtrip.rs L53 `test_date_literal_roundtrip` -/
example : survives {} cs! r#"
=== Plan
Root[result]
  Project['2023-12-25':date]
    Read[data => a:i64]
"# = true := by decide +kernel

/-- tests/literal_roundtrip.rs L64 `test_time_literal_roundtrip` -/
example : survives {} cs! r#"
=== Plan
Root[result]
  Project['14:30:45.000000':time]
    Read[data => a:i64]
"# = true := by decide +kernel

/-- tests/literal_roundtrip.rs L75 `test_timestamp_literal_roundtrip` -/
example : survives {} cs! r#"
=== Plan
Root[result]
  Project['2023-01-01T12:00:00.000000':timestamp]
    Read[data => a:i64]
"# = true := by decide +kernel

/-- tests/literal_roundtrip.rs L86 `test_interval_day_literal_roundtrip` -/
example : survives {} cs! r#"
=== Plan
Root[result]
  Project['-5d 3s':interval_day<0>, '5d 3s 100ns':interval_day<9>]
    Read[data => a:i64]
"# = true := by decide +kernel

/-- tests/literal_roundtrip.rs L97 `test_nullable_integer_literal_roundtrip` -/
example : survives {} cs! r#"
=== Plan
Root[result]
  Project[78:i32?, 42:i64?]
    Read[data => a:i64]
"# = true := by decide +kernel

/-- tests/literal_roundtrip.rs L108 `test_nullable_boolean_literal_roundtrip` -/
example : survives {} cs! r#"
=== Plan
Root[result]
  Project[true:boolean?, false:boolean?]
    Read[data => a:i64]
"# = true := by decide +kernel

/-- tests/literal_roundtrip.rs L119 `test_nullable_float_literal_roundtrip` -/
example : survives {} cs! r#"
=== Plan
Root[result]
  Project[3.14:fp64?, 2.5:fp32?]
    Read[data => a:i64]
"# = true := by decide +kernel

/-- tests/literal_roundtrip.rs L130 `test_null_literal_roundtrip` -/
example : survives {} cs! r#"
=== Plan
Root[result]
  Project[null:i64?, null:string?, null:date?]
    Read[data => a:i64]
"# = true := by decide +kernel

/-- tests/literal_roundtrip.rs L141 `test_bare_null_literal_requires_type` -/
example : rejected {} cs! r#"
=== Plan
Root[result]
  Project[null]
    Read[data => a:i64]
"# = true := by decide +kernel

/-- tests/literal_roundtrip.rs L159 `test_if_then_expression_roundtrip` -/
example : survives {} cs! r#"
=== Plan
Root[statusq]
  Fetch[limit=10, offset=0 => ]
    Project[if_then(true -> $0, false -> $1, _ -> $2)]
      Read[events.logs => status:string?]
"# = true := by decide +kernel

end Verif.Conformance
