import Verif.Conformance.Tools
/-!
# tests/plan_roundtrip.rs
-/

namespace Verif.Conformance

set_option maxRecDepth 20000

/-- tests/plan_roundtrip.rs L14 `test_simple_plan_roundtrip` -/
example : survives {} cs! r#"=== Plan
Root[c, d]
  Filter[$0 => $0, $1]
    Project[$1, 42]
      Read[my.table => a:i32, b:string?, c:boolean]"# = true := by decide +kernel

/-- tests/plan_roundtrip.rs L27 `test_read_explicit_direct_roundtrip` -/
example : canonical {} cs! r#"=== Plan
Root[a, b]
  Read[my.table => a:i32, b:string?]"#
    cs! r#"=== Plan
Root[a, b]
  Read[my.table +> a:i32, b:string?]"# = true := by decide +kernel

/-- tests/plan_roundtrip.rs L39 `test_read_explicit_emit_roundtrip` -/
example : survives {} cs! r#"=== Plan
Root[c, a]
  Read[my.table +> a:i32, b:string?, c:boolean |> $2, $0]"# = true := by decide +kernel

/-- tests/plan_roundtrip.rs L48 `test_plan_with_extensions_roundtrip` -/
example : survives {} cs! r#"=== Extensions
URNs:
  @  1: https://github.com/substrait-io/substrait/blob/main/extensions/functions_arithmetic.yaml
Functions:
  # 10 @  1: add
  # 11 @  1: multiply

=== Plan
Root[result]
  Project[$0, $1, add($0, $1):i32?]
    Read[table1 => col1:i32?, col2:i32?]"# = true := by decide +kernel

/-- tests/plan_roundtrip.rs L65 `test_complex_plan_roundtrip` -/
example : survives {} cs! r#"=== Extensions
URNs:
  @  1: https://github.com/substrait-io/substrait/blob/main/extensions/functions_arithmetic.yaml
  @  2: https://github.com/substrait-io/substrait/blob/main/extensions/functions_aggregate.yaml
Functions:
  # 10 @  1: add
  # 11 @  2: sum
  # 12 @  2: count

=== Plan
Root[name, parent, sum, count]
  Project[$0, $3, $1, $2]
    Read[schema.table => name:string?, parent:string?, sum:fp64?, count:fp64?]"# = true := by decide +kernel

/-- tests/plan_roundtrip.rs L84 `test_plan_with_verbose_and_simple_output` -/
example : canonical {} cs! r#"=== Extensions
URNs:
  @  1: https://github.com/substrait-io/substrait/blob/main/extensions/functions_arithmetic.yaml
Functions:
  # 10 @  1: coalesce

=== Plan
Root[name, num]
  Project[$1, coalesce($1, $2):fp64?]
    Read[schema.table => name:string?, num:fp64?, other_num:fp64?, id:i64]"#
    cs! r#"=== Extensions
URNs:
  @  1: https://github.com/substrait-io/substrait/blob/main/extensions/functions_arithmetic.yaml
Functions:
  # 10 @  1: coalesce

=== Plan
Root[name, num]
  Project[$1, coalesce#10($1, $2):fp64?]
    Read[schema.table => name:string?, num:fp64?, other_num:fp64?, id:i64]"# = true := by decide +kernel

/-- tests/plan_roundtrip.rs L111 `test_multiple_relations_roundtrip` -/
example : survives {} cs! r#"=== Plan
Root[name, num, id]
  Project[$0, $1, $2]
    Read[t1 => name:string?, num:fp64, id:i64]

Root[name, num, id]
  Filter[$0 => $0, $1, $2]
    Read[schema.table => name:string?, num:fp64?, id:i64]"# = true := by decide +kernel

/-- tests/plan_roundtrip.rs L125 `test_plan_with_fetch_and_sort_roundtrip` -/
example : survives {} cs! r#"=== Plan
Root[name, num, id]
  Project[$0, $1, $2]
    Read[schema.table => name:string?, num:fp64?, id:i64]"# = true := by decide +kernel

/-- tests/plan_roundtrip.rs L135 `test_plan_with_extension_leaf_roundtrip` -/
example : survives {} cs! r#"=== Plan
Root[name, some_value]
  Project[$0, $1]
    Read[schema.table => name:string?, some_value:fp64?]"# = true := by decide +kernel

/-- tests/plan_roundtrip.rs L145 `test_aggregate_relation_roundtrip` -/
example : survives {} cs! r#"=== Extensions
URNs:
  @  1: https://github.com/substrait-io/substrait/blob/main/extensions/functions_aggregate.yaml
Functions:
  # 10 @  1: sum
  # 11 @  1: count

=== Plan
Root[category, total, count]
  Aggregate[$0 => sum($1):fp64?, count($1):i64]
    Read[orders => category:string?, amount:fp64?]"# = true := by decide +kernel

/-- tests/plan_roundtrip.rs L162 `test_aggregate_multiple_grouping_sets_roundtrip` -/
example : survives {} cs! r#"=== Extensions
URNs:
  @  1: https://github.com/substrait-io/substrait/blob/main/extensions/functions_aggregate.yaml
Functions:
  # 10 @  1: sum
  # 11 @  1: count

=== Plan
Root[sum, category, count]
  Aggregate[($0, $1), ($0), _ => sum($2):fp64?, $0, count($2):i64]
    Read[orders => category:string?, region:string?, amount:fp64?]"# = true := by decide +kernel

/-- tests/plan_roundtrip.rs L179 `test_global_aggregate_relation_roundtrip` -/
example : survives {} cs! r#"=== Extensions
URNs:
  @  1: https://github.com/substrait-io/substrait/blob/main/extensions/functions_aggregate.yaml
Functions:
  # 10 @  1: sum
  # 11 @  1: count

=== Plan
Root[sum, count]
  Aggregate[_ => sum($2):fp64?, count($2):i64]
    Read[orders => category:string?, region:string?, amount:fp64?]"# = true := by decide +kernel

/-- tests/plan_roundtrip.rs L196 `test_sort_relation_roundtrip` -/
example : survives {} cs! r#"=== Plan
Root[a, b]
  Sort[($0, &AscNullsFirst), ($1, &DescNullsLast) => $0, $1]
    Read[table => a:i32, b:string]"# = true := by decide +kernel

/-- tests/plan_roundtrip.rs L205 `test_sort_relation_with_scalar_function_expressions_roundtrip` -/
example : survives {} cs! r#"=== Extensions
URNs:
  @  1: https://github.com/substrait-io/substrait/blob/main/extensions/functions_arithmetic.yaml
Functions:
  # 10 @  1: add

=== Plan
Root[a, b]
  Sort[(add($0, $1):i32, &AscNullsFirst), (add($1, 1:i32):i32, &DescNullsLast) => $0, $1]
    Read[table => a:i32, b:i32]"# = true := by decide +kernel

/-- tests/plan_roundtrip.rs L221 `test_fetch_relation_roundtrip` -/
example : canonical {} cs! r#"=== Plan
Root[a, b]
  Fetch[limit=10, offset=5 => $0, $1]
    Read[table => a:i32, b:string]"#
    cs! r#"=== Plan
Root[a, b]
  Fetch[offset=5, limit=10 => $0, $1]
    Read[table => a:i32, b:string]"# = true := by decide +kernel

/-- tests/plan_roundtrip.rs L221 `test_fetch_relation_roundtrip` -/
example : survives {} cs! r#"=== Plan
Root[a, b]
  Fetch[limit=10 => $0, $1]
    Read[table => a:i32, b:string]"# = true := by decide +kernel

/-- tests/plan_roundtrip.rs L221 `test_fetch_relation_roundtrip` -/
example : survives {} cs! r#"=== Plan
Root[a, b]
  Fetch[offset=5 => $0, $1]
    Read[table => a:i32, b:string]"# = true := by decide +kernel

/-- tests/plan_roundtrip.rs L221 `test_fetch_relation_roundtrip` -/
example : survives {} cs! r#"=== Plan
Root[a, b]
  Fetch[_ => $0, $1]
    Read[table => a:i32, b:string]"# = true := by decide +kernel

/-- tests/plan_roundtrip.rs L254 `test_full_name_zero_arg_type_signature_roundtrip` -/
example : survives {} cs! r#"=== Extensions
URNs:
  @  1: extension:io.substrait:functions_aggregate_generic
Functions:
  #  1 @  1: count:

=== Plan
Root[n]
  Project[count():i64]
    Read[events => n:i64]"# = true := by decide +kernel

/-- tests/plan_roundtrip.rs L271 `test_no_sig_function_unique_no_anchor` -/
example : survives {} cs! r#"=== Extensions
URNs:
  @  1: urn:substrait:vendor_a
Functions:
  #  1 @  1: add

=== Plan
Root[result]
  Project[$0, $1, add($0, $1):i64]
    Read[t => a:i64, b:i64]"# = true := by decide +kernel

/-- tests/plan_roundtrip.rs L288 `test_ambiguous_base_name_fails` -/
example : rejected {} cs! r#"=== Extensions
URNs:
  @  1: urn:substrait:vendor_a
Functions:
  #  1 @  1: add
  #  2 @  1: add:

=== Plan
Root[result]
  Project[add($0, $1)]
    Read[t => a:i64, b:i64]"# = true := by decide +kernel

/-- tests/plan_roundtrip.rs L308 `test_no_sig_and_zero_arg_disambiguate_without_anchor` -/
example : survives {} cs! r#"=== Extensions
URNs:
  @  1: urn:substrait:vendor_a
Functions:
  #  1 @  1: add
  #  2 @  1: add:

=== Plan
Root[result]
  Project[$0, $1, add#1($0, $1):i64, add:($0, $1):i64]
    Read[t => a:i64, b:i64]"# = true := by decide +kernel

/-- tests/plan_roundtrip.rs L327 `test_three_add_variants_all_require_anchors` -/
example : survives {} cs! r#"=== Extensions
URNs:
  @  1: urn:substrait:vendor_a
  @  2: urn:substrait:vendor_b
Functions:
  #  1 @  1: add
  #  2 @  1: add:
  #  3 @  2: add:

=== Plan
Root[result]
  Project[$0, $1, add#1($0, $1):i64, add:#2($0, $1):i64, add:#3($0, $1):i64]
    Read[t => a:i64, b:i64]"# = true := by decide +kernel

/-- tests/plan_roundtrip.rs L345 `test_u_prefix_type_in_schema_roundtrip` -/
example : canonical {} cs! r#"=== Extensions
URNs:
  @  1: https://example.com/types
Types:
  #  5 @  1: json

=== Plan
Root[result]
  Project[$0]
    Read[data => doc:json]"#
    cs! r#"=== Extensions
URNs:
  @  1: https://example.com/types
Types:
  #  5 @  1: json

=== Plan
Root[result]
  Project[$0]
    Read[data => doc:u!json]"# = true := by decide +kernel

/-- tests/plan_roundtrip.rs L376 `test_u_prefix_type_in_function_declaration_roundtrip` -/
example : survives {} cs! r#"=== Extensions
URNs:
  @  1: https://example.com/funcs
Functions:
  #  5 @  1: json_extract_path:u!json_str

=== Plan
Root[result]
  Project[json_extract_path($0, $1):string]
    Read[data => doc:string, path:string]"# = true := by decide +kernel

/-- tests/plan_roundtrip.rs L376 `test_u_prefix_type_in_function_declaration_roundtrip` -/
example : canonical {} cs! r#"=== Extensions
URNs:
  @  1: https://example.com/funcs
Functions:
  #  5 @  1: json_extract_path:u!json_str

=== Plan
Root[result]
  Project[json_extract_path($0, $1):string]
    Read[data => doc:string, path:string]"#
    cs! r#"=== Extensions
URNs:
  @  1: https://example.com/funcs
Functions:
  #  5 @  1: json_extract_path:u!json_str

=== Plan
Root[result]
  Project[json_extract_path:u!json_str($0, $1):string]
    Read[data => doc:string, path:string]"# = true := by decide +kernel

/-- tests/plan_roundtrip.rs L407 `test_u_prefix_type_in_cast_roundtrip` -/
example : survives {} cs! r#"=== Extensions
URNs:
  @  1: https://example.com/types
Types:
  #  5 @  1: json

=== Plan
Root[result]
  Project[($0)::json]
    Read[data => doc:string]"# = true := by decide +kernel

/-- tests/plan_roundtrip.rs L407 `test_u_prefix_type_in_cast_roundtrip` -/
example : canonical {} cs! r#"=== Extensions
URNs:
  @  1: https://example.com/types
Types:
  #  5 @  1: json

=== Plan
Root[result]
  Project[($0)::json]
    Read[data => doc:string]"#
    cs! r#"=== Extensions
URNs:
  @  1: https://example.com/types
Types:
  #  5 @  1: json

=== Plan
Root[result]
  Project[($0)::u!json]
    Read[data => doc:string]"# = true := by decide +kernel

/-- tests/plan_roundtrip.rs L437 `test_join_relation_roundtrip` -/
example : survives {} cs! r#"=== Extensions
URNs:
  @  1: https://github.com/substrait-io/substrait/blob/main/extensions/functions_comparison.yaml
Functions:
  # 10 @  1: eq

=== Plan
Root[id, name, amount]
  Join[&Inner, eq($0, $2):boolean => $0, $1, $3]
    Read[users => id:i64, name:string]
    Read[orders => user_id:i64, amount:i32]"# = true := by decide +kernel

/-- tests/plan_roundtrip.rs L454 `test_join_relation_post_join_filter_roundtrip` -/
example : survives {} cs! r#"=== Extensions
URNs:
  @  1: https://github.com/substrait-io/substrait/blob/main/extensions/functions_comparison.yaml
Functions:
  # 10 @  1: eq
  # 11 @  1: gt

=== Plan
Root[id, name, amount]
  Join[&Inner, eq($0, $2):boolean, post_filter=gt($3, 100:i32):boolean => $0, $1, $3]
    Read[users => id:i64, name:string]
    Read[orders => user_id:i64, amount:i32]"# = true := by decide +kernel

/-- tests/plan_roundtrip.rs L472 `test_right_semi_join_relation_post_join_filter_roundtrip` -/
example : survives {} cs! r#"=== Extensions
URNs:
  @  1: https://github.com/substrait-io/substrait/blob/main/extensions/functions_comparison.yaml
Functions:
  # 10 @  1: eq
  # 11 @  1: gt

=== Plan
Root[user_id, amount]
  Join[&RightSemi, eq($0, $2):boolean, post_filter=gt($1, 100:i32):boolean => $0, $1]
    Read[users => id:i64, name:string]
    Read[orders => user_id:i64, amount:i32]"# = true := by decide +kernel

/-- tests/plan_roundtrip.rs L490 `test_join_relation_semi_types_roundtrip` -/
example : survives {} cs! r#"=== Extensions
URNs:
  @  1: https://github.com/substrait-io/substrait/blob/main/extensions/functions_comparison.yaml
Functions:
  # 10 @  1: eq

=== Plan
Root[a, b]
  Join[&LeftSemi, eq($0, $2):boolean => $0, $1]
    Read[left_table => a:i32, b:string]
    Read[right_table => c:i32, d:string]"# = true := by decide +kernel

/-- tests/plan_roundtrip.rs L507 `test_join_relation_right_mark_roundtrip` -/
example : survives {} cs! r#"=== Extensions
URNs:
  @  1: https://github.com/substrait-io/substrait/blob/main/extensions/functions_comparison.yaml
Functions:
  # 10 @  1: eq

=== Plan
Root[d, mark]
  Join[&RightMark, eq($0, $2):boolean => $2, $3]
    Read[left_table => a:i32, b:string]
    Read[right_table => c:i32, d:string, e:boolean]"# = true := by decide +kernel

/-- tests/plan_roundtrip.rs L526 `test_set_relation_union_all_roundtrip` -/
example : survives {} cs! r#"=== Plan
Root[a, b]
  Set[&UnionAll => $0, $1]
    Read[table1 => a:i64, b:string]
    Read[table2 => c:i64, d:string]"# = true := by decide +kernel

/-- tests/plan_roundtrip.rs L537 `test_set_relation_union_distinct_multi_input_roundtrip` -/
example : survives {} cs! r#"=== Plan
Root[a, b]
  Set[&UnionDistinct => $0, $1]
    Read[table1 => a:i64, b:string]
    Read[table2 => c:i64, d:string]
    Read[table3 => e:i64, f:string]"# = true := by decide +kernel

/-- tests/plan_roundtrip.rs L549 `test_set_relation_minus_primary_roundtrip` -/
example : survives {} cs! r#"=== Plan
Root[a, b]
  Set[&MinusPrimary => $0, $1]
    Read[table1 => a:i64, b:string]
    Read[table2 => c:i64, d:string]"# = true := by decide +kernel

/-- tests/plan_roundtrip.rs L560 `test_set_relation_non_identity_emit_roundtrip` -/
example : survives {} cs! r#"=== Plan
Root[a, c]
  Set[&UnionDistinct => $0, $2]
    Read[table1 => a:i64, b:string, c:i64]
    Read[table2 => d:i64, e:string, f:i64]
    Read[table3 => g:i64, h:string, i:i64]"# = true := by decide +kernel

/-- tests/plan_roundtrip.rs L572 `test_set_relation_requires_two_children` -/
example : rejected {} cs! r#"=== Plan
Root[a, b]
  Set[&UnionAll => $0, $1]
    Read[table1 => a:i64, b:string]"# = true := by decide +kernel

/-- tests/plan_roundtrip.rs L587 `test_set_relation_requires_matching_input_widths` -/
example : rejected {} cs! r#"=== Plan
Root[a, b]
  Set[&UnionAll => $0, $1]
    Read[table1 => a:i64]
    Read[table2 => c:i64, d:string]"# = true := by decide +kernel

/-- tests/plan_roundtrip.rs L603 `test_cross_relation_roundtrip` -/
example : survives {} cs! r#"=== Plan
Root[a, b, c, d]
  Cross[$0, $1, $2, $3]
    Read[table1 => a:i64, b:string]
    Read[table2 => c:i64, d:string]"# = true := by decide +kernel

/-- tests/plan_roundtrip.rs L615 `test_cross_relation_uneven_widths_roundtrip` -/
example : survives {} cs! r#"=== Plan
Root[a, b, c]
  Cross[$0, $1, $2]
    Read[table1 => a:i64]
    Read[table2 => c:i64, d:string]"# = true := by decide +kernel

/-- tests/plan_roundtrip.rs L626 `test_cross_relation_non_identity_emit_roundtrip` -/
example : survives {} cs! r#"=== Plan
Root[a, c]
  Cross[$0, $2]
    Read[table1 => a:i64, b:string]
    Read[table2 => c:i64, d:string]"# = true := by decide +kernel

/-- tests/plan_roundtrip.rs L637 `test_cross_relation_requires_two_children` -/
example : rejected {} cs! r#"=== Plan
Root[a, b]
  Cross[$0, $1]
    Read[table1 => a:i64, b:string]"# = true := by decide +kernel

/-- tests/plan_roundtrip.rs L652 `test_set_relation_rejects_invalid_but_divisible_widths` -/
example : rejected {} cs! r#"=== Plan
Root[a, b, c]
  Set[&UnionAll => $0, $1, $2]
    Read[table1 => a:i64, b:string]
    Read[table2 => c:i64, d:string, e:i64, f:string]"# = true := by decide +kernel

/-- tests/plan_roundtrip.rs L672 `test_unregistered_extension_error` -/
example : rejected {} cs! r#"=== Plan
Root[result]
  ExtensionLeaf:UnknownExtension[path='test.parquet' => col1:i32]"# = true := by decide +kernel

/-- tests/plan_roundtrip.rs L692 `test_malformed_input_error_handling` -/
example : rejected {} cs! r#"=== Plan
Root[result]
  ExtensionLeaf:TestExtension[path='test.parquet', missing_close => col1:i32"# = true := by decide +kernel

/-- tests/plan_roundtrip.rs L722 `test_overloaded_functions_verbose_shows_signature_and_anchor` -/
example : survives {} cs! r#"=== Extensions
URNs:
  @  1: extension:io.substrait:functions_comparison
Functions:
  #  1 @  1: equal:any_any
  #  2 @  1: equal:str_str

=== Plan
Root[result]
  Project[$0, equal:any_any($0, $1):boolean, equal:str_str($0, $1):boolean]
    Read[t => a:i64, b:i64, c:string]"# = true := by decide +kernel

/-- tests/plan_roundtrip.rs L722 `test_overloaded_functions_verbose_shows_signature_and_anchor` -/
example : canonical {} cs! r#"=== Extensions
URNs:
  @  1: extension:io.substrait:functions_comparison
Functions:
  #  1 @  1: equal:any_any
  #  2 @  1: equal:str_str

=== Plan
Root[result]
  Project[$0, equal:any_any($0, $1):boolean, equal:str_str($0, $1):boolean]
    Read[t => a:i64, b:i64, c:string]"#
    cs! r#"=== Extensions
URNs:
  @  1: extension:io.substrait:functions_comparison
Functions:
  #  1 @  1: equal:any_any
  #  2 @  1: equal:str_str

=== Plan
Root[result]
  Project[$0, equal:any_any#1($0, $1):boolean, equal:str_str#2($0, $1):boolean]
    Read[t => a:i64, b:i64, c:string]"# = true := by decide +kernel

/-- tests/plan_roundtrip.rs L761 `test_unique_function_compact_omits_signature` -/
example : canonical {} cs! r#"=== Extensions
URNs:
  @  1: extension:io.substrait:functions_arithmetic
Functions:
  #  1 @  1: add:i64_i64

=== Plan
Root[result]
  Project[$0, add($0, $1):i64]
    Read[t => a:i64, b:i64]"#
    cs! r#"=== Extensions
URNs:
  @  1: extension:io.substrait:functions_arithmetic
Functions:
  #  1 @  1: add:i64_i64

=== Plan
Root[result]
  Project[$0, add:i64_i64($0, $1):i64]
    Read[t => a:i64, b:i64]"# = true := by decide +kernel

/-- tests/plan_roundtrip.rs L761 `test_unique_function_compact_omits_signature` -/
example : canonical {} cs! r#"=== Extensions
URNs:
  @  1: extension:io.substrait:functions_arithmetic
Functions:
  #  1 @  1: add:i64_i64

=== Plan
Root[result]
  Project[$0, add($0, $1):i64]
    Read[t => a:i64, b:i64]"#
    cs! r#"=== Extensions
URNs:
  @  1: extension:io.substrait:functions_arithmetic
Functions:
  #  1 @  1: add:i64_i64

=== Plan
Root[result]
  Project[$0, add:i64_i64#1($0, $1):i64]
    Read[t => a:i64, b:i64]"# = true := by decide +kernel

/-- tests/plan_roundtrip.rs L805 `test_mixed_unique_and_overloaded_functions` -/
example : survives {} cs! r#"=== Extensions
URNs:
  @  1: extension:io.substrait:functions_comparison
  @  2: extension:io.substrait:functions_string
Functions:
  #  1 @  1: equal:any_any
  #  2 @  1: equal:str_str
  #  3 @  2: like:str_str

=== Plan
Root[result]
  Project[$0, equal:any_any($0, $1):boolean, equal:str_str($0, $2):boolean, like($0, $2):boolean]
    Read[t => id:i64, score:i64, name:string]"# = true := by decide +kernel

/-- tests/plan_roundtrip.rs L826 `test_same_compound_name_two_urns_requires_anchor` -/
example : survives {} cs! r#"=== Extensions
URNs:
  @  1: urn:substrait:vendor_a
  @  2: urn:substrait:vendor_b
Functions:
  #  1 @  1: equal:any_any
  #  2 @  2: equal:any_any

=== Plan
Root[result]
  Project[$0, equal:any_any#1($0, $1):boolean, equal:any_any#2($0, $1):boolean]
    Read[t => a:i64, b:i64]"# = true := by decide +kernel

/-- tests/plan_roundtrip.rs L846 `test_virtual_read_inline_single_row` -/
example : survives {} cs! r#"
=== Plan
Root[id, name]
  Read:Virtual[(1, 'alice') => id:i64, name:string]"# = true := by decide +kernel

/-- tests/plan_roundtrip.rs L856 `test_virtual_read_inline_multi_row` -/
example : survives {} cs! r#"
=== Plan
Root[id, name]
  Read:Virtual[(1, 'alice'), (2, 'bob') => id:i64, name:string]"# = true := by decide +kernel

/-- tests/plan_roundtrip.rs L866 `test_virtual_read_typed_null_roundtrip` -/
example : survives {} cs! r#"
=== Plan
Root[id, name]
  Read:Virtual[(1, null:string?), (2, 'bob') => id:i64, name:string?]"# = true := by decide +kernel

/-- tests/plan_roundtrip.rs L876 `test_virtual_read_empty` -/
example : survives {} cs! r#"
=== Plan
Root[id, name]
  Read:Virtual[_ => id:i64, name:string]"# = true := by decide +kernel

/-- tests/plan_roundtrip.rs L886 `test_virtual_read_filter_roundtrip` -/
example : survives {} cs! r#"=== Extensions
URNs:
  @  1: https://github.com/substrait-io/substrait/blob/main/extensions/functions_comparison.yaml
Functions:
  # 10 @  1: gt

=== Plan
Root[id, name]
  Read:Virtual[(1, 'alice'), (2, 'bob'), filter=gt($0, 1):boolean => id:i64, name:string]"# = true := by decide +kernel

/-- tests/plan_roundtrip.rs L901 `test_virtual_read_empty_filter_roundtrip` -/
example : survives {} cs! r#"=== Extensions
URNs:
  @  1: https://github.com/substrait-io/substrait/blob/main/extensions/functions_comparison.yaml
Functions:
  # 10 @  1: gt

=== Plan
Root[id, name]
  Read:Virtual[_, filter=gt($0, 1):boolean => id:i64, name:string]"# = true := by decide +kernel

/-- tests/plan_roundtrip.rs L916 `test_virtual_read_single_column` -/
example : survives {} cs! r#"
=== Plan
Root[id]
  Read:Virtual[
    - (1),
    - (2),
    - (3)
    - => id:i64]"# = true := by decide +kernel

/-- tests/plan_roundtrip.rs L932 `test_virtual_read_in_plan_context` -/
example : survives {} cs! r#"
=== Extensions
URNs:
  @  1: https://github.com/substrait-io/substrait/blob/main/extensions/functions_comparison.yaml
Functions:
  # 10 @  1: gt

=== Plan
Root[name]
  Filter[gt($0, 1):boolean => $0, $1]
    Read:Virtual[
      - (1, 'alice'),
      - (2, 'bob'),
      - (3, 'carol')
      - => id:i64, name:string]"# = true := by decide +kernel

/-- tests/plan_roundtrip.rs L954 `test_virtual_read_no_columns` -/
example : survives {} cs! r#"
=== Plan
Root[]
  Read:Virtual[(), () => ]"# = true := by decide +kernel

/-- tests/plan_roundtrip.rs L965 `test_virtual_read_invalid_expression_returns_error` -/
example : rejected {} cs! r#"
=== Plan
Root[result]
  Read:Virtual[(unknown_func(1)) => result:i64]"# = true := by decide +kernel

/-- tests/plan_roundtrip.rs L988 `test_emit_read_to_project_with_expression` -/
example : survives {} cs! r#"
=== Extensions
URNs:
  @  1: https://github.com/substrait-io/substrait/blob/main/extensions/functions_arithmetic.yaml
Functions:
  # 10 @  1: add

=== Plan
Root[sum]
  Project[add($0, $1):i64]
    Read[t => a:i64, b:i64]"# = true := by decide +kernel

/-- tests/plan_roundtrip.rs L1006 `test_emit_filter_to_project_with_expression` -/
example : survives {} cs! r#"
=== Extensions
URNs:
  @  1: https://github.com/substrait-io/substrait/blob/main/extensions/functions_arithmetic.yaml
  @  2: https://github.com/substrait-io/substrait/blob/main/extensions/functions_comparison.yaml
Functions:
  # 10 @  1: add
  # 11 @  2: gt

=== Plan
Root[sum]
  Project[add($0, $1):i64]
    Filter[gt($2, 0):boolean => $0, $1]
      Read[t => a:i64, b:i64, c:i64]"# = true := by decide +kernel

/-- tests/plan_roundtrip.rs L1027 `test_emit_sort_to_project_with_expression` -/
example : survives {} cs! r#"
=== Extensions
URNs:
  @  1: https://github.com/substrait-io/substrait/blob/main/extensions/functions_arithmetic.yaml
Functions:
  # 10 @  1: add

=== Plan
Root[sum]
  Project[add($0, $1):i64]
    Sort[($0, &AscNullsFirst) => $0, $1]
      Read[t => a:i64, b:i64]"# = true := by decide +kernel

/-- tests/plan_roundtrip.rs L1046 `test_emit_fetch_to_project_with_expression` -/
example : survives {} cs! r#"
=== Extensions
URNs:
  @  1: https://github.com/substrait-io/substrait/blob/main/extensions/functions_arithmetic.yaml
Functions:
  # 10 @  1: add

=== Plan
Root[sum]
  Project[add($0, $1):i64]
    Fetch[limit=10, offset=0 => $0, $1]
      Read[t => a:i64, b:i64]"# = true := by decide +kernel

/-- tests/plan_roundtrip.rs L1065 `test_emit_join_to_project_with_expression` -/
example : survives {} cs! r#"
=== Extensions
URNs:
  @  1: https://github.com/substrait-io/substrait/blob/main/extensions/functions_arithmetic.yaml
  @  2: https://github.com/substrait-io/substrait/blob/main/extensions/functions_comparison.yaml
Functions:
  # 10 @  1: add
  # 11 @  2: eq

=== Plan
Root[sum]
  Project[add($1, $3):i64]
    Join[&Inner, eq($0, $2):boolean => $0, $1, $2, $3]
      Read[users => id:i64, age:i64]
      Read[orders => user_id:i64, amount:i64]"# = true := by decide +kernel

/-- tests/plan_roundtrip.rs L1087 `test_emit_aggregate_to_project_with_expression` -/
example : survives {} cs! r#"
=== Extensions
URNs:
  @  1: https://github.com/substrait-io/substrait/blob/main/extensions/functions_arithmetic.yaml
  @  2: https://github.com/substrait-io/substrait/blob/main/extensions/functions_aggregate.yaml
Functions:
  # 10 @  1: add
  # 11 @  2: sum

=== Plan
Root[total]
  Project[add($0, $1):i64]
    Aggregate[$0 => $0, sum($1):i64]
      Read[t => category:i64, amount:i64]"# = true := by decide +kernel

/-- tests/plan_roundtrip.rs L1108 `test_emit_virtual_read_to_project_with_expression` -/
example : survives {} cs! r#"
=== Extensions
URNs:
  @  1: https://github.com/substrait-io/substrait/blob/main/extensions/functions_arithmetic.yaml
Functions:
  # 10 @  1: add

=== Plan
Root[sum]
  Project[add($0, $1):i64]
    Read:Virtual[(1, 2), (3, 4) => a:i64, b:i64]"# = true := by decide +kernel

/-- tests/plan_roundtrip.rs L1125 `test_version_semver_only_roundtrip` -/
example : survives {} cs! r#"=== Version 0.55.0
=== Plan
Root[a]
  Read[t => a:i64]"# = true := by decide +kernel

/-- tests/plan_roundtrip.rs L1145 `test_version_with_detail_and_extensions_roundtrip` -/
example : survives {} cs! r#"=== Version 1.2.3
  producer: substrait-explain tests
  git_hash: 1a2b3c4d5e6f7a8b9c0d1e2f3a4b5c6d7e8f9a0b
=== Extensions
URNs:
  @  1: https://github.com/substrait-io/substrait/blob/main/extensions/functions_arithmetic.yaml
Functions:
  # 10 @  1: add

=== Plan
Root[sum]
  Project[add($0, $1):i64]
    Read[t => a:i64, b:i64]"# = true := by decide +kernel

/-- tests/plan_roundtrip.rs L1178 `test_version_git_hash_only_roundtrip` -/
example : survives {} cs! r#"=== Version 0.0.0
  git_hash: 1a2b3c4d5e6f7a8b9c0d1e2f3a4b5c6d7e8f9a0b
=== Plan
Root[a]
  Read[t => a:i64]"# = true := by decide +kernel

/-- tests/plan_roundtrip.rs L1231 `test_version_invalid_number_errors` -/
example : rejected {} cs! r#"=== Version 0.x.0
=== Plan
Root[a]
  Read[t => a:i64]"# = true := by decide +kernel

/-- tests/plan_roundtrip.rs L1191 `test_version_absent` -/
example : survives {} cs! r#"=== Plan
Root[a]
  Read[t => a:i64]"# = true := by decide +kernel

/-- tests/plan_roundtrip.rs L1210 `test_version_all_zero_suppressed` -/
example : becomes {} .default cs! r#"=== Version 0.0.0
=== Plan
Root[a]
  Read[t => a:i64]"#
    cs! r#"=== Plan
Root[a]
  Read[t => a:i64]"# = true := by decide +kernel

end Verif.Conformance
