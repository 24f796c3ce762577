import Verif.Conformance.Tools
/-!
# tests/extension_table.rs, tests/adv_extension_roundtrip.rs, tests/extension_roundtrip.rs
-/

namespace Verif.Conformance

set_option maxRecDepth 20000

/-- tests/extension_table.rs L79 `read_roundtrip` -/
example : survives examples cs! r#"
=== Plan
Root[id, payload]
  Read:Extension[id:i64, payload:string]
    + Ext:BlobStoreRead['path/to/file', limit=100, include_archived=true]
"# = true := by decide +kernel

/-- tests/extension_table.rs L99 `read_with_advanced_extensions_roundtrip` -/
example : survives examples cs! r#"
=== Plan
Root[id]
  Read:Extension[id:i64]
    + Ext:BlobStoreRead['path/to/file']
    + Enh:PartitionHint[&HASH, count=8]
    + Opt:PlanHint[hint='parallel']
"# = true := by decide +kernel

/-- tests/extension_table.rs L121 `missing_ext_fails` -/
example : rejected (plus {} .extensionTable (userTableRead.ext texts)) cs! r#"
=== Plan
Root[id]
  Read:Extension[id:i64]
"# = true := by decide +kernel

/-- tests/extension_table.rs L136 `duplicate_ext_fails` -/
example : rejected (plus {} .extensionTable (userTableRead.ext texts)) cs! r#"
=== Plan
Root[id]
  Read:Extension[id:i64]
    + Ext:UserTable[name='customers']
    + Ext:UserTable[name='other_customers']
"# = true := by decide +kernel

/-- tests/extension_table.rs L153 `ext_on_named_read_fails` -/
example : rejected (plus {} .extensionTable (userTableRead.ext texts)) cs! r#"
=== Plan
Root[id]
  Read[data => id:i64]
    + Ext:UserTable[name='customers']
"# = true := by decide +kernel

/-- tests/extension_table.rs L169 `ext_on_relation_fails` -/
example : rejected (plus (plus {} .extensionTable (userTableRead.ext texts)) .relation (userTableRead.ext texts)) cs! r#"
=== Plan
Root[id]
  ExtensionLeaf:UserTable[name='customers' => id:string]
    + Ext:UserTable[name='other_customers']
"# = true := by decide +kernel

/-- tests/adv_extension_roundtrip.rs L31 `test_partition_hint_roundtrip` -/
example : survives hints cs! r#"=== Plan
Root[result]
  Read[my.table => col:i64]
    + Enh:PartitionHint[&HASH, &RANGE]"# = true := by decide +kernel

/-- tests/adv_extension_roundtrip.rs L48 `test_partition_hint_with_count` -/
example : survives hints cs! r#"=== Plan
Root[result]
  Read[my.table => col:i64]
    + Enh:PartitionHint[&HASH, count=8]"# = true := by decide +kernel

/-- tests/adv_extension_roundtrip.rs L65 `test_partition_hint_all_strategies` -/
example : survives hints cs! r#"=== Plan
Root[result]
  Read[my.table => col:i64]
    + Enh:PartitionHint[&UNSPECIFIED, &HASH, &RANGE, &BROADCAST]"# = true := by decide +kernel

/-- tests/adv_extension_roundtrip.rs L82 `test_partition_hint_empty` -/
example : survives hints cs! r#"=== Plan
Root[result]
  Read[my.table => col:i64]
    + Enh:PartitionHint[_]"# = true := by decide +kernel

/-- tests/adv_extension_roundtrip.rs L102 `test_enhancement_with_child_relation` -/
example : survives hints cs! r#"=== Plan
Root[result]
  Filter[$0 => $0]
    + Enh:PartitionHint[&BROADCAST]
    Read[my.table => col:i64]"# = true := by decide +kernel

/-- tests/adv_extension_roundtrip.rs L215 `test_multiple_optimizations_roundtrip` -/
example : survives (plus {} .optimization (planHint.ext sampleCodec2)) cs! r#"=== Plan
Root[result]
  Read[my.table => col:i64]
    + Opt:PlanHint[hint='use_index']
    + Opt:PlanHint[hint='parallel']"# = true := by decide +kernel

/-- tests/adv_extension_roundtrip.rs L236 `test_enhancement_and_optimization_on_same_relation` -/
example : survives (plus hints .optimization (planHint.ext sampleCodec2)) cs! r#"=== Plan
Root[result]
  Read[my.table => col:i64]
    + Enh:PartitionHint[&HASH]
    + Opt:PlanHint[hint='use_index']"# = true := by decide +kernel

/-- tests/adv_extension_roundtrip.rs L262 `test_unregistered_enhancement_fails_to_parse` -/
example : rejected {} cs! r#"
=== Plan
Root[result]
  Read[my.table => col:i64]
    + Enh:PartitionHint[&HASH, count=4]
"# = true := by decide +kernel

/-- tests/adv_extension_roundtrip.rs L283 `test_unknown_enhancement_url_textify_is_lenient` -/
example : rewritten hints {} .default cs! r#"=== Plan
Root[result]
  Read[my.table => col:i64]
    + Enh:PartitionHint[&HASH]"# = 
    some (cs!"=== Plan\nRoot[result]\n  Read[my.table => col:i64]\n    + Enh[!{extension}]\n", [cs!"extension"]) := by decide +kernel

/-- tests/adv_extension_roundtrip.rs L323 `test_multiple_enhancements_fails_to_parse` -/
example : rejected hints cs! r#"=== Plan
Root[result]
  Read[my.table => col:i64]
    + Enh:PartitionHint[&HASH]
    + Enh:PartitionHint[&RANGE]"# = true := by decide +kernel

/-- tests/adv_extension_roundtrip.rs L346 `test_addendum_as_standalone_root_fails_with_error` -/
example : rejected hints cs! r#"=== Plan
+ Enh:PartitionHint[&HASH]"# = true := by decide +kernel

/-- tests/adv_extension_roundtrip.rs L361 `test_addendum_as_roots_only_child_fails_with_error` -/
example : rejected hints cs! r#"=== Plan
Root[result]
  + Enh:PartitionHint[&HASH]"# = true := by decide +kernel

/-- tests/adv_extension_roundtrip.rs L382 `test_enhancement_on_filter_roundtrip` -/
example : survives hints cs! r#"=== Plan
Root[result]
  Filter[$0 => $0]
    + Enh:PartitionHint[&HASH, count=4]
    Read[my.table => col:i64]"# = true := by decide +kernel

/-- tests/adv_extension_roundtrip.rs L401 `test_enhancement_on_sort_roundtrip` -/
example : survives hints cs! r#"=== Plan
Root[result]
  Sort[($0, &AscNullsFirst) => $0]
    + Enh:PartitionHint[&RANGE]
    Read[my.table => col:i64]"# = true := by decide +kernel

/-- tests/adv_extension_roundtrip.rs L424 `test_unregistered_optimization_fails_to_parse` -/
example : rejected {} cs! r#"=== Plan
Root[result]
  Read[my.table => col:i64]
    + Opt:PlanHint[hint='fast']"# = true := by decide +kernel

/-- tests/adv_extension_roundtrip.rs L443 `test_wrong_argument_type_for_enhancement_fails` -/
example : rejected hints cs! r#"=== Plan
Root[result]
  Read[my.table => col:i64]
    + Enh:PartitionHint[5]"# = true := by decide +kernel

/-- tests/adv_extension_roundtrip.rs L473 `test_unregistered_enhancement_produces_failure_token_at_textify_time` -/
example : rewritten hints {} .default cs! r#"=== Plan
Root[result]
  Read[my.table => col:i64]
    + Enh:PartitionHint[&HASH]"# = 
    some (cs!"=== Plan\nRoot[result]\n  Read[my.table => col:i64]\n    + Enh[!{extension}]\n", [cs!"extension"]) := by decide +kernel

/-- tests/adv_extension_roundtrip.rs L580 `test_project_over_extension_leaf_emit_mapping` -/
example : survives (plus {} .relation (twoColumnScan.ext unit)) cs! r#"=== Plan
Root[result]
  Project[$0, $1, 42]
    ExtensionLeaf:TwoColumnScan[_ => col0:i64, col1:i32]"# = true := by decide +kernel

/-- tests/adv_extension_roundtrip.rs L633 `test_enhancement_on_project_roundtrip` -/
example : survives hints cs! r#"=== Plan
Root[col]
  Project[$0]
    + Enh:PartitionHint[&HASH]
    Read[my.table => col:i64]"# = true := by decide +kernel

/-- tests/adv_extension_roundtrip.rs L649 `test_enhancement_on_fetch_roundtrip` -/
example : survives hints cs! r#"=== Plan
Root[col]
  Fetch[limit=5 => $0]
    + Enh:PartitionHint[&HASH]
    Read[my.table => col:i64]"# = true := by decide +kernel

/-- tests/adv_extension_roundtrip.rs L668 `test_enhancement_on_aggregate_roundtrip` -/
example : survives hints cs! r#"=== Plan
Root[col]
  Aggregate[$0 => $0]
    + Enh:PartitionHint[&HASH]
    Read[my.table => col:i64]"# = true := by decide +kernel

/-- tests/adv_extension_roundtrip.rs L688 `test_enhancement_on_join_roundtrip` -/
example : survives hints cs! r#"=== Plan
Root[id, name]
  Join[&LeftSemi, $0 => $0, $1]
    + Enh:PartitionHint[&HASH]
    Read[users => id:i64, name:string]
    Read[orders => user_id:i64, amount:i32]"# = true := by decide +kernel

/-- tests/adv_extension_roundtrip.rs L708 `test_optimization_on_nested_read_roundtrip` -/
example : survives (plus {} .optimization (planHint.ext sampleCodec2)) cs! r#"=== Plan
Root[result]
  Filter[$0 => $0]
    Read[my.table => col:i64]
      + Opt:PlanHint[hint='index']"# = true := by decide +kernel

/-- tests/adv_extension_roundtrip.rs L733 `test_multiple_optimizations_on_nested_read_roundtrip` -/
example : survives (plus {} .optimization (planHint.ext sampleCodec2)) cs! r#"=== Plan
Root[result]
  Filter[$0 => $0]
    Read[my.table => col:i64]
      + Opt:PlanHint[hint='use_index']
      + Opt:PlanHint[hint='parallel']"# = true := by decide +kernel

/-- tests/adv_extension_roundtrip.rs L755 `test_enhancement_and_optimization_on_nested_relation_roundtrip` -/
example : survives (plus hints .optimization (planHint.ext sampleCodec2)) cs! r#"=== Plan
Root[result]
  Filter[$0 => $0]
    Read[my.table => col:i64]
      + Enh:PartitionHint[&HASH]
      + Opt:PlanHint[hint='index']"# = true := by decide +kernel

/-- tests/adv_extension_roundtrip.rs L777 `test_enhancement_on_nested_read_roundtrip` -/
example : survives hints cs! r#"=== Plan
Root[result]
  Filter[$0 => $0]
    Read[my.table => col:i64]
      + Enh:PartitionHint[&HASH]"# = true := by decide +kernel

/-- tests/adv_extension_roundtrip.rs L796 `test_enhancement_on_nested_filter_roundtrip` -/
example : survives hints cs! r#"=== Plan
Root[result]
  Sort[($0, &AscNullsFirst) => $0]
    Filter[$0 => $0]
      + Enh:PartitionHint[&RANGE]
      Read[my.table => col:i64]"# = true := by decide +kernel

/-- tests/adv_extension_roundtrip.rs L816 `test_enhancement_depth_three_nesting_roundtrip` -/
example : survives hints cs! r#"=== Plan
Root[result]
  Sort[($0, &AscNullsFirst) => $0]
    Filter[$0 => $0]
      Read[my.table => col:i64]
        + Enh:PartitionHint[&RANGE]"# = true := by decide +kernel

/-- tests/adv_extension_roundtrip.rs L895 `test_adv_ext_output_columns_produces_failure_token` -/
example : rewritten (plus {} .enhancement (enhancementWithColumns.ext unit)) (plus {} .enhancement (enhancementWithColumns.ext unit)) .default cs! r#"=== Plan
Root[result]
  Read[my.table => col:i64]
    + Enh:EnhancementWithColumns[_]"# = 
    some (cs!"=== Plan\nRoot[result]\n  Read[my.table => col:i64]\n    + Enh[!{addendum}]\n", [cs!"addendum"]) := by decide +kernel

/-- tests/extension_roundtrip.rs L101 `test_extension_leaf_roundtrip` -/
example : survives (plus {} .relation (userTable.ext userTableCodec)) cs! r#"
=== Plan
Root[result]
  ExtensionLeaf:UserTable[name='customers', version=2, temp=true => id:string, region:string]
"# = true := by decide +kernel

/-- tests/extension_roundtrip.rs L122 `test_extension_without_registry` -/
example : rejected {} cs! r#"
=== Plan
Root[result]
  ExtensionLeaf:UnknownExtension[arg1='value1', arg2=42 => col1:i32, col2:string]
"# = true := by decide +kernel

/-- tests/extension_roundtrip.rs L175 `test_multiple_extensions_in_plan` -/
example : relations (plus (plus {} .relation (userTable.ext userTableCodec)) .relation (testFilter.ext texts)) cs! r#"
=== Plan
Root[result]
  ExtensionSingle:TestFilter[expr='status = "active"' => $0, $1]
    ExtensionLeaf:UserTable[name='users_prod', version=1, temp=false => id:i64, status:string]
"# = some 1 := by decide +kernel

/-- tests/extension_roundtrip.rs L274 `test_extension_literal_roundtrip` -/
example : survives (plus {} .relation (literalTest.ext texts)) cs! r#"
=== Plan
Root[result]
  ExtensionLeaf:LiteralTest[path='data/source', big=1099511627776, ratio=3.25, enabled=false => value:string]
"# = true := by decide +kernel

/-- tests/extension_roundtrip.rs L293 `test_extension_unknown_arguments` -/
example : rejected (plus {} .relation (userTable.ext userTableCodec)) cs! r#"
=== Plan
Root[result]
  ExtensionLeaf:UserTable[name='customers', version=2, invalid_arg=true => id:string]
"# = true := by decide +kernel

/-- tests/extension_roundtrip.rs L351 `test_extension_empty_args_roundtrip` -/
example : survives (plus {} .relation (emptySource.ext unit)) cs! r#"
=== Plan
Root[result]
  ExtensionLeaf:EmptySource[_ => ]
"# = true := by decide +kernel

/-- tests/extension_roundtrip.rs L373 `test_extension_string_escaping_roundtrip` -/
example : survives (plus {} .relation (userTable.ext userTableCodec)) cs! r#"
=== Plan
Root[result]
  ExtensionLeaf:UserTable[name='it\'s a \"test\\path', version=1, temp=false => col:string]
"# = true := by decide +kernel

/-- tests/extension_roundtrip.rs L472 `test_extension_single_over_read_roundtrip` -/
example : survives (plus {} .relation (passThrough.ext unit)) cs! r#"=== Plan
Root[a, b, c, d]
  ExtensionSingle:PassThrough[_ => $0, $1, $2, $3]
    Read[my.table => a:i64, b:i64, c:i64, d:i64]"# = true := by decide +kernel

/-- tests/extension_roundtrip.rs L490 `test_extension_single_input_output_uses_emitted_child_width` -/
example : survives (plus {} .relation (passThrough.ext unit)) cs! r#"=== Plan
Root[a, d]
  ExtensionSingle:PassThrough[_ => $0, $1]
    Project[$0, $3]
      Read[my.table => a:i64, b:i64, c:i64, d:i64]"# = true := by decide +kernel

/-- tests/extension_roundtrip.rs L513 `test_extension_multi_roundtrip` -/
example : survives (plus {} .relation (binaryMerge.ext unit)) cs! r#"=== Plan
Root[a, b]
  ExtensionMulti:BinaryMerge[_ => $0, $1]
    Read[left => a:i64]
    Read[right => b:i64]"# = true := by decide +kernel

/-- tests/extension_roundtrip.rs L536 `test_enhancement_on_read_under_extension_single` -/
example : survives (plus (plus {} .relation (passThrough.ext unit)) .enhancement (partitionHint.ext sampleCodec1)) cs! r#"=== Plan
Root[col]
  ExtensionSingle:PassThrough[_ => $0]
    Read[my.table => col:i64]
      + Enh:PartitionHint[&HASH]"# = true := by decide +kernel

/-- tests/extension_roundtrip.rs L565 `test_extension_leaf_unknown_type_url_textify_is_lenient` -/
example : rewritten (plus {} .relation (userTable.ext userTableCodec)) {} .default cs! r#"=== Plan
Root[result]
  ExtensionLeaf:UserTable[name='customers', version=2, temp=true => id:string, region:string]"# = 
    some (cs!"=== Plan\nRoot[result]\n  ExtensionLeaf[!{extension}]\n", [cs!"extension"]) := by decide +kernel

/-- tests/extension_roundtrip.rs L654 `test_tuple_sort_hint_roundtrip` -/
example : survives (plus {} .enhancement (tupleSortHint.ext texts)) cs! r#"=== Plan
Root[result]
  Read[my.table => col:i64]
    + Enh:TupleSortHint[(&ASC, &DESC)]"# = true := by decide +kernel

/-- tests/extension_roundtrip.rs L674 `test_tuple_sort_hint_empty_tuple_roundtrip` -/
example : survives (plus {} .enhancement (tupleSortHint.ext texts)) cs! r#"=== Plan
Root[result]
  Read[my.table => col:i64]
    + Enh:TupleSortHint[()]"# = true := by decide +kernel

/-- tests/adv_extension_roundtrip.rs L124 `test_enhancement_attaches_to_filter_not_read` -/
example : (match read hints cs! r#"=== Plan
Root[result]
  Filter[$0 => $0]
    + Enh:PartitionHint[&BROADCAST]
    Read[my.table => col:i64]"# with
  | .ok p => match p.rels with
    | [.root _ (some (.node (.filter _ _ adv) [some (.node (.read _ _ _ _ adv' _) _)]))] =>
      adv.isSome && adv'.isNone
    | _ => false
  | _ => false) = true := by decide +kernel

end Verif.Conformance
