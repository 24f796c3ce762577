import Verif.Conformance.Tools
/-!
# The examples in GRAMMAR.md, API.md and the documentation comments
-/

namespace Verif.Conformance

set_option maxRecDepth 20000

/-- README.md L95 -/
example : rejected {} cs! r#"=== Extensions
URNs:
  @  1: https://github.com/substrait-io/substrait/blob/main/extensions/functions_arithmetic.yaml
Functions:
  # 10 @  1: gt
  # 11 @  1: multiply

=== Plan
Root[revenue]
  Filter[gt($2, 100) => $0, $1]
    Project[$0, $1, multiply($0, $1)]
      Read[orders => quantity:i32?, price:fp64?]
"# = true := by decide +kernel

/-- README.md L147 -/
example : rejected {} cs! r#"
=== Extensions
URNs:
  @  1: https://github.com/substrait-io/substrait/blob/main/extensions/functions_arithmetic.yaml
Functions:
  # 10 @  1: multiply

=== Plan
Root[revenue]
  Filter[gt($2, 100) => $0, $1]
    Project[$0, $1, multiply($0, $1)]
      Read[orders => quantity:i32?, price:fp64?]
"# = true := by decide +kernel

/-- GRAMMAR.md L71 -/
example : relations {} cs! r#"
=== Extensions
URNs:
  @  1: https://github.com/substrait-io/substrait/blob/main/extensions/functions_arithmetic.yaml
Functions:
  # 10 @  1: add
  # 11 @  1: multiply

=== Plan
Root[result]
  Project[$0, $1, add($0, $1):i64]
    Read[orders => quantity:i32?, price:i64]
"# = some 1 := by decide +kernel

/-- GRAMMAR.md L122 -/
example : accepted {} cs! r#"
=== Version 0.55.0
  producer: my-optimizer
=== Plan
Root[result]
  Read[orders => quantity:i32?]
"# = true := by decide +kernel

/-- GRAMMAR.md L169 -/
example : relations {} cs! r#"
=== Extensions
URNs:
  @  1: https://github.com/substrait-io/substrait/blob/main/extensions/functions_arithmetic.yaml
Functions:
  # 10 @  1: gt

=== Plan
Root[result]                   // Level 0 (no indentation)
  Project[$0, $1]              // Level 1 (2 spaces)
    Filter[gt($0, 10):boolean => $0]   // Level 2 (4 spaces)
      Read[data => a:i64]      // Level 3 (6 spaces)
"# = some 1 := by decide +kernel

/-- GRAMMAR.md L339 -/
example : relations {} cs! r#"
=== Plan
Root[result]
  Project[$0, $1, $2, $3]
    Read[data => int_field:i64, string_field:string?, created_at:timestamp?, user_id:uuid]
"# = some 1 := by decide +kernel

/-- GRAMMAR.md L437 -/
example : relations {} cs! r#"
=== Extensions
URNs:
  @  1: https://example.com/types
  @  2: https://example.com/functions
Types:
  #  8 @  1: point
  #  9 @  1: custom_type
Functions:
  # 10 @  2: add

=== Plan
Root[result]
  Project[$0, $1, $2]
    Read[data => point_field:point#8@1?<i8>, custom_field:custom_type#9, prefixed_field:u!custom_type]
"# = some 1 := by decide +kernel

/-- GRAMMAR.md L523 -/
example : relations {} cs! r#"
=== Plan
Root[result]
  Project[$0, $1, $42]
    Read[data => field0:i64, field1:string, field42:boolean]
"# = some 1 := by decide +kernel

/-- GRAMMAR.md L634 -/
example : relations {} cs! r#"
=== Plan
Root[status]
  Fetch[limit=10, offset=0 => ]
    Project[if_then(true -> $0, false -> $1, _ -> $2)]
      Read[events.logs => status:string?]
 "# = some 1 := by decide +kernel

/-- GRAMMAR.md L733 -/
example : relations {} cs! r#"
=== Plan
Root[c, d]           // root with output columns c and d
  Project[$0, $1]
    Read[data => a:i64, b:string]
"# = some 1 := by decide +kernel

/-- GRAMMAR.md L769 -/
example : relations {} cs! r#"
=== Plan
Root[result]
  Project[$0, $1]
    Read[schema.table => a:i64, b:string?]
Root[result2]
  Project[$0, $1]
    Read[orders => quantity:i32?, price:i64]
"# = some 2 := by decide +kernel

/-- GRAMMAR.md L787 -/
example : relations {} cs! r#"
=== Plan
Root[a, b]
  Read[my_table +> a:i64, b:string]
"# = some 1 := by decide +kernel

/-- GRAMMAR.md L803 -/
example : relations {} cs! r#"
=== Plan
Root[b, a]
  Read[my_table +> a:i64, b:string, c:i64 |> $1, $0]
"# = some 1 := by decide +kernel

/-- GRAMMAR.md L843 -/
example : relations {} cs! r#"
=== Plan
Root[id, name]
  Read:Virtual[(1, 'alice'), (2, 'bob') => id:i64, name:string]
"# = some 1 := by decide +kernel

/-- GRAMMAR.md L858 -/
example : relations {} cs! r#"
=== Plan
Root[id, name]
  Read:Virtual[_ => id:i64, name:string]
"# = some 1 := by decide +kernel

/-- GRAMMAR.md L873 -/
example : relations {} cs! r#"
=== Extensions
URNs:
  @  1: https://github.com/substrait-io/substrait/blob/main/extensions/functions_comparison.yaml
Functions:
  # 10 @  1: gt

=== Plan
Root[id, name]
  Read:Virtual[(1, 'alice'), (2, 'bob'), filter=gt($0, 1:i64):boolean => id:i64, name:string]
"# = some 1 := by decide +kernel

/-- GRAMMAR.md L899 -/
example : relations {} cs! r#"
=== Extensions
URNs:
  @  1: https://github.com/substrait-io/substrait/blob/main/extensions/functions_comparison.yaml
Functions:
  # 10 @  1: gt

=== Plan
Root[id, name]
  Read:Virtual[
    - (1, 'alice'),
    - (2, 'bob'),
    - filter=gt($0, 1:i64):boolean
    - => id:i64, name:string]
"# = some 1 := by decide +kernel

/-- GRAMMAR.md L946 -/
example : survives examples cs! r#"
=== Plan
Root[id, payload]
  Read:Extension[id:i64, payload:string]
    + Ext:BlobStoreRead['path/to/file', limit=100, include_archived=true]
"# = true := by decide +kernel

/-- GRAMMAR.md L969 -/
example : survives examples cs! r#"
=== Plan
Root[id]
  Read:Extension[id:i64]
    + Ext:BlobStoreRead['path/to/file']
    + Enh:PartitionHint[&HASH, count=8]
    + Opt:PlanHint[hint='parallel']
"# = true := by decide +kernel

/-- GRAMMAR.md L1005 -/
example : relations {} cs! r#"
=== Extensions
URNs:
  @  1: https://github.com/substrait-io/substrait/blob/main/extensions/functions_arithmetic.yaml
Functions:
  # 10 @  1: gt

=== Plan
Root[result]
  Filter[gt($2, 100):boolean => $0, $1, $2]
    Project[$0, $1, $2]
      Read[data => a:i64, b:string, c:i32]
"# = some 1 := by decide +kernel

/-- GRAMMAR.md L1038 -/
example : relations {} cs! r#"
=== Plan
Root[result]
  Project[$1, 42]                    // project field 1 and literal 42
    Read[data => a:i64, b:string]
"# = some 1 := by decide +kernel

/-- GRAMMAR.md L1068 -/
example : relations {} cs! r#"
=== Extensions
URNs:
  @  1: https://github.com/substrait-io/substrait/blob/main/extensions/functions_aggregate.yaml
Functions:
  # 10 @  1: sum
  # 11 @  1: count

=== Plan
Root[result]
  Aggregate[($0), ($0, $1) => $0, $1, sum($2):i64, count($2):i64]           // Group by field 0, and ($0, $1)
    Read[orders => category:string, region:string?,  amount:i64]
"# = some 1 := by decide +kernel

/-- GRAMMAR.md L1135 -/
example : relations {} cs! r#"
=== Plan
Root[id, name]
  Fetch[limit=10, offset=5 => $0, $1]
    Read[records => id:i64, name:string]
"# = some 1 := by decide +kernel

/-- GRAMMAR.md L1182 -/
example : relations {} cs! r#"
=== Extensions
URNs:
  @  1: https://github.com/substrait-io/substrait/blob/main/extensions/functions_comparison.yaml
Functions:
  # 10 @  1: eq

=== Plan
Root[user_orders]
  Join[&Inner, eq($0, $2):boolean => $0, $1, $3]
    Read[users => id:i64, name:string]        // Fields $0, $1
    Read[orders => user_id:i64, amount:i32]   // Fields $2, $3
"# = some 1 := by decide +kernel

/-- GRAMMAR.md L1223 -/
example : relations {} cs! r#"
=== Plan
Root[id, name]
  Set[&UnionAll => $0, $1]
    Read[active_users => id:i64, name:string]
    Read[archived_users => id:i64, name:string]
"# = some 1 := by decide +kernel

/-- GRAMMAR.md L1258 -/
example : relations {} cs! r#"
=== Plan
Root[id, name, order_id, amount]
  Cross[$0, $1, $2, $3]
    Read[users => id:i64, name:string]
    Read[orders => order_id:i64, amount:i32]
"# = some 1 := by decide +kernel

/-- GRAMMAR.md L1377 -/
example : survives examples cs! r#"
=== Plan
Root[result]
  Read[data => col:i64]
    + Enh:PartitionHint[&HASH, count=8]
"# = true := by decide +kernel

/-- GRAMMAR.md L1400 -/
example : survives examples cs! r#"
=== Plan
Root[result]
  Read[data => col:i64]
    + Enh:PartitionHint[&HASH, count=4]
    + Opt:PlanHint[hint='use_index']
    + Opt:PlanHint[hint='parallel']
"# = true := by decide +kernel

/-- GRAMMAR.md L1469 -/
example : relations {} cs! r#"
=== Extensions
URNs:
  @  1: https://github.com/substrait-io/substrait/blob/main/extensions/functions_comparison.yaml
  @  2: https://github.com/substrait-io/substrait/blob/main/extensions/functions_arithmetic.yaml
  @  3: https://github.com/substrait-io/substrait/blob/main/extensions/functions_aggregate.yaml
Functions:
  # 10 @  1: eq
  # 11 @  1: gt
  # 12 @  2: multiply
  # 13 @  3: sum

=== Plan
Root[customer_revenue]
  Aggregate[$0, $1 => $0, $1, sum($3):i64]
    Filter[gt($3, 100):boolean => $0, $1, $2, $3]
      Project[$0, $1, $2, multiply($4, $5):i64]
        Join[&Inner, eq($0, $3):boolean => $0, $1, $2, $3, $4, $5]
          Read[users => id:i64, name:string, region:string]
          Read[orders => user_id:i64, quantity:i32, price:i64]
"# = some 1 := by decide +kernel

/-- API.md L27 -/
example : accepted {} cs! r#"
=== Extensions
URNs:
  @  1: https://github.com/substrait-io/substrait/blob/main/extensions/functions_arithmetic.yaml
Functions:
  # 10 @  1: add

=== Plan
Project[$0, $1, add($0, $1):i32?]
  Read[table1 => col1:i32?, col2:i32?]
"# = true := by decide +kernel

/-- API.md L57 -/
example : accepted {} cs! r#"
=== Plan
Project[$0, 42, 54:i16]
  Read[data => name:string?, num:i64]
"# = true := by decide +kernel

/-- src/extensions/examples.rs L75 -/
example : survives examples cs! r#"
=== Plan
Root[result]
  Read[data => col:i64]
    + Enh:PartitionHint[&HASH, count=8]
"# = true := by decide +kernel

/-- src/extensions/examples.rs L175 -/
example : survives examples cs! r#"
=== Plan
Root[result]
  Read[data => col:i64]
    + Opt:PlanHint[hint='use_index']
"# = true := by decide +kernel

/-- src/extensions/examples.rs L251 -/
example : survives examples cs! r#"
=== Plan
Root[id, payload]
  Read:Extension[id:i64, payload:string]
    + Ext:BlobStoreRead['path/to/file', limit=100]
"# = true := by decide +kernel

/-- src/lib.rs L45 -/
example : accepted {} cs! r#"
=== Plan
Root[c, d]
  Project[$1, 42]
    Read[schema.table => a:i64, b:string?]
"# = true := by decide +kernel

/-- src/lib.rs L64 -/
example : rejected {} cs! r#"
=== Plan
InvalidRelation[invalid syntax]
"# = true := by decide +kernel

/-- src/lib.rs L105 -/
example : accepted {} cs! r#"
=== Plan
Root[result]
  Project[$0, $1]
    Read[data => a:i64, b:string]
"# = true := by decide +kernel

/-- src/lib.rs L140 -/
example : accepted {} cs! r#"
=== Plan
Root[result]
  Project[$0, 42]
    Read[data => a:i64]
"# = true := by decide +kernel

/-- src/lib.rs L179 -/
example : accepted examples cs! r#"
=== Plan
Root[id, payload]
  Read:Extension[id:i64, payload:string]
    + Ext:BlobStoreRead['path/to/file', limit=100]
"# = true := by decide +kernel

/-- src/parser/structural.rs L792 -/
example : accepted {} cs! r#"
=== Plan
Root[c, d]
  Project[$1, 42]
    Read[schema.table => a:i64, b:string?]
"# = true := by decide +kernel

/-- src/parser/structural.rs L831 -/
example : rejected {} cs! r#"
=== Plan
InvalidRelation[invalid syntax]
"# = true := by decide +kernel

/-- src/parser/structural.rs L861 -/
example : accepted {} cs! r#"
=== Extensions
URNs:
  @  1: https://example.com/functions.yaml
Functions:
  # 10 @  1: my_custom_function
=== Plan
Root[result]
  Project[my_custom_function($0, $1):i32]
    Read[table => col1:i32, col2:i32]
"# = true := by decide +kernel

/-- src/parser/structural.rs L923 -/
example : relations {} cs! r#"
=== Plan
Root[result]
  Read[table => col:i32]
"# = some 1 := by decide +kernel

end Verif.Conformance
