import Verif.Conformance.TypeTests
import Verif.Model.RelConv
/-!
# The unit tests of src/parser/relations.rs, on the model

`test_parse_relation` is empty.  The two tests of negative limits only say what happens if the text is
matched, which it is.
-/

namespace Verif.Conformance

open Store

set_option autoImplicit false


/-- `parse_exact` and `parse_pair_with_context`: the relation without its inputs, and how many columns
it has. -/
def relation (p : Str → Option (SLine × Str)) (st : Store) (kids : List Rel) (n : Nat) (s : Str) :
    Option (RelOp × Nat) :=
  match complete (p s) with
  | some l => match convBody st none kids n l with
    | .ok (.node op _, w) => some (op, w)
    | _ => none
  | none => none

/-- The same, refused with an error. -/
def relationRefused (p : Str → Option (SLine × Str)) (st : Store) (kids : List Rel) (n : Nat) (s : Str) :
    Bool :=
  match complete (p s) with
  | some l => match convBody st none kids n l with
    | .err _ => true
    | _ => false
  | none => false

def direct : Option Common := mkCommon .direct
def emits (l : List Int) : Option Common := mkCommon (.emit l)

/-- L1532 `example_read_relation` -/
def threeColumns : List Rel :=
  match relation pRead empty [] 0 cs!"Read[ab.cd.ef => a:i32, b:string?, c:i64]" with
  | some (op, _) => [.node op []]
  | none => []

/-- L1400 `test_parse_read_relation` -/
example : (match relation pRead empty [] 0 cs!"Read[ab.cd.ef => a:i32, b:string?]" with
  | some (.read c (some schema) none (.named names 0) none 0, 2) =>
    decide (c = direct) && decide (names = [cs!"ab", cs!"cd", cs!"ef"]) &&
      decide (schema.names = [cs!"a", cs!"b"]) && (schema.struct.any fun t => t.types.length == 2)
  | _ => false) = true := by decide +kernel
/-- L1428 `test_parse_read_relation_explicit_emit` -/
example : (match relation pRead empty [] 0 cs!"Read[ab.cd.ef +> a:i32, b:string?, c:i64 |> $2, $0]" with
  | some (.read c _ _ _ _ _, 2) => decide (c = emits [2, 0])
  | _ => false) = true := by decide +kernel
/-- L1450 `test_parse_read_relation_explicit_identity_emit_not_collapsed` -/
example : (match relation pRead empty [] 0 cs!"Read[ab.cd.ef +> a:i32, b:string? |> $0, $1]" with
  | some (.read c _ _ _ _ _, _) => decide (c = emits [0, 1])
  | _ => false) = true := by decide +kernel
/-- L1473 `test_parse_read_relation_explicit_direct` -/
example : (match relation pRead empty [] 0 cs!"Read[ab.cd.ef +> a:i32, b:string?]" with
  | some (.read c _ _ _ _ _, 2) => decide (c = direct)
  | _ => false) = true := by decide +kernel
/-- L1491 `test_parse_virtual_read_relation_filter` -/
example : (match relation pReadVirtual (decl! .function 1 10 cs!"gt" (urn! 1 cs!"functions_comparison.yaml"))
    [] 0 cs!"Read:Virtual[(1, 'alice'), filter=gt($0, 0:i64):boolean => id:i64, name:string]" with
  | some (.read _ _ filter (.virtual rows _) _ _, _) => filter.isSome && rows.length == 1
  | _ => false) = true := by decide +kernel
/-- L1520 `test_parse_read_relation_rejects_arrow_with_emit` -/
example : (pRead cs!"Read[ab.cd.ef => a:i32, b:string? |> $0, $1]").isNone = true := by decide +kernel
/-- L1548 `test_parse_filter_relation` -/
example : (match relation pFilter empty threeColumns 3 cs!"Filter[$1 => $0, $1, $2]" with
  | some (.filter c (some e) none, 3) => decide (c = direct) && Expr.beq e (ref! 1)
  | _ => false) = true := by decide +kernel
/-- L1567 `test_parse_project_relation` -/
example : (match relation pProject empty threeColumns 3 cs!"Project[$0, $1, 42]" with
  | some (.project c exprs none, 3) => decide (c = emits [0, 1, 3]) && exprs.length == 1
  | _ => false) = true := by decide +kernel
/-- L1591 `test_parse_project_relation_complex` -/
example : (match relation pProject empty threeColumns 5 cs!"Project[42, $0, 100, $2, $1]" with
  | some (.project c exprs none, 5) => decide (c = emits [5, 0, 6, 2, 1]) && exprs.length == 2
  | _ => false) = true := by decide +kernel

def sums : Store :=
  decl! .function 1 11 cs!"count" (decl! .function 1 10 cs!"sum" (urn! 1 cs!"functions_aggregate.yaml"))

/-- What the tests look at in an aggregate: the common part, the number of grouping expressions, the
references of the grouping sets and the number of measures. -/
def aggregate (st : Store) (n : Nat) (s : Str) : Option (Option Common × Nat × List (List Nat) × Nat) :=
  match relation pAggregate st threeColumns n s with
  | some (.aggregate c g sets ms none, _) => some (c, g.length, sets.map (·.refs), ms.length)
  | _ => none

/-- L1616 `test_parse_aggregate_relation` -/
example : aggregate sums 3 cs!"Aggregate[($0, $1), _ => sum($2):i64, $0, count($2):i64]" =
    some (emits [2, 0, 3], 2, [[0, 1], []], 2) := by decide +kernel
/-- L1658 `test_parse_aggregate_relation_maintain_column_order` -/
example : aggregate sums 3 cs!"Aggregate[$0 => sum($1):i64, $0, count($1):i64]" =
    some (emits [1, 0, 2], 1, [[0]], 2) := by decide +kernel
/-- L1698 `test_parse_aggregate_relation_simple` -/
example : aggregate sums 3 cs!"Aggregate[$2, $0 => sum($1):i64]" =
    some (emits [2], 2, [[0, 1]], 1) := by decide +kernel
/-- L1720 `test_parse_aggregate_relation_output_reference_uses_grouping_position` -/
example : aggregate sums 3 cs!"Aggregate[$2, $0 => $0, $2, sum($1):i64]" =
    some (emits [1, 0, 2], 2, [[0, 1]], 1) := by decide +kernel
/-- L1761 `test_parse_aggregate_relation_output_not_in_grouping_expressions_errors` -/
example : relationRefused pAggregate sums threeColumns 3 cs!"Aggregate[$0 => $1, sum($1):i64]" = true := by
  decide +kernel
/-- L1783 `test_parse_aggregate_relation_output_with_literal_expression` -/
example : aggregate sums 3 cs!"Aggregate[42, $0 => $0, 42, sum($1):i64]" =
    some (emits [1, 0, 2], 2, [[0, 1]], 1) := by decide +kernel
/-- L1821 `test_parse_aggregate_relation_function_call_is_not_a_measure` -/
example : aggregate (decl! .function 2 11 cs!"sum" (decl! .function 1 10 cs!"eq"
      (urn! 2 cs!"functions_aggregate.yaml" (urn! 1 cs!"functions_comparison.yaml")))) 3
    cs!"Aggregate[eq($0, $1):boolean => eq($0, $1):boolean, sum($2):i64]" =
    some (direct, 1, [[0]], 1) := by decide +kernel
/-- L1858 `test_parse_aggregate_relation_global_aggregate` -/
example : aggregate sums 3 cs!"Aggregate[_ => sum($0):i64, count($1):i64]" =
    some (direct, 0, [[]], 2) := by decide +kernel
/-- L1898 `test_parse_aggregate_relation_grouping_sets` -/
example : aggregate sums 4 cs!"Aggregate[($0, $1, $2), ($2, $0), ($1), _ => $0, $1, $2, count($3):i64]" =
    some (direct, 3, [[0, 1, 2], [2, 0], [1], []], 1) := by decide +kernel

/-- L1942 `test_fetch_relation_positive_values` -/
example : (match relation pFetch empty threeColumns 3 cs!"Fetch[limit=10, offset=5 => $0]" with
  | some (.fetch _ (some (.expr l)) (some (.expr o)) none, 1) =>
    Expr.beq l (int! 10) && Expr.beq o (int! 5)
  | _ => false) = true := by decide +kernel
/-- L1967 `test_fetch_relation_negative_limit_rejected` -/
example : relationRefused pFetch empty threeColumns 3 cs!"Fetch[limit=-5 => $0]" = true := by decide +kernel
/-- L1997 `test_fetch_relation_negative_offset_rejected` -/
example : relationRefused pFetch empty threeColumns 3 cs!"Fetch[offset=-10 => $0]" = true := by decide +kernel

def equals : Store :=
  decl! .function 1 11 cs!"gt" (decl! .function 1 10 cs!"eq" (urn! 1 cs!"functions_comparison.yaml"))

/-- What the tests look at in a join: common part, type, whether there is a condition and a filter. -/
def joins (st : Store) (s : Str) : Option (Option Common × EnumVal JoinType × Bool × Bool) :=
  match relation pJoin st (threeColumns ++ threeColumns) 6 s with
  | some (.join c t e p none, _) => some (c, t, e.isSome, p.isSome)
  | _ => none

/-- L2027 `test_parse_join_relation` -/
example : joins equals cs!"Join[&Inner, eq($0, $3):boolean => $0, $1, $3, $4]" =
    some (emits [0, 1, 3, 4], .known .inner, true, false) := by decide +kernel
/-- L2069 `test_parse_join_relation_post_join_filter` -/
example : joins equals cs!"Join[&RightSemi, eq($0, $3):boolean, post_filter=gt($1, 100:i32):boolean => $0, $1]" =
    some (emits [0, 1], .known .rightSemi, true, true) := by decide +kernel
/-- L2104 `test_parse_join_relation_left_outer` -/
example : joins equals cs!"Join[&Left, eq($0, $3):boolean => $0, $1, $2]" =
    some (emits [0, 1, 2], .known .left, true, false) := by decide +kernel
/-- L2138 `test_parse_join_relation_left_semi` -/
example : joins equals cs!"Join[&LeftSemi, eq($0, $3):boolean => $0, $1]" =
    some (emits [0, 1], .known .leftSemi, true, false) := by decide +kernel
/-- L2172 `test_parse_join_relation_right_semi` -/
example : joins equals cs!"Join[&RightSemi, eq($0, $3):boolean => $0, $1]" =
    some (emits [0, 1], .known .rightSemi, true, false) := by decide +kernel
/-- L2206 `test_parse_join_relation_requires_two_children` -/
example :
    let one := cs!"Join[&Inner, eq($0, $1):boolean => $0, $1]"
    relationRefused pJoin empty [] 0 one = true ∧ relationRefused pJoin empty threeColumns 3 one = true ∧
    relationRefused pJoin empty (threeColumns ++ threeColumns ++ threeColumns) 9 one = true := by
  decide +kernel

end Verif.Conformance
