import Verif.Conformance.SectionTests
/-!
# The unit tests of src/parser/extensions.rs, on the model
-/

namespace Verif.Conformance

open Store

set_option autoImplicit false
set_option synthInstance.maxSize 1000

/-- `URNExtensionDeclaration::parse_str`. -/
def urnLineOf (s : Str) : Option (Nat × Str) :=
  (complete (pUrnDecl s)).bind fun r => r.1.toU32.map fun a => (a, r.2)

/-- `SimpleExtensionDeclaration::parse_from_kind` for functions: anchor, anchor of the URN, name. -/
def declLineOf (s : Str) : Option (Nat × Nat × Str) :=
  (complete (pDecl s)).bind fun r => r.1.toU32.bind fun a => r.2.1.toU32.map fun u => (a, u, r.2.2)

/-- `ExtensionValue::parse` with no declarations. -/
def value (s : Str) : Option ExtValue := exact pArg (convArg empty) s

/-- The text of a value, when there are no errors. -/
def valueText (o : Opts) (v : ExtValue) : Option Str :=
  if (textExtValue empty o v).errs = [] then some (textExtValue empty o v).text else none

/-- The declarations of an accepted plan. -/
def declarations (input : Str) : Option (List (Nat × Str) × List Decl) :=
  match read {} input with
  | .ok p => some (p.urns, p.decls)
  | _ => none

/-- L626 `test_parse_urn_extension_declaration` and `test_parse_urn_extension_declaration_str` -/
example : urnLineOf cs!"@1: /my/urn1" = some (1, cs!"/my/urn1") := by decide +kernel
/-- L634 `test_parse_simple_extension_declaration` -/
example : declLineOf cs!"#5@2: my_function_name" = some (5, 2, cs!"my_function_name")
    ∧ declLineOf cs!"#10  @200: another_ext_123" = some (10, 200, cs!"another_ext_123") := by
  decide +kernel

/-- The text of L659 `test_extensions_round_trip_plan` -/
def fourDeclarations : Str := cs! r#"=== Extensions
URNs:
  @  1: /urn/common
  @  2: /urn/specific_funcs
Functions:
  # 10 @  1: func_a
  # 11 @  2: func_b_special
Types:
  # 20 @  1: SomeType
Type Variations:
  # 30 @  2: VarX
"#

/-- L659 `test_extensions_round_trip_plan` -/
example : ((declarations fourDeclarations).bind fun d => (loaded d.1 d.2).map fun s =>
      (d.1.length, d.2.length, writeExts s cs!"  ")) = some (2, 4, fourDeclarations) := by
  decide +kernel

/-- L695 `test_parse_simple_extension_declaration_compound_name` -/
example : declLineOf cs!"#1 @2: equal:any_any" = some (1, 2, cs!"equal:any_any") := by decide +kernel
/-- L706 `test_parse_simple_extension_declaration_compound_name_multi_segment` -/
example : declLineOf cs!"#3 @1: regexp_match_substring:str_str_i64"
    = some (3, 1, cs!"regexp_match_substring:str_str_i64") := by decide +kernel
/-- L716 `test_parse_simple_extension_declaration_u_prefix_function_with_u_signature` -/
example : declLineOf cs!"#5 @2: json_extract_path:u!json_str"
    = some (5, 2, cs!"json_extract_path:u!json_str") := by decide +kernel

/-- L728 `test_u_prefix_type_declaration_accepted` -/
example : (match rewritten {} {} .default cs! r#"=== Extensions
URNs:
  @  1: https://example.com/types
Types:
  # 11 @  1: u!point
=== Plan
Root[result]
  Project[$0]
    Read[data => p:point#11]"# with
  | some (t, []) => contains t cs!"  # 11 @  1: point" && !contains t cs!"u!point"
  | _ => false) = true := by decide +kernel

/-- L754 `test_u_prefix_type_variation_declaration_rejected` -/
example : rejected {} cs! r#"=== Extensions
URNs:
  @  1: https://example.com/types
Type Variations:
  # 30 @  1: u!myvar
=== Plan
Root[result]
  Read[data => x:i64]"# = true := by decide +kernel

/-- L772 `test_u_prefix_function_declaration_rejected` -/
example : rejected {} cs! r#"=== Extensions
URNs:
  @  1: https://example.com/funcs
Functions:
  # 21 @  1: u!json_get
=== Plan
Root[result]
  Read[data => x:i64]"# = true := by decide +kernel

/-- L790 `test_signature_on_type_declaration_rejected` -/
example : rejected {} cs! r#"=== Extensions
URNs:
  @  1: https://example.com/types
Types:
  # 10 @  1: mytype:i64_i64
=== Plan
Root[result]
  Read[data => x:i64]"# = true := by decide +kernel

/-- L808 `test_u_prefix_function_rejected_at_parser_level`; the error is that of the parser, not of the
insertion. -/
example : (match ExtState.decl ⟨.decls .function, (addUrn empty cs!"https://example.com/funcs" 1).1⟩ .function
      cs!"# 21 @  1: u!bad_func" with
  | .err e => decide (e = .name)
  | _ => false) = true ∧ rejected {} cs! r#"=== Extensions
URNs:
  @  1: https://example.com/funcs
Functions:
  # 21 @  1: u!bad_func
=== Plan
Root[result]
  Read[data => x:i64]"# = true := by decide +kernel

/-- The text of L830 `test_extensions_round_trip_plan_with_compound_names` -/
def compoundNames : Str := cs! r#"=== Extensions
URNs:
  @  1: extension:io.substrait:functions_string
  @  2: extension:io.substrait:functions_comparison
Functions:
  #  1 @  2: equal:any_any
  #  2 @  1: regexp_match_substring:str_str
  #  3 @  1: regexp_match_substring:str_str_i64
"#

/-- L830 `test_extensions_round_trip_plan_with_compound_names` -/
example : ((declarations compoundNames).bind fun d => (loaded d.1 d.2).map fun s =>
      ((found (findByAnchor s .function 1)).map (·.2), (found (findByAnchor s .function 3)).map (·.2),
        writeExts s cs!"  "))
    = some (some cs!"equal:any_any", some cs!"regexp_match_substring:str_str_i64", compoundNames) := by
  decide +kernel

/-- L866 `test_tuple_mixed_types_parses` -/
example : (match value cs!"(&HASH, 8, 'hello')" with
  | some (.tuple [.enum a, .integer b, .string c]) =>
    decide (a = cs!"HASH") && decide (b = 8) && decide (c = cs!"hello")
  | _ => false) = true := by decide +kernel
/-- L880 `test_empty_tuple_parses` -/
example : (match value cs!"()" with
  | some (.tuple []) => true
  | _ => false) = true := by decide +kernel
/-- L889 `test_nested_tuple_parses` -/
example : (match value cs!"((&HASH, &RANGE), 8)" with
  | some (.tuple [.tuple [.enum a, .enum _], .integer b]) => decide (a = cs!"HASH") && decide (b = 8)
  | _ => false) = true := by decide +kernel
/-- L904 `test_tuple_in_addendum_parses` -/
example : (match complete (pAddendum cs!"+ Enh:Foo[(&HASH, &RANGE), count=8]") with
  | some a => match convAddenda empty [a] with
    | .ok [⟨.enh, n, ⟨[.tuple [.enum b, .enum c]], named, []⟩⟩] =>
      decide (n = cs!"Foo") && decide (b = cs!"HASH") && decide (c = cs!"RANGE") && named.length == 1
    | _ => false
  | _ => false) = true := by decide +kernel

/-- L924 `extension_relation_kind_parses_text_prefixes` -/
example : complete (pExtKind cs!"ExtensionLeaf") = some ExtKind.leaf
    ∧ complete (pExtKind cs!"ExtensionSingle") = some ExtKind.single
    ∧ complete (pExtKind cs!"ExtensionMulti") = some ExtKind.multi := by decide +kernel
/-- L940 `extension_multi_allows_any_child_count` -/
example : [0, 1, 3].all (ExtKind.arityOk .multi) = true := by decide +kernel
/-- L947 `extension_single_rejects_wrong_child_counts` -/
example : [0, 2].any (ExtKind.arityOk .single) = false := by decide +kernel

/-- L961 `test_tuple_textify_roundtrip` -/
example : ([cs!"(&HASH, &RANGE)", cs!"(&HASH, 8, 'hello')", cs!"()", cs!"(&HASH,)", cs!"((&HASH, &RANGE), 8)"].all
    fun t => (value t).bind (valueText .default) == some t) = true := by decide +kernel

/-- L977 `test_literal_expression_value_textifies_to_canonical_literal` -/
example : valueText .default (.expr (.literal ⟨some (.int .i64 42), false, 0⟩)) = some cs!"42"
    ∧ (value cs!"42").bind ExtValue.asExpr = some (.literal ⟨some (.int .i64 42), false, 0⟩) := by
  decide +kernel
/-- L997 `test_extension_parameter_literals_stay_scalar_in_verbose_output` -/
example : valueText .verbose (.integer 42) = some cs!"42"
    ∧ valueText .verbose (.expr (litExpr (.int .i64 42))) = some cs!"42:i64" := by decide +kernel
/-- L1008 `test_untyped_null_extension_literal_roundtrips` -/
example : (match value cs!"null" with
    | some .null => true
    | _ => false) = true ∧ valueText .default .null = some cs!"null" := by decide +kernel
/-- L1015 `test_typed_extension_literal_parses_as_expression` -/
example : (value cs!"null:i64?").bind ExtValue.asInt = none
    ∧ ((value cs!"null:i64?").bind ExtValue.asExpr).bind (fun e => valueText .default (.expr e))
      = some cs!"null:i64?" := by decide +kernel

end Verif.Conformance
