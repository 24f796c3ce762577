import Verif.Conformance.ExprTests
import Verif.Model.ExtSection
/-!
# The unit tests of src/extensions/simple.rs, on the model
-/

namespace Verif.Conformance

open Store

set_option autoImplicit false
set_option synthInstance.maxSize 1000

/-- L608-637 `new_ext_fn`, `new_ext_type`, `new_type_var`. -/
def fn! (anchor urn : Nat) (name : Str) : Decl := some (.function, urn, anchor, name)
def type! (anchor urn : Nat) (name : Str) : Decl := some (.type, urn, anchor, name)
def variation! (anchor urn : Nat) (name : Str) : Decl := some (.typeVariation, urn, anchor, name)

/-- L647-654 `unwrap_new_extensions`: the declarations, when they load without errors. -/
def loaded (urns : List (Nat × Str)) (decls : List Decl) : Option Store :=
  match fromExtensions urns decls with
  | (s, []) => some s
  | _ => none

/-- The value of a lookup, when it succeeds. -/
def found {ε α : Type} : Except ε α → Option α
  | .ok a => some a
  | .error _ => none

/-- The error of a lookup, when it fails. -/
def missing {ε α : Type} : Except ε α → Option ε
  | .ok _ => none
  | .error e => some e

/-- L657 `test_extension_lookup_empty` -/
example : found (findUrn empty 1) = none
    ∧ (∀ k ∈ [Kind.function, .type, .typeVariation],
        found (findByAnchor empty k 1) = none ∧ found (findByName empty k cs!"any") = none) := by
  decide +kernel

/-- L677 `test_from_extensions_basic` -/
example : (loaded [(1, cs!"urn1"), (2, cs!"urn2")]
      [fn! 10 1 cs!"func1", type! 20 1 cs!"type1", variation! 30 2 cs!"var1"]).map (fun s =>
        ([1, 2, 3].map fun a => found (findUrn s a),
         [10, 11].map fun a => found (findByAnchor s .function a),
         [20, 21].map fun a => found (findByAnchor s .type a),
         [30, 31].map fun a => found (findByAnchor s .typeVariation a)))
    = some ([some cs!"urn1", some cs!"urn2", none], [some (1, cs!"func1"), none],
        [some (1, cs!"type1"), none], [some (2, cs!"var1"), none]) := by decide +kernel

/-- L712 `test_from_extensions_duplicates` -/
example :
    let r := fromExtensions [(1, cs!"urn_old"), (1, cs!"urn_new"), (2, cs!"second")]
      [fn! 10 1 cs!"func_old", fn! 10 2 cs!"func_new", fn! 11 3 cs!"func_missing"]
    r.2 = [.duplicateUrnAnchor 1 cs!"urn_old" cs!"urn_new",
        .duplicateAnchor .function 10 cs!"func_old" cs!"func_new",
        .missingUrn .function 11 cs!"func_missing" 3]
    ∧ found (findUrn r.1 1) = some cs!"urn_old"
    ∧ found (findByAnchor r.1 .function 10) = some (1, cs!"func_old") := by decide +kernel

/-- L755 `test_from_extensions_invalid_mapping_type` -/
example : (fromExtensions [] [none]).2 = [.missingMappingType] := by decide +kernel

/-- L765 `test_find_by_name` -/
example : (loaded [(1, cs!"urn1")]
      [fn! 10 1 cs!"name1", fn! 11 1 cs!"name2", fn! 12 1 cs!"name1", type! 20 1 cs!"type_name1",
        variation! 30 1 cs!"var_name1"]).map (fun s =>
        (missing (findByName s .function cs!"name1"), found (findByName s .function cs!"name2"),
         found (findByName s .type cs!"type_name1"),
         missing (findByName s .type cs!"non_existent_type_name"),
         found (findByName s .typeVariation cs!"var_name1"),
         missing (findByName s .typeVariation cs!"non_existent_var_name")))
    = some (some (.duplicateName .function cs!"name1"), some 11, some 20,
        some (.missingName .type cs!"non_existent_type_name"), some 30,
        some (.missingName .typeVariation cs!"non_existent_var_name")) := by decide +kernel

/-- L821 `test_display_extension_lookup_empty` -/
example : writeExts empty cs!"  " = [] := by decide +kernel

/-- L830 `test_display_extension_lookup_with_content` -/
example : (loaded [(1, cs!"/my/urn1"), (42, cs!"/another/urn"), (4091, cs!"/big/anchor")]
      [fn! 10 1 cs!"my_func", type! 20 1 cs!"my_type", variation! 30 42 cs!"my_var",
        fn! 11 42 cs!"another_func", fn! 108812 4091 cs!"big_func"]).map (writeExts · cs!"  ")
    = some cs! r#"=== Extensions
URNs:
  @  1: /my/urn1
  @ 42: /another/urn
  @4091: /big/anchor
Functions:
  # 10 @  1: my_func
  # 11 @ 42: another_func
  #108812 @4091: big_func
Types:
  # 20 @  1: my_type
Type Variations:
  # 30 @ 42: my_var
"# := by decide +kernel

/-- The declarations that two of the tests make one at a time, in this file at L0
`test_extensions_output` and in src/parser/structural.rs. -/
def declared : Store × List (Option InsertError) :=
  let s := addUrn empty cs!"/urn/common" 1
  let t := addUrn s.1 cs!"/urn/specific_funcs" 2
  let u := addExt t.1 .function 1 10 cs!"func_a"
  let v := addExt u.1 .function 2 11 cs!"func_b_special"
  let w := addExt v.1 .type 1 20 cs!"SomeType"
  let x := addExt w.1 .typeVariation 2 30 cs!"VarX"
  (x.1, [s.2, t.2, u.2, v.2, w.2, x.2])

/-- L865 `test_extensions_output` -/
example : declared.2.all (·.isNone) = true ∧ writeExts declared.1 cs!"  " = cs! r#"=== Extensions
URNs:
  @  1: /urn/common
  @  2: /urn/specific_funcs
Functions:
  # 10 @  1: func_a
  # 11 @  2: func_b_special
Types:
  # 20 @  1: SomeType
Type Variations:
  # 30 @  2: VarX
"# := by decide +kernel

/-- L909 `test_compound_name_full_zero_arg_type_signature` -/
example : baseName cs!"add:" = cs!"add" ∧ nameMatches cs!"add:" cs!"add:" = true
    ∧ nameMatches cs!"add:" cs!"add:i64_i64" = false
    ∧ nameMatches cs!"add:" cs!"add" = true := by decide +kernel

/-- L922 `test_compound_name_with_signature` -/
example : baseName cs!"equal:any_any" = cs!"equal"
    ∧ baseName cs!"regexp_match_substring:str_str_i64" = cs!"regexp_match_substring"
    ∧ baseName cs!"add:i64_i64" = cs!"add" := by decide +kernel

/-- The two flags and the name of a function. -/
def flags (s : Store) (anchor : Nat) : Option (Str × Bool × Bool) :=
  (found (lookupFunction s anchor)).map fun r => (r.name, r.baseNameUnique, r.nameUnique)

/-- L948 `test_lookup_function_uniqueness_flags` -/
example : (loaded [(1, cs!"urn:comparison")]
      [fn! 1 1 cs!"equal:any_any", fn! 2 1 cs!"equal:str_str", fn! 3 1 cs!"add:i64_i64"]).map
        (fun s => [1, 2, 3].map (flags s))
    = some [some (cs!"equal:any_any", false, true), some (cs!"equal:str_str", false, true),
        some (cs!"add:i64_i64", true, true)] := by decide +kernel

/-- L971 `test_lookup_function_missing_anchor` -/
example : found (lookupFunction empty 99) = none := by decide +kernel

/-- L977 `test_lookup_function_plain_name_overloaded_across_urns` -/
example : (loaded [(1, cs!"urn1"), (2, cs!"urn2")]
      [fn! 1 1 cs!"duplicated", fn! 2 2 cs!"duplicated"]).map (flags · 1)
    = some (some (cs!"duplicated", false, false)) := by decide +kernel

/-- L992 `test_lookup_function_different_base_names_each_unique` -/
example : (loaded [(1, cs!"urn1")]
      [fn! 1 1 cs!"equal:any_any", fn! 2 1 cs!"like:str_str"]).map
        (fun s => [1, 2].map fun a => (flags s a).map (·.2.1))
    = some [some true, some true] := by decide +kernel

/-- L1007-1016 `make_resolve_extensions`. -/
def resolvable : Option Store :=
  loaded [(1, cs!"test_urn")]
    [fn! 1 1 cs!"equal:any_any", fn! 2 1 cs!"equal:str_str", fn! 3 1 cs!"add:i64_i64",
      fn! 4 1 cs!"add:"]

/-- The anchors that the names resolve to. -/
def resolves (s : Option Store) (names : List (Str × Option Nat)) : Option (List (Option Nat)) :=
  s.map fun s => names.map fun n => (found (resolveFunction s n.1 n.2)).map (·.anchor)

/-- L1019 `test_resolve_function_with_anchor` -/
example : resolves resolvable [(cs!"equal:any_any", some 1), (cs!"add", some 3), (cs!"add", some 4),
      (cs!"add:", some 3), (cs!"add", some 1), (cs!"equal:any_any", some 2)]
    = some [some 1, some 3, some 4, none, none, none] := by decide +kernel

/-- L1046 `test_resolve_function_without_anchor` -/
example : resolves resolvable [(cs!"equal:any_any", none), (cs!"equal:str_str", none)]
    = some [some 1, some 2] := by decide +kernel

/-- L1061 `test_resolve_function_without_anchor_full_sig` -/
example : resolves resolvable [(cs!"add:", none), (cs!"add:i64_i64", none), (cs!"equal:", none)]
    = some [some 4, some 3, none] := by decide +kernel

/-- L1076 `test_resolve_function_without_anchor_no_sig` -/
example : resolves resolvable [(cs!"add", none), (cs!"equal", none)]
    = some [none, none] := by decide +kernel

/-- L1086 `test_resolve_function_plain_stored_name` -/
example : resolves (loaded [(1, cs!"urn")] [fn! 10 1 cs!"coalesce"]) [(cs!"coalesce", none)]
    = some [some 10] := by decide +kernel

/-- L1095 `test_resolve_function_not_found` -/
example : resolves (some empty) [(cs!"nonexistent", none)] = some [none] := by decide +kernel

/-- L1101 `test_compound_name_roundtrip_in_extensions_section` -/
example : (loaded [(1, cs!"substrait:functions_comparison")]
      [fn! 1 1 cs!"equal:any_any", fn! 2 1 cs!"equal:str_str"]).map (fun s =>
        (contains (writeExts s cs!"  ") cs!"equal:any_any",
         contains (writeExts s cs!"  ") cs!"equal:str_str"))
    = some (true, true) := by decide +kernel

/-- L1123 `test_insert_error_invalid_name_type_variation` -/
example : (addExt (addUrn empty cs!"urn:example" 1).1 .typeVariation 1 30 cs!"u!myvar").2
    = some (.invalidName .typeVariation cs!"u!myvar") := by decide +kernel

end Verif.Conformance
