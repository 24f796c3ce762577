import Verif.Conformance.DeclTests
import Verif.Conformance.RelTests
/-!
# The unit tests of src/parser/structural.rs, on the model
-/

namespace Verif.Conformance

open Store

set_option autoImplicit false

/-- `ExtensionParser`: the state after the lines, each taken with its indentation. -/
def afterLines (lines : List Str) : Option ExtState :=
  lines.foldl (fun st l => st.bind fun st => match st.line (indentedLine l) with
    | .ok st => some st
    | _ => none) (some ExtState.init)

/-- The block of L1247 `test_parse_basic_block` -/
def basicBlock : List Str :=
  [cs!"URNs:", cs!"  @  1: /urn/common", cs!"  @  2: /urn/specific_funcs", cs!"Functions:",
    cs!"  # 10 @  1: func_a", cs!"  # 11 @  2: func_b_special", cs!"Types:",
    cs!"  # 20 @  1: SomeType", cs!"Type Variations:", cs!"  # 30 @  2: VarX"]

def lines (l : List Str) : Str := l.flatMap (· ++ cs!"\n")

/-- L1247 `test_parse_basic_block` -/
example : afterLines basicBlock = some ⟨.decls .typeVariation, declared.1⟩
    ∧ writeExts declared.1 cs!"  " = lines (cs!"=== Extensions" :: basicBlock)
    ∧ (afterLines (basicBlock ++ [[]])).map (·.expect) = some .extensions := by decide +kernel

/-- The block of L1313 `test_parse_complete_extension_block` -/
def completeBlock : List Str :=
  [cs!"URNs:", cs!"  @  1: /urn/common", cs!"  @  2: /urn/specific_funcs", cs!"  @  3: /urn/types_lib",
    cs!"  @  4: /urn/variations_lib", cs!"Functions:", cs!"  # 10 @  1: func_a",
    cs!"  # 11 @  2: func_b_special", cs!"  # 12 @  1: func_c_common", cs!"Types:",
    cs!"  # 20 @  1: CommonType", cs!"  # 21 @  3: LibraryType", cs!"  # 22 @  1: AnotherCommonType",
    cs!"Type Variations:", cs!"  # 30 @  4: VarX", cs!"  # 31 @  4: VarY"]

/-- L1313 `test_parse_complete_extension_block` -/
example : (afterLines completeBlock).map (fun st => writeExts st.store cs!"  ")
    = some (lines (cs!"=== Extensions" :: completeBlock)) := by decide +kernel

/-- L1352 `test_parse_relation_tree` -/
example : (match read {} cs! r#"=== Plan
Project[$0, $1, 42, 84]
  Filter[$2 => $0, $1]
    Read[my.table => a:i32, b:string?, c:boolean]
"# with
  | .ok ⟨_, _, _, .rel (.node (.project ..) [some (.node (.filter ..) [some (.node (.read ..) [])])]) :: _⟩ =>
    true
  | _ => false) = true := by decide +kernel

/-- L1404 `test_parse_root_relation` -/
example : (match read {} cs! r#"=== Plan
Root[result]
  Project[$0, $1]
    Read[my.table => a:i32, b:string?]
"# with
  | .ok ⟨_, _, _, [.root names (some (.node (.project ..) [some (.node (.read ..) [])]))]⟩ =>
    decide (names = [cs!"result"])
  | _ => false) = true := by decide +kernel

/-- L1454 `test_parse_root_relation_no_names` -/
example : (match read {} cs! r#"=== Plan
Root[]
  Project[$0, $1]
    Read[my.table => a:i32, b:string?]
"# with
  | .ok ⟨_, _, _, .root [] _ :: _⟩ => true
  | _ => false) = true := by decide +kernel

/-- L1479 `test_parse_full_plan` -/
example : (match read {} cs! r#"
=== Extensions
URNs:
  @  1: /urn/common
  @  2: /urn/specific_funcs
Functions:
  # 10 @  1: func_a
  # 11 @  2: func_b_special
Types:
  # 20 @  1: SomeType
Type Variations:
  # 30 @  2: VarX

=== Plan
Project[$0, $1, 42, 84]
  Filter[$2 => $0, $1]
    Read[my.table => a:i32, b:string?, c:boolean]
"# with
  | .ok ⟨_, urns, decls,
      [.rel (.node (.project _ exprs _) [some (.node (.filter ..)
        [some (.node (.read _ (some ⟨names, some ty⟩) _ _ _ _) [])])])]⟩ =>
    decide (urns = [(1, cs!"/urn/common"), (2, cs!"/urn/specific_funcs")]) &&
      decide (decls = [fn! 10 1 cs!"func_a", fn! 11 2 cs!"func_b_special", type! 20 1 cs!"SomeType",
        variation! 30 2 cs!"VarX"]) &&
      exprs.length == 2 && decide (names = [cs!"a", cs!"b", cs!"c"]) && ty.types.length == 3
  | _ => false) = true := by decide +kernel

/-- The error says that a section is out of order. -/
def outOfOrder (s : Str) : Bool :=
  match read {} s with
  | .err (.text .sectionOrder) => true
  | _ => false

/-- L1603 `test_section_headers_out_of_order_rejected` -/
example : outOfOrder cs! r#"
=== Plan
Root[result]
  Read[t => a:i32]

=== Extensions
URNs:
  @  1: /urn/common
"# = true := by decide +kernel

/-- L1622 `test_repeated_section_header_rejected` -/
example : outOfOrder cs! r#"
=== Extensions
URNs:
  @  1: /urn/common

=== Extensions
URNs:
  @  2: /urn/other

=== Plan
Root[result]
  Read[t => a:i32]
"# = true := by decide +kernel

/-- L1645 `test_version_after_plan_rejected` -/
example : outOfOrder cs! r#"
=== Plan
Root[result]
  Read[t => a:i32]

=== Version 1.0.0
"# = true := by decide +kernel

/-- L1664 `test_all_sections_in_order_accepted` -/
example : (match read {} cs! r#"
=== Version 1.2.3
=== Extensions
URNs:
  @  1: /urn/common

=== Plan
Root[result]
  Read[t => a:i32]
"# with
  | .ok p => p.rels.length == 1 && p.version.isSome
  | _ => false) = true := by decide +kernel

end Verif.Conformance
