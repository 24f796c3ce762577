import Verif.Conformance.ExprTextTests
/-!
# The unit tests of src/textify/types.rs, on the model
-/

namespace Verif.Conformance

open Store

set_option autoImplicit false


/-- `with_urn`, `with_function`, `with_type`, `with_type_variation` of src/fixtures.rs -/
def urn! (a : Nat) (u : Str) (st : Store := empty) : Store := (st.addUrn u a).1
def decl! (k : Kind) (u a : Nat) (n : Str) (st : Store) : Store := (st.addExt k u a n).1

def always : Opts := { Opts.default with anchors := .always }
def opt! (k : SimpleKind) : Ty := .simple k .nullable 0

/-- L708 `type_display` -/
example :
    let st := decl! .typeVariation 1 2 cs!"u8" (urn! 1 cs!"first")
    textTy st .default (.simple .boolean .nullable 2) = .s cs!"boolean?[u8]" ∧
    textTy st .default (.simple .i8 .required 0) = .s cs!"i8" ∧
    textTy st .default (.prec .timestamp 3 .nullable 0) = .s cs!"precisiontimestamp?<3>" ∧
    textTy (decl! .typeVariation 1 8 cs!"int" st) always (.prec .time 9 .nullable 8) =
      .s cs!"precisiontime?[int#8]<9>" := by decide +kernel
/-- L754 `type_display_with_errors` -/
example :
    let st := decl! .type 1 100 cs!"cow" (urn! 1 cs!"first")
    textTy st .default (.simple .boolean .nullable 200) =
      ⟨cs!"boolean?[!{type_variation}#200]", [cs!"type_variation"]⟩ ∧
    textTy st .default (.user 100 [] .required 0) = .s cs!"cow" ∧
    textTy st .default (.user 12589 [] .required 0) = ⟨cs!"!{type}#12589", [cs!"type"]⟩ := by decide +kernel
/-- L810 `struct_display` -/
example : textTy empty .default (.struct [string, .simple .i8 .required 0, opt! .i32,
    .simple .timestampTz .required 0] .nullable 0) = .s cs!"struct?<string, i8, i32?, timestamp_tz>" := by
  decide +kernel
/-- L852 `names_display` -/
example : showName cs!"name" = cs!"name" ∧ showName cs!"name with spaces" = cs!"\"name with spaces\"" := by
  decide +kernel

/-- L958 `overloaded_ctx` -/
def comparisons : Store :=
  decl! .function 1 3 cs!"add:i64_i64" (decl! .function 1 2 cs!"equal:str_str"
    (decl! .function 1 1 cs!"equal:any_any" (urn! 1 cs!"substrait:functions_comparison")))

/-- L967 `named_anchor_compact_unique_base_name_no_signature` -/
example : NamedAnchor.lookup comparisons .function 3 = some ⟨cs!"add:i64_i64", 3, true, true⟩ ∧
    textAnchor comparisons .default .function 3 = .s cs!"add" := by decide +kernel
/-- L982 `named_anchor_compact_overloaded_shows_signature` -/
example : NamedAnchor.lookup comparisons .function 1 = some ⟨cs!"equal:any_any", 1, true, false⟩ ∧
    textAnchor comparisons .default .function 1 = .s cs!"equal:any_any" := by decide +kernel
/-- L1001 `named_anchor_verbose_unique_base_name_shows_signature_and_anchor` -/
example : textAnchor comparisons always .function 3 = .s cs!"add:i64_i64#3" := by decide +kernel
/-- L1014 `named_anchor_verbose_overloaded_shows_signature_and_anchor` -/
example : textAnchor comparisons always .function 2 = .s cs!"equal:str_str#2" := by decide +kernel
/-- L1027 `named_anchor_compact_same_compound_name_two_urns_shows_anchor` -/
example :
    let st := decl! .function 2 2 cs!"equal:any_any" (decl! .function 1 1 cs!"equal:any_any"
      (urn! 2 cs!"urn_b" (urn! 1 cs!"urn_a")))
    NamedAnchor.lookup st .function 1 = some ⟨cs!"equal:any_any", 1, false, false⟩ ∧
    textAnchor st .default .function 1 = .s cs!"equal:any_any#1" := by decide +kernel
/-- L1047 `named_anchor_compact_unique_full_name_zero_arg_type_signature` -/
example :
    let st := decl! .function 1 5 cs!"count:" (urn! 1 cs!"urn")
    NamedAnchor.lookup st .function 5 = some ⟨cs!"count:", 5, true, true⟩ ∧
    textAnchor st .default .function 5 = .s cs!"count" := by decide +kernel
/-- L1067 `named_anchor_verbose_full_name_shows_signature_and_anchor` -/
example : textAnchor (decl! .function 1 5 cs!"count:" (urn! 1 cs!"urn")) always .function 5 =
    .s cs!"count:#5" := by decide +kernel
/-- L1083 `named_anchor_compact_plain_name_unique_no_signature_no_anchor` -/
example :
    let st := decl! .function 1 10 cs!"coalesce" (urn! 1 cs!"urn")
    NamedAnchor.lookup st .function 10 = some ⟨cs!"coalesce", 10, true, true⟩ ∧
    textAnchor st .default .function 10 = .s cs!"coalesce" := by decide +kernel
/-- L1099 `u_prefix_type_textifies_without_prefix` -/
example : textTy (decl! .type 1 5 cs!"u!json" (urn! 1 cs!"urn:example:types")) .default
    (.user 5 [] .required 0) = .s cs!"json" := by decide +kernel
/-- L1118 `u_prefix_type_nullable_textifies_without_prefix` -/
example : textTy (decl! .type 1 7 cs!"u!geo_point" (urn! 1 cs!"urn:example:types")) .default
    (.user 7 [] .nullable 0) = .s cs!"geo_point?" := by decide +kernel
/-- L1135 `named_anchor_compact_plain_name_non_unique_shows_anchor` -/
example :
    let st := decl! .function 2 232 cs!"duplicated" (decl! .function 1 231 cs!"duplicated"
      (urn! 2 cs!"urn2" (urn! 1 cs!"urn1")))
    NamedAnchor.lookup st .function 231 = some ⟨cs!"duplicated", 231, false, false⟩ ∧
    textAnchor st .default .function 231 = .s cs!"duplicated#231" := by decide +kernel

end Verif.Conformance
