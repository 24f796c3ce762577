import Verif.Conformance.DeclTests
import Verif.Model.Cli
/-!
# The unit tests of src/extensions/args.rs, examples.rs and registry.rs, src/textify/values.rs and
extensions.rs, src/precision.rs, and the ones of src/cli.rs about formats, on the model

Errors are compared by class, not by message.  `vector_encodes_as_tuple` and
`error_value_reports_expected_type_and_source_when_extracted` (args.rs) are about conversions that the
model does not have.  The tests of src/cli.rs that run a command on a plan go through JSON, YAML or
protobuf or repeat what the tests of plans say; `Props/Cli.lean` proves those commands correct for any
codec.
-/

namespace Verif.Conformance

open Store

set_option autoImplicit false
set_option synthInstance.maxSize 1000

/-! ## src/extensions/args.rs -/

/-- A handler that asks for one value. -/
def ask {β : Type} (n : Str) (f : ExtValue → Option β) : Reader ExtValue (Option β) :=
  Reader.getNamed n f fun b => .done (.ok b)

/-- A handler that asks for a tuple. -/
def askTuple {β : Type} (n : Str) (f : ExtValue → Option β) : Reader ExtValue (Option (List β)) :=
  Reader.getNamedTuple n f fun b => .done (.ok b)

/-- Whether `finish` is content after the handler has looked at the arguments. -/
def finishes {α : Type} (a : ArgSet ExtValue) (r : Reader ExtValue α) : Bool :=
  (found (finish a (r.run a {}).2)).isSome

/-- L774 `get_named_converts_present_values_and_returns_none_for_missing_values` -/
example :
    let a : ArgSet ExtValue := ⟨[], [(cs!"count", .integer 8)]⟩
    found ((ask cs!"count" ExtValue.asInt).run a {}).1 = some (some 8)
      ∧ found ((ask cs!"missing" ExtValue.asInt).run a {}).1 = some none
      ∧ finishes a (ask cs!"count" ExtValue.asInt) = true := by decide +kernel

/-- L785 `get_named_contextualizes_conversion_errors` -/
example :
    let a : ArgSet ExtValue := ⟨[], [(cs!"count", .null)]⟩
    missing ((ask cs!"count" ExtValue.asInt).run a {}).1 = some (.conversion cs!"count")
      ∧ finishes a (ask cs!"count" ExtValue.asInt) = true := by decide +kernel

/-- L802 `get_named_tuple_converts_present_values_and_returns_none_for_missing_values` -/
example :
    let a : ArgSet ExtValue := ⟨[], [(cs!"names", .tuple [.string cs!"first", .string cs!"second"])]⟩
    found ((askTuple cs!"missing" ExtValue.asStr).run a {}).1 = some none
      ∧ found ((askTuple cs!"names" ExtValue.asStr).run a {}).1 = some (some [cs!"first", cs!"second"])
      ∧ finishes a (askTuple cs!"names" ExtValue.asStr) = true := by decide +kernel

/-- L819 `get_named_tuple_contextualizes_invalid_outer_value` -/
example :
    let a : ArgSet ExtValue := ⟨[], [(cs!"names", .string cs!"not a tuple")]⟩
    missing ((askTuple cs!"names" ExtValue.asStr).run a {}).1 = some (.conversion cs!"names")
      ∧ finishes a (askTuple cs!"names" ExtValue.asStr) = true := by decide +kernel

/-- L838 `get_named_tuple_contextualizes_invalid_element` -/
example :
    let a : ArgSet ExtValue := ⟨[], [(cs!"names", .tuple [.string cs!"first", .integer 2])]⟩
    missing ((askTuple cs!"names" ExtValue.asStr).run a {}).1 = some (.conversion cs!"names")
      ∧ finishes a (askTuple cs!"names" ExtValue.asStr) = true := by decide +kernel

/-- L892 `expect_named_reports_missing_argument_name` -/
example :
    let a : ArgSet ExtValue := {}
    let r : Reader ExtValue Int := Reader.expectNamed cs!"count" ExtValue.asInt fun i => .done (.ok i)
    missing (r.run a {}).1 = some (.missing cs!"count") ∧ finishes a r = true := by decide +kernel

/-! ## src/extensions/examples.rs -/

/-- L370 `round_trip_via_any` -/
example : found (partitionHint.fromAny sampleCodec1 (partitionHint.toAny sampleCodec1 ⟨[1, 2], 4⟩))
    = some ⟨[1, 2], 4⟩ := by decide +kernel

/-- L378 `to_args_produces_enum_and_named` -/
example : (match partitionHint.toArgs ⟨[Strategy.hash.num], 8⟩ [] with
  | .ok ⟨[.enum s], named, _⟩ =>
    decide (s = cs!"HASH") && ((getKey named cs!"count").bind ExtValue.asInt == some 8)
  | _ => false) = true := by decide +kernel

/-- L388 `to_args_omits_zero_count` -/
example : (match partitionHint.toArgs ⟨[Strategy.broadcast.num], 0⟩ [] with
  | .ok ⟨_, [], _⟩ => true
  | _ => false) = true := by decide +kernel

/-- The value that the arguments of a value are read as. -/
def again {T : Type} (x : Explain T) (t : T) : Option T :=
  (found (x.toArgs t [])).bind fun a => found (x.parse a)

/-- L395 `from_args_round_trip` -/
example : again partitionHint ⟨[Strategy.hash.num, Strategy.range.num], 16⟩
    = some ⟨[Strategy.hash.num, Strategy.range.num], 16⟩ := by decide +kernel

/-- L403 `from_args_rejects_unknown_strategy` -/
example : (found (partitionHint.parse { positional := [.enum cs!"BOGUS"] })).isNone = true := by
  decide +kernel
/-- L411 `from_args_rejects_non_enum_positional` -/
example : (found (partitionHint.parse { positional := [.integer 1] })).isNone = true := by
  decide +kernel
/-- L423 `from_args_rejects_extra_named_args` -/
example : (found (partitionHint.parse { named := [(cs!"unknown_key", .integer 99)] })).isNone = true := by
  decide +kernel
/-- L434 `from_args_empty_strategies_roundtrip` -/
example : again partitionHint ⟨[], 0⟩ = some ⟨[], 0⟩ := by decide +kernel

/-- A value through the registry: decoded, and the arguments parsed again. -/
def through {T : Type} (r : Reg) (ns : Ns) (x : Explain T) (c : MsgCodec T) (t : T) :
    Option (Str × Option T) :=
  (found (r.decode ns (x.toAny c t) [])).map fun p =>
    (p.1, (found (r.parse ns x.name p.2)).bind fun d => found (x.fromAny c d))

/-- L444 `registry_roundtrip` -/
example : through examples .enhancement partitionHint sampleCodec1 ⟨[Strategy.hash.num], 4⟩
    = some (cs!"PartitionHint", some ⟨[Strategy.hash.num], 4⟩) := by decide +kernel
/-- L464 `plan_hint_args_round_trip` -/
example : again planHint ⟨cs!"use_index"⟩ = some ⟨cs!"use_index"⟩ := by decide +kernel
/-- L474 `plan_hint_registry_roundtrip` -/
example : through examples .optimization planHint sampleCodec2 ⟨cs!"parallel"⟩
    = some (cs!"PlanHint", some ⟨cs!"parallel"⟩) := by decide +kernel
/-- L495 `blob_store_read_args_round_trip` -/
example : again blobStoreRead ⟨cs!"path/to/file", 100, true⟩
    = some ⟨cs!"path/to/file", 100, true⟩ := by decide +kernel
/-- L509 `blob_store_read_registry_roundtrip` -/
example : through examples .extensionTable blobStoreRead sampleCodec3 ⟨cs!"path/to/file", 100, true⟩
    = some (cs!"BlobStoreRead", some ⟨cs!"path/to/file", 100, true⟩) := by decide +kernel

/-! ## src/extensions/registry.rs -/

/-- `TestExtension`: every payload is decoded as the same value (`from_any` of the test). -/
def testExtension : Ext ExtArgs (List Nat) where
  name := cs!"TestExtension"
  url := cs!"test.TestExtension"
  handler :=
    { parse := fun a =>
        match parseArgs ⟨a.positional, a.named⟩
          (Reader.expectNamed cs!"path" ExtValue.asStr fun p =>
            Reader.expectNamed cs!"batch_size" ExtValue.asInt fun b => .done (.ok (p, b))) with
        | .error e => .error e
        | .ok _ => .ok ⟨cs!"test.TestExtension", [1]⟩
      textify := fun _ ws => .ok
        { named := [(cs!"path", .string cs!"test.parquet"), (cs!"batch_size", .integer 1024)] ++
            (if ws = [] then [] else [(cs!"input_count", .integer ws.length)]) } }

/-- `TestEnhancement`. -/
def testEnhancement : Ext ExtArgs (List Nat) where
  name := cs!"TestEnhancement"
  url := cs!"test.TestExtension"
  handler :=
    { parse := fun a =>
        match parseArgs ⟨a.positional, a.named⟩
          (Reader.expectNamed cs!"hint" ExtValue.asStr fun h => .done (.ok h)) with
        | .error e => .error e
        | .ok _ => .ok ⟨cs!"test.TestExtension", [2]⟩
      textify := fun _ _ => .ok { named := [(cs!"hint", .string cs!"test_hint")] } }

/-- `ConflictingExtension`. -/
def conflicting : Ext ExtArgs (List Nat) where
  name := cs!"ConflictingExtension"
  url := cs!"test.TestExtension"
  handler := { parse := fun _ => .ok ⟨cs!"test.TestExtension", []⟩, textify := fun _ _ => .ok {} }

/-- The arguments that the tests use. -/
def dataArgs : ExtArgs :=
  { named := [(cs!"path", .string cs!"data.parquet"), (cs!"batch_size", .integer 2048)] }

/-- Registered, parsed and decoded: the URL of the payload, the name, the path, and whether there is a
count of inputs. -/
def usual (r : Reg) (ns : Ns) (ws : List Nat) : Option (Str × Str × Option Str × Option Int) :=
  (found (r.parse ns cs!"TestExtension" dataArgs)).bind fun d =>
    (found (r.decode ns d ws)).map fun p =>
      (d.typeUrl, p.1, (getKey p.2.named cs!"path").bind ExtValue.asStr,
        (getKey p.2.named cs!"input_count").bind ExtValue.asInt)

/-- L812 `test_extension_registry_basic` -/
example :
    let r : Reg := plus {} .relation testExtension
    Registry.has ({} : Reg) .relation cs!"TestExtension" = false
      ∧ r.has .relation cs!"TestExtension" = true
      ∧ usual r .relation [] = some (cs!"test.TestExtension", cs!"TestExtension", some cs!"test.parquet", none) := by
  decide +kernel

/-- `extension_names` in the same test. -/
example : Registry.names ({} : Reg) .relation = [] ∧ Registry.names ({} : Reg) .extensionTable = []
    ∧ Registry.names (plus {} .relation testExtension) .relation = [cs!"TestExtension"] := by
  refine ⟨?_, ?_, ?_⟩ <;>
    simp [Registry.names, plus, Registry.register, hGet, hInsert, testExtension, dedup]

/-- L851 `test_extension_registry_decode_with_context` -/
example : (usual (plus {} .relation testExtension) .relation [4]).bind (·.2.2.2) = some 1 := by
  decide +kernel

/-- L872 `argument_error_takes_precedence_over_unhandled_arguments` -/
example : missing ((plus {} .relation testExtension).parse .relation cs!"TestExtension"
    { named := [(cs!"unexpected", .boolean true)] }) = some (.missing cs!"path") := by decide +kernel

/-- L890 `successful_decode_rejects_unhandled_named_arguments` -/
example : missing ((plus {} .relation testExtension).parse .relation cs!"TestExtension"
    { named := dataArgs.named ++ [(cs!"unexpected", .boolean true)] })
    = some (.unknownNamed [cs!"unexpected"]) := by
  simp [Registry.parse, plus, Registry.register, hGet, hInsert, testExtension, parseArgs, dataArgs,
    Reader.expectNamed, Reader.getNamed, Reader.run, getKey, ExtValue.asStr, ExtValue.asInt, finish, missing]

/-- L910 `successful_decode_rejects_unhandled_positional_arguments` -/
example : missing ((plus {} .relation testExtension).parse .relation cs!"TestExtension"
    { dataArgs with positional := [.boolean true] }) = some (.unhandledPositional 1) := by decide +kernel

/-- L930 `test_extension_table_registry_basic` -/
example :
    let r : Reg := plus {} .extensionTable testExtension
    r.has .extensionTable cs!"TestExtension" = true
      ∧ usual r .extensionTable []
        = some (cs!"test.TestExtension", cs!"TestExtension", some cs!"test.parquet", none) := by
  decide +kernel

/-- L962 `test_extension_args` -/
example :
    let a : ArgSet ExtValue := ⟨[.expr (.selection (.field 0 none))],
      [(cs!"path", .string cs!"data/*.parquet"), (cs!"batch_size", .integer 1024)]⟩
    let r : Reader ExtValue (Str × Int × Nat) :=
      Reader.expectNamed cs!"path" ExtValue.asStr fun p =>
        Reader.expectNamed cs!"batch_size" ExtValue.asInt fun b =>
          .positional fun ps => .done (.ok (p, b, ps.length))
    found (r.run a {}).1 = some (cs!"data/*.parquet", 1024, 1) ∧ finishes a r = true := by decide +kernel

/-- L995 `test_extension_error_cases` -/
example : missing (Registry.parse ({} : Reg) .relation cs!"NonExistent" {}) = some (.notFound cs!"NonExistent")
    ∧ found ((ask cs!"missing" ExtValue.asInt).run ({} : ArgSet ExtValue) {}).1 = some none
    ∧ finishes ({} : ArgSet ExtValue) (ask cs!"missing" ExtValue.asInt) = true
    ∧ found ((ask cs!"test" ExtValue.asInt).run ⟨[], [(cs!"test", .integer 42)]⟩ {}).1 = some (some 42)
    ∧ finishes ⟨[], [(cs!"test", .integer 42)]⟩ (ask cs!"test" ExtValue.asInt) = true := by decide +kernel

/-- L1067 `test_namespace_separation` -/
example :
    let r : Reg := plus (plus (plus {} .relation testExtension) .extensionTable testExtension) .enhancement testEnhancement
    r.has .relation cs!"TestExtension" = true ∧ r.has .extensionTable cs!"TestExtension" = true
      ∧ r.has .enhancement cs!"TestEnhancement" = true
      ∧ (usual r .relation []).map (·.1) = some cs!"test.TestExtension"
      ∧ (usual r .extensionTable []).map (·.1) = some cs!"test.TestExtension"
      ∧ ((found (r.parse .enhancement cs!"TestEnhancement" { named := [(cs!"hint", .string cs!"optimize")] })).bind
          fun d => (found (r.decode .enhancement d [])).map fun p =>
            (d.typeUrl, p.1, (getKey p.2.named cs!"hint").bind ExtValue.asStr))
        = some (cs!"test.TestExtension", cs!"TestEnhancement", some cs!"test_hint") := by decide +kernel

/-- L1129 `test_enhancement_duplicate_registration_returns_error` -/
example : ((plus {} .enhancement testEnhancement).register .enhancement testEnhancement).2
    = some (.duplicateName .enhancement cs!"TestEnhancement") := by decide +kernel
/-- L1140 `test_extension_table_duplicate_registration_returns_error` -/
example : ((plus {} .extensionTable testExtension).register .extensionTable testExtension).2
    = some (.duplicateName .extensionTable cs!"TestExtension") := by decide +kernel
/-- L1153 `test_extension_table_not_found_error` -/
example : missing (Registry.parse ({} : Reg) .extensionTable cs!"NonExistentExtensionTable" {})
    = some (.notFound cs!"NonExistentExtensionTable") := by decide +kernel
/-- L1161 `test_enhancement_not_found_error` -/
example : missing (Registry.parse ({} : Reg) .enhancement cs!"NonExistentEnhancement" {})
    = some (.notFound cs!"NonExistentEnhancement") := by decide +kernel

/-- L1205 `test_conflicting_type_url_leaves_registry_unchanged` -/
example :
    let r := (plus {} .relation testExtension).register .relation conflicting
    r.2 = some (.conflictingTypeUrl .relation cs!"test.TestExtension" cs!"TestExtension")
      ∧ r.1.has .relation cs!"TestExtension" = true ∧ r.1.has .relation cs!"ConflictingExtension" = false := by
  decide +kernel
/-- L1226 `test_extension_table_conflicting_type_url_leaves_registry_unchanged` -/
example :
    let r := (plus {} .extensionTable testExtension).register .extensionTable conflicting
    r.2 = some (.conflictingTypeUrl .extensionTable cs!"test.TestExtension" cs!"TestExtension")
      ∧ r.1.has .extensionTable cs!"TestExtension" = true
      ∧ r.1.has .extensionTable cs!"ConflictingExtension" = false := by decide +kernel

/-! ## src/textify/values.rs and src/textify/extensions.rs -/

/-- L320 `test_arguments_textify_positional_only` -/
example : textExtArgs empty .default ⟨[.integer 42, .integer 7], [], []⟩ = ⟨cs!"42, 7", []⟩ := by
  decide +kernel
/-- L329 `test_arguments_textify_named_only` -/
example : textExtArgs empty .default ⟨[], [(cs!"limit", .integer 10), (cs!"offset", .integer 5)], []⟩
    = ⟨cs!"limit=10, offset=5", []⟩ := by decide +kernel
/-- L350 `test_arguments_textify_both` -/
example : textExtArgs empty .default ⟨[.integer 1], [(cs!"foo", .integer 2)], []⟩
    = ⟨cs!"1, foo=2", []⟩ := by decide +kernel
/-- L365 `test_arguments_textify_empty` -/
example : textExtArgs empty .default {} = ⟨cs!"_", []⟩ := by decide +kernel
/-- L374 `test_named_arg_textify_error_token` -/
example : textNamedArg cs!"foo" (Out.fail cs!"my_enum") = ⟨cs!"foo=!{my_enum}", [cs!"my_enum"]⟩ := by
  decide +kernel
/-- L392 `test_decode_enum_field_known_variant` -/
example : textSetOp (.known .unionAll) = ⟨cs!"&UnionAll", []⟩ := by decide +kernel
/-- L402 `test_decode_enum_field_unknown_variant_names_field` -/
example : textSetOp (.unknown 99) = ⟨cs!"!{SetRel}", [cs!"SetRel"]⟩ := by decide +kernel
/-- L126 `error_value_renders_failure_and_continues` -/
example : textExtArgs empty .default
      { named := [(cs!"bad", .error (.other 0)), (cs!"good", .string cs!"continues")] }
    = ⟨cs!"bad=!{extension}, good='continues'", [cs!"extension"]⟩ := by decide +kernel

/-! ## src/precision.rs -/

/-- L84 `test_units_roundtrip` -/
example : ([0, 3, 6, 9, 12].all fun u => (Precision.fromUnits u).map Precision.units == some u) = true
    ∧ ([4, 13, -1].all fun u => (Precision.fromUnits u).isNone) = true := by decide +kernel
/-- L96 `test_subsecond_unit_roundtrip` -/
example : ([cs!"ms", cs!"us", cs!"ns", cs!"ps"].all fun u =>
      (Precision.fromSubsecondUnit u).bind Precision.subsecondUnit == some u) = true
    ∧ (Precision.fromUnits 0).bind Precision.subsecondUnit = none
    ∧ Precision.fromSubsecondUnit cs!"s" = none := by decide +kernel

/-! ## src/cli.rs -/

/-- L702 `test_auto_detect_from_extension` -/
example : [cs!"plan.substrait", cs!"plan.txt", cs!"plan.json", cs!"plan.yaml", cs!"plan.yml", cs!"plan.pb",
      cs!"plan.proto", cs!"plan.protobuf", cs!"plan.unknown", cs!"plan", cs!"-"].map Fmt.ofExtension
    = [some .text, some .text, some .json, some .yaml, some .yaml, some .protobuf, some .protobuf,
        some .protobuf, none, none, none] := by decide +kernel
/-- L757 `test_auto_detection_error_unknown_input_extension`,
`test_auto_detection_error_unknown_output_extension`, `test_explicit_format_overrides_auto_detection` -/
example : resolveFmt none cs!"input.unknown" = none ∧ resolveFmt none cs!"output.json" = some .json
    ∧ resolveFmt none cs!"output.unknown" = none ∧ resolveFmt (some .text) cs!"input.json" = some .text
    ∧ resolveFmt (some .text) cs!"output.pb" = some .text := by decide +kernel

end Verif.Conformance
