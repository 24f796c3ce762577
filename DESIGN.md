# Formal model of substrait-explain in Lean 4

## Approach

The crate has two directions: `format` (Substrait plan -> text) and `parse` (text -> plan).  Most of
what a user relies on is that those directions agree.  The model follows the code's own layering.

* **Text** is `List Char` (Rust `&str`/`String`; offsets are in characters).
* **Grammar** (`expression_grammar.pest`): every rule becomes a total function
  `List Char -> Option (syntax * rest)` with PEG semantics: ordered choice, greedy repetition, no
  backtracking into a rule that succeeded; C83 proves that these functions are the grammar file.  Recursive rules take a fuel argument; the top level
  supplies `length + 1`, and the theorems are about that top level.
* **Conversion** (`parse_pair`): syntax -> protobuf value in a context of extension declarations,
  returning `ok`, `err` or `panic` (an explicit value, `Res`).
* **Formatting** (`Textify`): protobuf value -> characters plus the list of reported errors (`Out`).
* **State** (extension store, registry, argument reader, chunk cursor, tree builder, section state
  machine) is a state value with step functions.

`Verif/Model/*.lean` holds definitions only, each citing source lines; `Verif/Spec/*.lean` small
specifications written without the model's helpers; `Verif/Proofs/*.lean` helper lemmas;
`Verif/Props/*.lean` the property theorems `Cnn_...`, each with a concrete case beside it that meets
its hypotheses.  `Verif/Conformance/*.lean` runs the project's own tests on the model (tests, not
proofs; see "Testing the theorems").

When the code does not satisfy a property, the model keeps the code's behaviour, the negation is
proved on a concrete witness, and the property theorem is restricted (`_partial`) to the inputs for
which it holds.

## Trusted base

* Lean 4.33.0 kernel.  The theorems depend on no axioms beyond `propext`, `Classical.choice` and
  `Quot.sound`; there is no `sorry`, `native_decide`, `bv_decide`, `implemented_by` or `unsafe`.
* The reading of the Rust code by hand (no extraction); line citations in each definition.
* Behaviour of dependencies as stated in the model: pest (PEG semantics as in `Spec/Pest.lean`, implicit white space off),
  `BTreeMap`/`IndexMap` ordering, `str` methods.
* chrono 0.4.43 formatting and parsing (`Model/Chrono.lean`, `Model/Calendar.lean`) follows its
  documented behaviour: zero padding, widths, optional white space before numeric items, signs on
  years outside 0..9999, `%.f` optional and dropping digits after the ninth, second 60 accepted.
* prost: different messages have different encodings (`Model/ExprEq.lean`); for the shipped handlers
  the encoding is a parameter (`Wire`, with the law `decode (encode t) = t` `MsgCodec`); for the three shipped messages it is
  modelled (`Model/Wire.lean`).
* Unicode tables (`UTab`: printable, grapheme extend) and floating-point text conversion (`FTab`) are
  class parameters without laws.  Where a theorem needs it, it assumes that printable ASCII is
  printable (`AsciiPrintable`); theorems about floats assume, per value, that its text has a decimal
  point and parses back.

## What is modelled

| model file | source |
|---|---|
| Base, OMap, Num | results with panics; `BTreeMap`; integer printing and `str::parse` |
| Store | `extensions/simple.rs` (insertion, lookup, `fromExtensions`, export, name resolution) and the reference printing of `textify/foundation.rs` |
| ExtSection | `SimpleExtensions::write`, `parser/extensions.rs` L36-264, the extension rules of the grammar |
| Chunks | `parser/chunks.rs`, `next_chunk` |
| Tree | `TreeBuilder` (`parser/structural.rs`) |
| Sections, VersionWrite | `Parser` (`parser/structural.rs` L895-1234) and `textify/plan.rs` (version part) |
| Peg, Escape | grammar terminals, `unescape_string`, `escape_debug`, `Name` |
| Types | `textify/types.rs`, type rules, `parser/types.rs` |
| Calendar, Chrono, Literals | `precision.rs`, literal half of `textify/expressions.rs` and `parser/expressions.rs`, day intervals |
| Exprs, ExprEq | expressions: printer, rules, conversion, `expression_key` |
| ExtArgs | `ExtensionValue/Column/Args` (`extensions/args.rs`), `textify/extensions.rs`, argument rules, `parser/extensions.rs` L269-606 |
| Registry, Columns, Examples | `extensions/registry.rs` (registration, lookup, `ArgsAccess`, adapter, schema conversion), `TryFrom` conversions, `extensions/examples.rs` |
| Rels | `textify/rels.rs`, `textify/values.rs`, `textify/addenda.rs` |
| RelLines, RelConv | relation rules of the grammar; `parser/relations.rs`, conversion half of `parser/structural.rs` |
| Wire | the encoding `prost` derives for the messages of `extensions/examples.rs` |
| Plan | `textify/plan.rs`, `build_plan`, the entry points in `lib.rs` |
| Located | the same parser with the `ParseContext` (line number, line shown) of every error |
| Cli, Json | `cli.rs` decision logic and file effects; descriptor merging of `json.rs` and the order in which its two readers are tried |
| Tool | `cli.rs` with `parse_with_registry` and `format_with_registry` as the text format; a panic of the formatter counts as an error there |

### Not modelled

* `src/structural/mod.rs`: not declared in `lib.rs`, so it is not compiled.
* `src/fixtures.rs`, `src/types_tests.rs`, `src/main.rs`, tests, `src/grammar.rs` (re-export).
* `extensions/any.rs` beyond "a type URL and bytes" with the encoding of `Model/Wire.lean`.
* The text of error messages, except for those about declarations and references and the context of parse errors
  (`Model/Messages.lean`), and the columns pest adds to them.  The class of an error is kept; its line number
  and the line it shows (`ParseContext`) are modelled by a second parser, `parsePlanAt` (`Model/Located.lean`).
* protobuf, JSON and YAML (de)serialisation of plans: parameters (`Cli.Codec`).  The protobuf encoding of the three shipped
  messages is modelled after the documented behaviour of `prost`, whose source is not in the repository, and the `#[prost]`
  attributes, which are.
* Plan fields other than version, URNs, declarations and relations: the code neither writes nor reads
  them.
* Memory limits, recursion depth and running time.  Of the running time only one part is modelled: how often pest
  tries the recursive rules (C69), the other rules cost nothing there.

### Simplifications

* Offsets and indentation count characters, not bytes, except in `Model/Bytes.lean`, where the code that
  computes with byte offsets is modelled a second time and proved to agree (C70). Offsets inside `pest`
  are not modelled.
* Message content that neither side looks at (hints, phases, filters and sort orders of measures, ...)
  is one opaque number `rest`, `0` for the default; the specification requires `0` where the text
  cannot express it.
* Enum fields are `known v` or `unknown n`.
* The inputs of a relation are the children of one uniform tree; `Spec/Rels.lean` (`Arity`) says which
  trees are messages.
* References inside relations are unbounded `Nat`/`Int`; the parser's 32- and 64-bit bounds are
  modelled where text is converted.  Project index arithmetic has no `i32` overflow.
* Expressions are compared as messages instead of as encodings.
* The queue of formatting errors is in text order; the code pushes errors of absent fields when a value
  is looked up, so its order may differ.  No theorem is about the order.
* A panic of the printer (dates out of range) is an `Out` whose errors contain `panicMark`.

## How the main results fit together

* *Round trip* (C46): per layer a lemma "the recogniser applied to `text ++ rest` returns the tree and
  `rest`, and the tree converts back", proved by structural induction: terminals (`Proofs/Peg`,
  `Escape`, `Num`), types, literals, expressions, extension arguments, relation lines
  (`Proofs/RelLine*`), blocks of lines (`Proofs/Blocks`, `TreeText`), sections (`Proofs/PlanText`).
  `Spec/Supported.lean` and `Spec/Plan.lean` say which plans have a faithful text (`PlanOk`) and when
  two plans mean the same (`PlanEquiv`).
* *Completeness of error reports* (C38): for every printer `errs = []` exactly when nothing is missing
  (`Spec/Complete.lean`), and an independent scanner of the text (`Spec/Tokens.lean`) finds no failure
  token that was not reported.
* *Canonical text* (C47): equivalent plans in the fragment have the same text (`Proofs/Canonical`).
* *Soundness of the parser* (C48, C55): a declarative grammar transcribed from the pest file as
  relations between trees and texts (`Spec/Grammar.lean`), and the statement that every line of an
  accepted text is accounted for (`Spec/PlanLines.lean`).
* *Panics* (C49): a closed list of hazards over the same derivations (`Spec/Hazards.lean`); the parser
  panics only on texts with a hazard and accepts only readings without (`Proofs/Hazards*`).

* *Read, write, read* (C58): what the parser builds is in `PlanOk` except for the cases that
  `Spec/Reparse.lean` lists (`PlainPlan`); declarations, version, tree shape, calls and variants need no
  condition.  `Spec/Tidy.lean` lists what such a plan can still leave open so that an error is reported.

* *Where errors point* (C59): `parsePlanAt` is `parsePlan` plus contexts (`C59_same_parser` says that
  forgetting them gives `parsePlan`); `Spec/Located.lean` says which line an error has to name, from the text
  and the tree of lines alone.

### What `PlanOk` leaves out, and why

Each exclusion is a place where the code loses or changes something; those marked * have a proved
witness.

* type kinds the type parser cannot read (map, struct, fixed-size, ...)*, type variations*, names that
  collide with built-in type names*;
* literals without faithful text: nullable strings*, typed nulls with flags*, binaries*, integral
  floats*, picosecond values;
* nested field references*, enum and type arguments*, function options, conditionals without clauses*;
* names with characters that `escape_debug` writes as `\0`, `\u{..}`*;
* `Read:Virtual` and `Read:Extension` with an output mapping*, extension relations with one;
* filters on named-table reads, and read projections (dropped without an error);
* aggregates: see C25 (a set beginning with a cast*, measure filters*, ...);
* sort without fields, clustered sorts*;
* negative or non-integer numeric limits;
* joins whose mapping is the identity of both inputs although the join puts out fewer columns*;
* extension payloads that their handler does not rebuild, names that are not identifiers*;
* options: hidden anchors or literal types, an indentation other than two spaces, `show_emit`.

## Findings

Places where the code does not do what a property says; the theorem is named where one is proved.

* strings and names: NUL and other characters that `escape_debug` escapes are not undone
  (`C01_string_round_trip_fails`, `C02_name_round_trip_fails`).
* declarations: `u!u!x` loses a marker (`C06_export_import_fails`); dangling URNs are rejected on
  reading (`C07_dangling_rejected`), trailing text or a number beyond 32 bits in a declaration panics
  (`C07_space_panics`, `C07_name_panics`).
* types: names with `:` resolve wrongly (`C11_colon_type_resolves_wrongly`); user type names such as
  `list` or beginning with a built-in name are misread (`C12_*_misread`); `map`/`struct` panic
  (`C12_map_panics`); `u8`..`u64` and non-type parameters panic; an unset interval precision becomes 6.
* literals: integers wrap to 32 bits (`C13_int_literal_wraps`) or panic beyond 64 (`C13_overflow_panics`);
  nullable strings, nulls and variations lose information (`C14_*`); fractions after the ninth digit are
  dropped (`C18_tenth_digit_lost_partial`), leap seconds are accepted but not printable.
* expressions: nested references lose their tail (`C20_nested_field_lost`); an error inside a clause of a
  conditional panics (`C49_clause_error_panics`); references beyond `i32` panic (`C49_reference_panics`).
* relations: width of semi/anti/single/mark joins differs between the two sides
  (`C26_semi_join_widths_differ`); duplicate fetch arguments panic (`C29_duplicate_panics`); `Clustered`
  prints but cannot be read (`C30_clustered_unreadable`); a first grouping expression that is a cast
  cannot be read (`C25_cast_rejected`); measure filters are dropped (`C25_measure_filter_dropped`);
  virtual reads lose their output mapping (`C52_virtual_mapping_lost`), likewise extension reads and
  extension relations; filters of named-table reads are dropped; a sort without fields prints `_`,
  which is not read; an out-of-range `$i` in a Project may come to mean an expression column.
* extension arguments: names and floats and literal expressions (`C41_*_misread`, `C41_*_unreadable`);
  a repeated argument name overwrites (`C54_repeated_names`).
* text: anything after the closing bracket of a relation is ignored (`C48_garbage_accepted`); a blank
  line before a continuation line makes a plan unreadable (`C50_blank_before_dash`), strings broken by a
  continuation line keep the line end (`C50_line_end_in_string`); whitespace-only producers are not
  canonical (`C47_blank_producer_fails`), nor are deprecated limits in verbose mode
  (`C47_verbose_limit_fails`).
* accepted texts that do not survive being formatted, without any error: a sort without fields
  (`C58_empty_sort_fails`), a cast as the only grouping expression (`C58_cast_group_fails`), a semi-join
  that asks for both sides (`C58_semi_join_fails`); with an error: columns that are not there and leap
  seconds (`C58_reported_fails`).
* errors: a declared name spelled `!{x}` looks like a failure token (`C38_name_as_token`).
* an error in a line before the first section header is reported with half the indentation of the line as line
  number (`C59_initial_line_fails`); errors in continuation lines name the first line of the chunk.
* handlers: an unknown partition strategy is written as UNSPECIFIED (`C56_unknown_strategy_lost`).
* documentation: the two examples of README.md (L95, L147) are not accepted, because calls lack an output
  type; a doctest of GRAMMAR.md (L169, also L733, L1038, L1068, L1182) is only accepted because text after
  the closing bracket is ignored, which makes `// ...` look like a comment; the plans of GRAMMAR.md L169 and
  L523 refer to columns that are not there (all in `Conformance/DocTests.lean`).
* command line: the output file is emptied before the input is read (`C45_failed_conversion_truncates`).
* C67: strings that are copied without escapes can break lines. A type parameter `i64>]\nRead[other => b:T<i64` of a column turns one relation into two, without an error (`C67_injected`).
* C65: with the default options the bytes of a binary literal are replaced by `{binary}` without an error (`C65_hidden_bytes`); with the verbose options the text says which bytes there are (`C65_verbose_bytes`), but neither spelling can be read (`C65_bytes_unreadable`).
* C69: the rules `type` and `expression` are tried exponentially often on some texts. A text without any error is enough: a declared type named `list` with two parameters (`C69_type_exponential`) or a declared function named `if_then` (`C69_expr_exponential`), and a text that is rejected too: `if_then(` written 40 times, 320 characters, would be tried 2^41 times (`C69_rejected_exponential`). The first alternative (`list_type`, `if_then`) runs the nested rule and fails, the later one (`user_defined_type`, `function_call`) runs it again.
* C74: an incomplete expression in a column that is not emitted is dropped without an error (`C74_hidden_column`).
* Options: `show_extension_urns`, `show_simple_extensions`, `read_types` and `nullability` are documented and set by `verbose()`, but never read; they have no effect.
* column references are not range-checked in reading (`C80_unchecked`); formatting reports only output mappings
  (`C80_mappings_partial`), not references in expressions (`C80_filter_silent`) nor mappings of reads (`C80_read_silent`).

## Testing the theorems

`seeded/LOG.jsonl` records edits of the model in a scratch copy, one realistic bug per line, with the
theorems that stopped proving.  Theorems that survived an edit which made their claim false were
tightened, and the edit was tried again.

The model is compared with the code through the code's own tests.  `Conformance/` holds the tests of
`tests/*.rs`, the examples of the documentation, and the unit tests of `src/**`, transcribed one by one
with the line and name of the test, each evaluated by the kernel.  All agree, and none needed a change of
the model.  Left out: tests of `src/json.rs`, of messages of errors, and the tests of `src/cli.rs` that go
through JSON, YAML or protobuf.

## Per property

* **C01** String values survive format then parse: `escape`/`unescape`/`string_literal` on characters; exact characterisation of the strings that survive; negation on NUL.
* **C02** Names survive format then parse: `Name` printing and the `name` rule; exact characterisation; safe-follow condition.
* **C03** Integer tokens survive format then parse: Decimal printing and the `integer` rule, all integers.
* **C04** Extension store behaves as a first-wins map: Sorted association maps; refinement to first-wins functions over histories of calls.
* **C05** Every defective declaration is reported, every sound one is accepted silently: The returned error list equals the answers of an independent specification over prefixes.
* **C06** Extension declarations survive export and re-import: Equality of stores, sortedness; negation for doubled `u!`. `C06_export_import_iff`: the two conditions are exact.
* **C07** Extensions section text round trip: Writer and line parser on characters, alone and inside a document; negations. The conditions are exact: `C07_extensions_iff` for every ordered store, and `C07_plan_iff` for the declarations of whole plans, reported ones included.
* **C08** u! prefix is normalised for types and refused elsewhere: Insertion step.
* **C09** Printed function references resolve to the same function: Printing and `resolve`; cases of uniqueness. `C09_function_text` says exactly what is written for a reference.
* **C10** Function resolution never guesses: Soundness and uniqueness against a declarative candidate predicate. `C10_refusal_exact` says when and why a reference is refused. `C10_hidden_resolves_iff` does so for printed names with anchors hidden.
* **C11** Printed user-defined type names resolve to the same type: As C09; negation for names with a colon. `C11_reference_text` says exactly what is written. `C11_resolution_exact` and `C11_refusal_exact` are the same for names. `C11_printed_resolves_iff` says under each setting exactly when the printed name means the type.
* **C12** Types survive format then parse: Structural induction over types; image of the parser; negations for unreadable kinds. `C12_written_form` gives the text of every kind, variations included. `C12_user_written` pins the text of user-defined types. `C12_survives_iff` gives the exact condition, for every history of declarations and all options (`SurvivesTy`, Spec/TypesExact.lean): sufficiency repeats the induction with the weaker condition on names, necessity uses the image of the parser and the order of the alternatives of the rule `type` (Proofs/TypesExact.lean). `Writable`, which the later round trips use, is stronger and does not depend on the options.
* **C13** Ascribed integer literals keep their value or are rejected: Exact characterisation of the changed ones.
* **C14** Literals survive format then parse, including nullability: Literal printer and parser; image of the parser; negations. `C14_null_text` pins the text of typed nulls. `C14_survives_iff`: under any options exactly the literals of `SurvivesLit` are read back from their text; of float printing only its shape (`FloatShown`: digits with or without a fraction, `NaN`, `inf`, `-inf`) is assumed, as a hypothesis on the literal.
* **C15** Day intervals survive format then parse: Printer and duration grammar; all modes. `C15_interval_errors_iff`: exactly which intervals are reported.
* **C16** Day interval text is accepted only when unambiguous: Accepted language equals an independent grammar; no panic.
* **C17** Sub-second precision tables are mutually inverse: Tables, and refusal for all other values.
* **C18** Timestamps and times never lose sub-seconds silently: Exact integer arithmetic; loss refused; the tenth digit is the exception.
* **C19** Dates survive format then parse: Calendar model proved against the calendar rules; when the printer panics. `C19_date_spelling`: digits, hyphens and sign of the written date.
* **C20** Expressions survive format then parse: Structural induction; injectivity; image of the parser; negations. `C20_survives_iff` (`SurvivesExpr` in Spec/ExprsExact.lean) says for every setting of the options exactly which expressions are read back from their text: the functions must be shown by words that mean them, the parts must all be there and survive.
* **C21** Parsed output mapping denotes the written columns: `make_emit` and the denotation of an emit.
* **C22** Project text denotes the same output columns: Output expression lists before and after, at any depth of a plan.
* **C23** Grouping sets survive deduplication: `build_grouping_fields`: no duplicates, dereferencing gives the written sets.
* **C24** Aggregate output mapping denotes the written outputs: `parse_aggregate_output`: denotation, range, rejection of other items.
* **C25** Aggregates survive format then parse: At any depth of a plan in the fragment; negations.
* **C26** Parser and formatter agree on relation width: Induction over trees; negation for semi joins. `C26_widths_agree_iff` says exactly which converted trees are counted alike (`JoinsPutOutBoth`).
* **C27** Set relation inputs have one common width: Both directions.
* **C28** Relation arity is enforced: Arity of every built tree, at any depth; wrong counts are errors.
* **C29** Fetch arguments are order-independent and strict: Permutations, accepted forms, rejected counts; duplicates panic.
* **C30** Enum spellings are mutually inverse: Tables and prefix-safe alternatives; negation for Clustered.
* **C31** Chunking loses nothing: Any merge policy; concatenation, line numbers, progress.
* **C32** Only deeper dash lines are merged into a relation: Maximal runs; the driver loop.
* **C33** Indentation determines the tree uniquely: Listing of forests and the builder are inverse.
* **C34** Addenda attach to the relation above them: Declarative acceptance predicate.
* **C35** Sections appear at most once and in order: Over all line lists.
* **C36** Version section survives format then parse: Round trip, accepted headers exactly; negations. `C36_plan_version_iff`: for whole plans the conditions on the version are exact.
* **C37** Advanced extensions survive as addenda: Collection characterised exactly; printed addenda read back; `C37_addenda_survive_iff` says exactly which advanced extensions survive, under any options.
* **C38** No silent failure tokens: Exactness per printer and for plans; token scanner.
* **C39** Registry behaves as a pair of consistent maps: Refinement over histories of registrations.
* **C40** Unread extension arguments are rejected: Arbitrary sequences of reads.
* **C41** Extension arguments survive format then parse: Values, relation lines and addenda; negations. `C41_value_survives_iff`: under any options a value is read back from its text exactly if it is one of `SurvivesValue` (`Spec/ExtArgsExact.lean`), which says when an expression is taken for a scalar: a literal whose type is not shown, a call whose shown name begins with `true`, `false` or `null` and has no colon right behind. `C41_column_survives_iff`, `C41_addendum_survives_iff` and `C41_relation_survives_iff` say the same for output columns and whole lines, with no hypothesis on the arguments: names must be identifiers and differ, only the first named argument must not begin with `true`, `false` or `null`, a column must not look like a name with a type, and the name of a relation is kept as written, so a name that itself consists of quoted text survives. "Read back" there means: as a parse tree with as many named arguments as were written that converts to the arguments.
* **C42** Schemas convert to columns and back: Inverse conversions, mismatches rejected.
* **C43** Descriptor merging keeps the first file of each name: Fold with a seen-set.
* **C44** Exit status reflects formatting problems: Decision logic over abstract codecs.
* **C45** A failed conversion leaves the output file alone: File effects; violated, what does hold is proved.
* **C46** Whole plans survive format then parse: Composition of the layers.
* **C47** Formatting is canonical: Equivalent plans have equal texts; negations. `C47_canonical_iff`: exactly which plans are written the same again, for every option set that keeps the text readable (blank producer or git hash; a limit in the deprecated field when all literals get types).
* **C48** Malformed relation lines are rejected: Accepted lines begin with a derivation of the tree; the tail is ignored (negation).
* **C49** Parsing never panics: Negation witnesses for every sort of panic. `Spec/Hazards.lean` lists, over the grammar derivations, the parts at which a panic can be reached; every panic of `parsePlan` comes from one of them, and an accepted text has a reading without any. The list names sorts of parts, not the order in which the code meets them: a text with a hazard may also be rejected with an ordinary error that is found first.
* **C50** Line-ending and blank-line insensitivity: In any text, except immediately before a line that begins with a dash (`Spec/Layout.lean`); negations there.
* **C51** Virtual table layout does not matter: Inline and multi-line printers against the grammar rules.
* **C52** Read output mapping survives format then parse: Named tables; negation for virtual tables.
* **C53** Root relations are only at top level with exactly one input: Conditions and names.
* **C54** Repeated named arguments of an extension: `IndexMap` semantics.
* **C55** An accepted plan is what its text says: Whole parser against the declarative grammar.
* **C56** The shipped extensions lose nothing: Acceptance specifications, round trips, built registry, whole plans; which payloads the registry reads and writes, exactly and with the documented type URLs.
* **C57** Expressions reach extension handlers unchanged: `TryFrom` conversions and getters.
* **C58** Accepted texts survive being formatted and read again: The image of the parser against `PlanOk` (`Proofs/Reparse*`), then C46 and C47; the exceptions are listed in `Spec/Reparse.lean` and most have a proved witness. `C58_settles_any`: the same without a condition on literal types. `C58_second_round`: after one round the plan does not change at all. `C58_exact_iff`: the plan is the same to the last field after the first round precisely when it is neat (`Spec/Neat.lean`) and its version is not the default one; proved by showing that messages of the parser's image that are neat and mean the same are equal (`Proofs/Neat.lean`), where the grouping sets, measures and project expressions are recovered from what is put out. `C58_exact_fails` has the three exceptions that occur with every registry.
* **C59** Errors name the line they are about: A second parser that carries contexts, equal to the first when they are forgotten; line numbers against the lines of the text, relation errors against the tree of lines; negation for lines before the first header.
* **C60** Formatting panics only on dates outside the calendar: `Only Q` for every printer, with `Q` the fixed list of names plus the panic mark; exact for expressions; dates built by the parser exist.
* **C61** The text of a plan determines what the plan means: `PlanEquiv` is shown to be symmetric and transitive (equivalent inputs put out equally many columns), so injectivity follows from C46, and with C47's argument the converse. `Proofs/EquivRel.lean`.
* **C62** Unrelated declarations do not matter: the store's answers about old names are unchanged (`Spec/Unrelated.lean`, `Widens`); every conversion and every printer is then shown to keep its result (`Res.Keeps`, `Out.Keeps`); the lines before the plan section reach it only through the store (`Proofs/UnrelatedText.lean`). Witness that a further function of the same name does matter.
* **C63** Relations of a plan are independent of each other: finished trees of the builder do not matter to later lines, and an unindented line ends what came before (`Proofs/Apart.lean`); an equivalence on whole texts.
* **C64** A relation is written the same at every depth: a function from relations to lines with depths, built along the relation tree (`Proofs/Nested.lean`), against the printer at every depth. Writing only; that nesting does not matter to reading is part of C46 for printed text and of C55 for all text.
* **C65** Formatting silently drops only a known list of content: `Spec/Silent.lean` (`kept`) is the list; every printer is shown not to see the difference (`Proofs/Silent.lean`), and what can be written is unchanged by it (`Proofs/SilentFix.lean`), so C46 and C61 apply to what is kept. Content that the model folds into one opaque number (`rest`) is dropped as a whole. Witness that a filter of a read and an inner field are lost without an error. Plans that were read have nothing that is dropped (`C65_read_kept`).
* **C66** Conversions of the tool compose: `Model/Tool.lean` is the tool of C44 with the text format of this crate in place of an arbitrary one; texts are encoded as UTF-8 with Lean's own encoder. The other formats stay parameters, and that they read what they write is a hypothesis where it is needed. Commands run one after the other; nothing else touches the files in between. `C66_text_input` is the other direction: success on text input means the bytes are the UTF-8 form of an accepted text.
* **C67** Lines and content: `Spec/Raw.lean` lists the strings of a plan that are copied into the text without escapes (declared names, URNs, producer and git hash, function options, string and enumeration parameters of types, names and enumeration values of extensions) and counts the lines of a plan from its shape. Proved: if no copied string has a line end in it, the text has that number of lines, whatever the escaped strings contain (`C67_lines_partial`, and per relation `C67_relation_lines_partial`; `C67_virtual_table_lines_partial` spells out the lines of a virtual table under the default options). That nothing takes a line away holds of every plan, without any condition (`C67_no_line_taken`, `C67_no_relation_line_taken`). The full claim is false: `C67_injected` is a plan with one relation, formatted without an error, whose text is read as two relations.
* **C68** Numbers of anchors: `Spec/Renumber.lean` defines what it is to renumber a plan (every constructor that holds an anchor; messages of extensions through a function that the handlers must respect). Proved by induction over types, expressions and relations that names are the only way anchors enter the text (`C68_relations`, `C68_written_text`, `C68_declarations`); deprecated grouping sets compare expressions, so renumbering is shown to be injective on them. `C68_shown_anchors_differ` shows that the condition on shown anchors is needed.
* **C69** Attempts: `Model/Counted.lean` writes `type`, `expression` and `extension_argument` a second time with the number of times each rule is tried; `C69_same_parser` says that the matches are those of the parser model. The claim is false, with exact counts for four families of texts of every depth and a proof that no polynomial is a bound (`C69_no_polynomial_bound`); what is true are bounds exponential in the number of opening brackets only (`..._partial`), linear ones for types that do not reuse the names of compound types (`C69_type_linear`) and a single attempt for text that is no type (`C69_type_rejected`). For `tuple` the grammar as written would be exponential as well (`C69_arg_as_written`), but pest's code generator shares the common beginning of two alternatives (`pest_meta`'s `factorizer`, not part of the repository; taken from its documentation, not checked here), and then the number is linear (`C69_arg_linear`).
* **C70** Byte offsets: `Model/Bytes.lean` has the code of the repository that slices strings (the cursor of chunks.rs with its debug assertions, `IndentedLine::from`, `next_chunk`, `CompoundName`) with byte offsets and a slicing operation that panics inside a character and beyond the end; `C70_slice` ties that operation to the UTF-8 form. Proved by a simulation with the model over characters (`SamePlace` in `Proofs/Bytes.lean`): the same chunks (`C70_plan_chunk`, `C70_other_chunk`), indentation (`C70_indentation`), base names (`C70_compound_name`) and result of the parser (`C70_same_sections`, `C70_same_parse`) for every text, so no slice panics and no assertion fails.
* **C71** The parser builds only complete messages: `Spec/Image.lean` says, on the message alone, what a plan that was read looks like (`PlanImage`: no missing message or input, known enum variants, no hints, deprecated fields, variations or options, right arities, widths of inputs and mappings, declared references, payloads made by the registry, grouping expressions numbered in the order of first use, measures put out once each and in order, no bare reference among the expressions of a project). `Proofs/Image.lean` shows it by the inversion lemmas of the conversion (`LineOk`, `BodyOk`) and induction on the tree. `C71_everywhere` is the reading by position in the plan. That a mapping is not the identity is said for at most 2^31 columns.
* **C72** Spellings of dates, times and timestamps: `Spec/Temporal.lean` gives the grammars with values (`DateText`, `TimeText`, `StampText`), without the order in which the eight formats are tried.  `C72_date`, `C72_time` and `C72_timestamp` are equivalences between "is read as" and "is a spelling of"; the formats are disjoint, so that no text has two readings.  `C72_lenient` shows what is accepted beyond the documentation: white space before each number, `2020-01-112:00:00` for two o'clock on the eleventh, years like `+0002020`.  The scanner of chrono is modelled in `Model/Chrono.lean` from its documentation and source as known; this part is not in /repo.  `C72_time_refused`, `C72_timestamp_refused` and `C72_date_refused` say with which error every other text and precision is refused.
* **C73** JSON and descriptors: `JsonLib` (in `Model/Json.lean`) collects what `json.rs` takes from serde and prost-reflect; `build`, `parse` and `read` are the code around it.  `C73_plain_json`: plain JSON does not depend on the descriptors; `C73_more_descriptors`: the merged files of a longer list of blobs extend those of a shorter one, so what was read stays (of the library, only that a pool with more files reads what it read with fewer is assumed, as a hypothesis); `C73_bad_blob`: one bad blob makes all JSON input fail.
* **C74** Options and errors: `Proofs/OptErrs.lean` goes through all printers; `C74_errors_independent` is equality of the lists of errors for whole plans, `C74_literal_text` the exact relation of the three settings for types of literals.  `C74_hidden_column` is why the option that shows all columns is left out: an incomplete expression that is not emitted is reported only with it.
* **C75** Growing registries: `Registry.Within` says that every entry of one registry is in another, which holds after any further calls of `register` (`Registry.within_after`).  `C75_read_grows` is equality of the results of reading for whole texts, except for the error about unregistered extensions; `C75_written_grows` is equality of the outputs (text and errors) for plans without errors.  The examples show that the exceptions are real.
* **C76** Obligations of extension authors: `Returns` (Props/Author.lean) is what is asked of `to_args` and `from_args`, in terms of what the reader answers and looks at.  `C76_payload_iff` is an equivalence for every registration history; `C76_attached` and `C76_relation` put such payloads into the fragment of C46, `C76_plan_round_trip` is a whole plan.  The examples define two new extension types.
* **C77** Words: `WordSpec` (Props/Words.lean) says what identifiers, integers, floats and quoted texts are, by ranges of characters and by an inductive relation between raw and meant text.  The theorems are equivalences between what the reader returns and the longest such beginning (`Longest`), so that failure is characterised as well.  `true`, `false` and `null` are not words in this sense: they are taken even when letters follow (C41).
* **C78** Spaces: `SpaceSpec.squeeze` (Spec/Spaces.lean) is a small automaton that reduces every run of spaces outside of quotes to one; it knows quotes and backslashes and nothing of the grammar.  `nodeLine (squeeze s) = nodeLine s` is proved rule by rule (Proofs/Spaces.lean, SpaceRules.lean, SpaceLines.lean), by a simulation: from a text and its squeezed form every parser fails on both or succeeds on both with the same value and with rests that squeeze to the same text.  Proofs/SpacePlan.lean lifts it through indentation, merging of dash lines and the section loop.  Lines are assumed to close their quotes (`Closed`), as a quote that stays open would swallow the spaces of the line merged after it, and not to be headers.  Not covered: spaces in the version and extension sections.
* **C79** Declarations: `DeclareSpec.Sound` (Spec/Declare.lean) states on the list of declarations alone what makes them acceptable; `TextSays` (Spec/PlanLines.lean, also used by C55) says what a text declares.  Proofs/Declare.lean shows that lines that say a declaration behave exactly as the insertion into the store, so `C79_decided` and `C79_accepted` are equivalences for texts without relations, and `C79_order` carries a permutation of the declarations over to any relations behind them (by C62).  `C79_written` is the same for the writer.  `C79_empty_line` is about the parser of the extensions section when it is called on its own, as `ExtensionParser::parse_line` can be: an empty line ends the subsection there (the plan parser skips blank lines before they get to it).  Reordering is refused by the code if a URN comes after its use (example beside the theorem).  While proving the converse of C55, `VersionSays` was tightened: lines of the version section are indented by two spaces and not four or more, which the earlier statement did not say.
* **C80** Range of column references: the claim fails.  `ScopeSpec.tree f` (Spec/Scope.lean) is a syntax tree with all reference numbers exchanged by `f`; `C80_unchecked` and `C80_plan_unchecked` show for every injective exchange that conversion accepts both with the same number of columns, refuses both for the same reason or panics on both, so no reference is ever compared with a number of columns (injectivity is needed because grouping expressions are compared with each other).  `C80_expression_silent`: formatting reports nothing about references inside expressions either.  `C80_mappings_partial` is the check that exists: output mappings are in range in every plan that is formatted without an error, except those of reads of named tables (`C80_read_silent`).
* **C81** What a relation takes from its inputs: `C81_read` says that conversion of a line is given by one function of the line, its addenda and the list of the widths of the inputs, and that the inputs of the relation that is built are exactly the relations below, in order.  The witness in Proofs/Inputs.lean is the conversion itself on placeholder inputs, so the proof shows that no case of `convLine` looks at them.  `InputSpec.At` and `RelAt` (Spec/Inputs.lean) say "the same tree but for one part, at this path"; `C81_exchange` follows by induction on the path.  It is the counterpart for reading of C64.
* **C82** Messages: `Model/Messages.lean` has the `Display` texts of `InsertError`, `MissingReference`, the two kinds of `FormatError` made from them and `ParseContext`.  `C82_lookup_distinct`, `C82_context_distinct` and `C82_classes_apart` hold for all names.  For declaration errors the claim fails (`C82_insert_spaces_fail`); true are `C82_insert_told`, by which kind, anchor and, apart from repeated anchors, everything can be told, and `C82_insert_distinct_partial`, full injectivity if no name and no URN has a space.
* **C83** The grammar file itself: `Spec/Pest.lean` has the 116 rules of `expression_grammar.pest` as data (`PestSpec.grammar`), under the names of the file, and the big-step meaning of parsing expression grammars (`PestSpec.Peg`).  `scripts/grammar_check.py` compares that table with the grammar file mechanically; it is a check of the transcription, not part of a proof.  `C83_rules` shows for every rule and text that the hand-written recogniser of the model leaves exactly what the rule leaves and fails exactly when the rule fails (`leaves` in Props/Pest.lean says which recogniser belongs to which rule).  Together with C48 and C55, which say what the recognised text stands for, this fixes acceptance in both directions, also for spellings that the printer never writes.  `C83_ends`: every rule has exactly one outcome on every text, so running the grammar terminates.  `C83_lines`, `C83_declarations` and `C83_durations` are the consequences at the places where the code starts a rule.  `SOI` is the empty match, because the only rule that uses it is started at the beginning of its text.
* **C84** What the syntax means: `Spec/Meaning.lean` is a relation between parse trees and protobuf values, one constructor for each form that means something (`TyMeans`, `ValueMeans`, `ExprMeans`, `ArgMeans`, `LineMeans`, `RelMeans`, `TopMeans`), without any function of the conversion.  References go through `StoreSpec.Declared` and `Means`, dates through the calendar of `TemporalSpec`, intervals through `WritesInterval`.  Grouping expressions are `firsts` of all sets, a grouping set is a list of positions in it; a mapping is kept unless it is the one that keeps all columns in order.  `C84_types` … `C84_trees` are equivalences between conversion (both phases of the parser after the grammar) and that relation, so they exclude accepting too much, accepting too little and any other value.  `C84_one_meaning`: at most one meaning.  `C84_plan` puts it together with C55 for whole texts.  Which error or panic a meaningless piece leads to is not part of C84; see C49 for panics and C59 for the lines that errors name.
* **C85** Which texts are accepted: `C85_accepted` is one equivalence for `parse` as a whole: `parsePlan reg text = .ok p` iff the text falls into parts (`TextReads`), the declarations are `Sound` (C79), the lines list a forest, every tree means the relation of the plan (`TopMeans`, C84) and the lists of the plan record the declarations (`Recorded`: membership and order, without the store).  `Spec/Accept.lean` takes the plan section apart greedily: a line has all continuation lines directly below it.  C55 is the direction from acceptance; here the other direction is proved as well, so a parser that refuses a text of the documented form does not satisfy it.  Lines are read by `topLine`/`nodeLine`, which C83 and C48 tie to the grammar file.
* **C86** Which texts panic: `Spec/Crash.lean` lists, for every piece of syntax, when reading it ends in a panic (`TyCrashes`, `ExprCrashes`, `ArgsCrash`, `LineCrashes`, `NodeCrashes`, `DeclCrashes`), in terms of the relations of C84: a panic is reached only if everything looked at before means something (`First`), and where an error is raised while pairs are still unread, having no meaning is enough.  The part of declarations that the grammar leaves unread is stated with the grammar file (`PestSpec.Peg`, C83).  `C86_types`, `C86_expressions`, `C86_trees` and `C86_panics` are equivalences; `C86_refused` is what remains, so that with C85 every text is settled: plan, error or panic.  C49 only has one direction of this (a panic implies a hazard somewhere).  Modelled panics: `unwrap`, `expect`, `panic!`, `unimplemented!` and the drop check of `RuleIter` in the parser; not modelled: running out of stack or memory.
* **C87** Wire format: `Model/Wire.lean` has varints, keys, skipped fields and the three messages; `Spec/Wire.lean` describes varints
  and fields on their own.  Reading is followed field by field (`Wire.Reads`), so that round trips, concatenation and unknown
  fields are compositions; ranges are an invariant of the loop over the fields.  `Spec/Wire.lean` also says what each field means for
  each message (`PartitionStep`, `PlanStep`, `BlobStep`); `C87_*_decoded_iff` are equivalences over all byte strings between decoding
  and these meanings, so truncated fields, wrong wire types, end keys without a group and bytes that are no UTF-8 are settled too.
* **C88** Exactly which relation lines survive: `Spec/LinesExact.lean` says for reads of named and virtual tables, filters, projects, sorts, fetches, joins, sets and crosses
  what they have to be made of (`SurvivesLine`, over the exact `SurvivesExpr` of C20) and what it means that a line is read back (`LineBack`:
  grammar, conversion, `OpEquiv`).  The nine theorems are equivalences for all relations of these kinds, also malformed ones with
  missing conditions, unknown enumeration values, columns out of range or the wrong number of inputs.  Assumed, except for reads: `show_emit` is off
  (with it on the direct columns are written instead of the mapping), no addenda (they have lines of their own, see C37), and at most 2^31 columns
  (`Countable`), since beyond that the column numbers wrap around.  For projects nothing is asked of expressions that are not put out (they are lost and do
  not matter), and a plain reference beyond the input, which may mean the project's own expressions to the parser, does not survive.
  Named reads need no assumption on the options; virtual reads need an indentation of two spaces, which the grammar wants before rows on
  lines of their own.  A filter on a named read and a mapping on a virtual read are lost, so neither survives.  Not covered: aggregates, and reads of
  extension tables, whose content is an addendum.
* **C89** Exactly which trees survive: `Spec/TreesExact.lean` takes the lines of a tree one by one (`LinesOf`), as the structural parser hands them to
  the grammar, and asks whether `convNode` makes an equivalent tree of them (`TreeBack`).  The theorem composes the equivalences of C88 over the tree;
  what makes that work is `LineKept`: a line that survives is read with the very inputs given and with the width the specification counts, so the
  widths above it are right too.  Not part of it: finding the lines in the text (C37, C45, C46 have that for supported trees), aggregates, extension
  relations and addenda.  It holds at every depth, which matters to virtual tables only, whose rows are indented below them.
  `C89_top_survives_iff` adds the `Root` line: its names have to survive too, and it needs an input.
* **C90** Exactly which plans survive as text: C89 for the whole text.  `Proofs/Listed.lean` shows that the parser gets through a list of lines
  only if it reads every one of them, `Proofs/TextExact.lean` that the text of a tree is the listing of its lines, whether they are read or not, and
  `Proofs/PlanExact.lean` puts the version, the declarations and the relations together.  Assumed beyond C89: the declarations and the version can be
  written (C07 and C36 say exactly which), and copied texts have no line end (with one the claim fails, `C67_injected`).  Virtual tables may take one
  line or several, and a relation at the top may be missing, which loses the plan.
* **C91** What is reported is lost, with two exceptions: on the plans of C90, a relation that survives is complete exactly if nothing it shows is left open
  (`Spec/TidyShown.lean`: every nullability given, no interval too long; expressions a projection does not put out do not matter), proved layer by layer from types to
  trees in `Proofs/TidyExact.lean`.  With `C90_plan_survives_iff` and the characterization of reported errors (`textPlan_errs`) this says exactly which errors are
  reported of a plan that is read back; rejected declarations are among them, as they may be dropped without loss to the relations.  `C91_false_alarm` shows that the
  exceptions are needed, `C91_lost_unreported` that the converse fails.
* **C92** The default options lose the least: with C90 on both sides this is a statement about `SurvivesTop` under two options, proved in
  `Proofs/OptionsExact.lean` by carrying a small relation between options (`Keeps`: what is needed of type names, function names and literal types) through expressions,
  lines and trees; that it holds between any options without `anchors = always` and the default ones rests on names that are unambiguous without an anchor.  The same
  relation gives `C92_layout_irrelevant`.  Options that show all anchors are covered by
  `C92_default_loses_least_of_all` if no declared type has the name of a built-in one; `C92_anchors_may_save` shows why: the default text of a user-defined type that looks like a built-in one is read as the built-in type.
* **C93** Further declarations do no harm: again `SurvivesTop` on both sides, now under two stores.  `Proofs/OptionsExact.lean` carries `Keeps` between two stores as well as
  two options, and `Proofs/MoreDecls.lean` shows that it holds from a store to any sound one that extends it, because a name that becomes ambiguous is shown with its anchor.
  `C93_hidden_anchors_harmed` shows that it fails if anchors are never shown.  The converse fails too (`C93_fewer_may_harm`): a user-defined type that looks
  like a built-in one can owe its anchor in the text to another declaration of its name, and is lost when that one is taken away.
* **C94** Parts of plans that survive survive, and can be replaced: `PartOf` and `Swapped` (`Spec/Parts.lean`) are defined on trees only, without the printer or the parser.  The proofs
  go through C90: what survives is described line by line, and of the inputs of a line only their widths matter.  `C94_width_matters` is the witness that they do.
