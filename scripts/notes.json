{
 "C06": {
  "status": "partial",
  "note": "Exact: C06_export_import_iff proves it holds precisely when every declaration refers to a declared URN and no type name starts with a doubled u! marker; the failing case is proved as C06_export_import_fails."
 },
 "C11": {
  "status": "partial",
  "note": "Exact: C11_printed_resolves_iff proves for each setting of the option when the printed name resolves; with the default precisely if the name has no ':' or is declared twice. C11_colon_type_resolves_wrongly is the counterexample."
 },
 "C01": {
  "status": "partial",
  "note": "C01_string_round_trip_iff characterises exactly the strings that survive; C01_string_round_trip_fails is a string that does not (NUL)."
 },
 "C02": {
  "status": "partial",
  "note": "C02_name_round_trip_iff characterises exactly the names that survive; C02_name_round_trip_fails is a name that does not."
 },
 "C36": {
  "status": "partial",
  "note": "Exact for whole plans: C36_plan_version_iff proves it holds precisely for non-default versions whose producer and git hash have no inner line break; failing cases are proved as C36_version_fails_*."
 },
 "C49": {
  "status": "partial",
  "note": "False in general: C49_every_hazard_panics lists texts on which the parser panics. Proved instead: every panic is explained by a hazard of the text out of a closed list (C49_panics_explained_partial), and no accepted text has one (C49_accepted_without_hazard). The exact condition is C86_panics."
 },
 "C50": {
  "status": "partial",
  "note": "fails before continuation lines (C50_blank_before_dash, C50_line_end_in_string); C50_layout_partial: everywhere else, in any text"
 },
 "C12": {
  "status": "partial",
  "note": "C12_survives_iff states exactly which types survive, for all declarations and options (SurvivesTy, Spec/TypesExact.lean); the full claim is false, as C12_unsupported_kinds_unreadable, C12_map_panics, C12_prefix_name_misread and C12_list_name_misread show."
 },
 "C13": {
  "status": "partial",
  "note": "Exact for numbers that fit 32 bits (64 bits for i64); C13_int_literal_changed_iff characterises the changed ones, C13_int_literal_wraps is a witness."
 },
 "C14": {
  "status": "partial",
  "note": "Round trip for every literal with a faithful text, image of the parser characterised; exactly which literals survive under any options (C14_survives_iff, with the nulls and the untyped ones singled out); witnesses for nullable strings, nulls, type variations, integral floats and binaries."
 },
 "C18": {
  "status": "partial",
  "note": "Conversion is exact and the round trip holds; the library drops digits after the ninth (C18_tenth_digit_lost_partial) and leap seconds are accepted but not printable."
 },
 "C38": {
  "status": "proved",
  "note": "Tokens are found by an independent scanner that skips quoted text. Errors are also characterised exactly for types, literals, expressions, extension arguments and whole plans (nothing reported iff nothing missing). The order of the queue is not claimed: the model lists errors in text order, the code pushes those of absent fields earlier. C38_name_as_token shows why unquoted text is restricted."
 },
 "C20": {
  "status": "partial",
  "note": "Exactly which expressions survive, under any options, is proved (C20_survives_iff, assuming only that floats are written as numbers), so the claim is settled; it is partial because nested field references, conditionals without clauses, enum/type arguments and function options are shown to be lost. Round trip at any depth for every faithful expression; the image of the parser is characterised (C20_parser_builds_supported)."
 },
 "C45": {
  "status": "partial",
  "note": "The code violates it: C45_failed_conversion_truncates shows every failure after opening empties the output file, C45_in_place_reads_nothing that in-place conversion loses the plan. Proved instead: open failures change nothing and no other file is touched."
 },
 "C22": {
  "status": "proved",
  "note": "Both halves; for plans in PlanOk, at any depth. Expressions must have a faithful text (C20), the mapping must be in range."
 },
 "C26": {
  "status": "partial",
  "note": "Exact: C26_widths_agree_iff proves the widths agree at every node precisely when every join without an output mapping puts out as many columns as its inputs have together (registered relations reporting the columns they were built with); C26_semi_join_widths_differ is a counterexample for other joins."
 },
 "C29": {
  "status": "partial",
  "note": "Everything but one point: duplicate arguments are not reported but panic (C29_duplicate_panics)."
 },
 "C30": {
  "status": "partial",
  "note": "Join types and set operations in full; of the sort directions Clustered is printed but cannot be read (C30_clustered_unreadable)."
 },
 "C53": {
  "status": "proved",
  "note": "Conditions and, for plans in PlanOk, survival of the names."
 },
 "C41": {
  "status": "partial",
  "note": "As stated it is false, and the failing cases are proved as C41_*_misread / _unreadable. What is true is stated exactly, under every option and without conditions on the arguments: C41_value_survives_iff (single values), C41_column_survives_iff (output columns), C41_addendum_survives_iff and C41_relation_survives_iff (whole lines, read with as many named arguments as were written) say exactly which are read back from their own text; C41_survivors_injective says that no two surviving values are confused. Missing from the full statement: everything outside these sets, which is lost."
 },
 "C37": {
  "status": "partial",
  "note": "Collecting addenda is characterised exactly for every list of lines. C37_addenda_survive_iff says exactly which advanced extensions survive under any options: each payload is explained by an identifier and arguments that survive as text (C41) without columns, and is rebuilt from them. Partial because the code loses the others."
 },
 "C07": {
  "status": "partial",
  "note": "proved for every store whose declarations refer to declared URNs (grammatical names, URNs without spaces and line breaks, anchors below 2^32), alone and inside a document; a dangling URN reference is rejected and a URN with a space or a name outside the grammar panics (proved) Exact: C07_extensions_iff (the section reads back as the store precisely when the store is sound) and C07_plan_iff for whole plans."
 },
 "C25": {
  "status": "partial",
  "note": "For aggregates as in AggregateOk. Fails for a single set that begins with a cast; filters, phases and sorts of measures are dropped without an error; a measure equal to a grouping expression, unused grouping expressions that are put out and deprecated grouping fields are excluded."
 },
 "C46": {
  "status": "proved",
  "note": "For every plan in PlanOk and CompletePlan and all options under which text can be read back. What the fragment leaves out, and why, is listed in DESIGN.md; witnesses are proved for many of the exclusions."
 },
 "C47": {
  "status": "partial",
  "note": "Exact: C47_canonical_iff proves it holds precisely when producer and git hash are not blank and, if all literals get types, no limit uses a deprecated field; the failing cases are proved."
 },
 "C51": {
  "status": "proved",
  "note": "Layouts: for all texts of rows, filter and columns readable one by one. Threshold: for plans in PlanOk."
 },
 "C52": {
  "status": "proved",
  "note": "For reads of named tables with a schema that can be written; virtual tables lose the mapping (C52_virtual_mapping_lost)."
 },
 "C48": {
  "status": "partial",
  "note": "False of the code: text behind the closing bracket is ignored for every relation except a virtual table (C48_tail_ignored for every tail, C48_garbage_accepted for whole plans). Proved: every accepted line starts with a derivation, in a grammar transcribed from expression_grammar.pest as relations between trees and texts, of exactly the line that is built; other beginnings are rejected; virtual tables have no tail. Missing: an empty tail for the other relations, which the code does not require."
 },
 "C55": {
  "status": "proved",
  "note": "Soundness of the whole parser with respect to a declarative grammar (Spec/Grammar.lean, Spec/PlanLines.lean): every line of an accepted text is accounted for. The tails that C48 speaks of are part of TextSays."
 },
 "C56": {
  "status": "partial",
  "note": "The acceptance theorems hold for all three handlers, and PlanHint and BlobStoreRead round-trip for all payloads. PartitionHint round-trips exactly when its strategy numbers are known ones (C56_partition_round_trip is an equivalence); an unknown number is silently written as UNSPECIFIED (C56_unknown_strategy_lost). The protobuf encoding is a parameter that decodes the payload in question; C87 discharges this for the encoding the code uses. C56_registry_reads and C56_registry_writes say exactly which payloads the registry reads and writes, with the documented names and type URLs."
 },
 "C58": {
  "status": "proved",
  "note": "For every accepted text whose plan meets PlainPlan (Spec/Reparse.lean), the exceptions named in the statement; these also bound the number of columns by 2^31. C58_settles needs literal types shown where required, the default; C58_settles_any does not. C58_exact_iff says exactly when the plan is the same to the last field after one round, C58_second_round that it is after two. The witnesses C58_*_fails show that the exceptions are needed."
 },
 "C59": {
  "status": "partial",
  "note": "For all texts: errors of lines and relations name the line and number of the line at fault, and forgetting the contexts gives the parser of the other claims. Missing: lines before the first section header, whose number is wrong in the code (proved as C59_initial_line_number and, on a witness, C59_initial_line_fails); within a line broken over several lines the code names the first."
 },
 "C60": {
  "status": "proved",
  "note": "Every printer is followed with the set of error names it can report. Panics of the printer other than the date arithmetic were ruled out by reading src/textify (an assertion on two children, unwraps of constants); handlers are assumed not to panic, and recursion depth is not modelled. For plans the theorem is one-directional: a column dropped by a mapping is not written, so its date does no harm."
 },
 "C61": {
  "status": "proved",
  "note": "PlanEquiv is symmetric and transitive; with C46 plans of one text are equivalent, whatever the options. The converse needs literal types only where required and version texts that are not white space only (C47 has the counterexamples). Plans that cannot be written are outside: see PlanOk."
 },
 "C62": {
  "status": "proved",
  "note": "C62_text for reading, C62_writing and C62_written_text for formatting; C62_related_matters shows that the condition on names is needed. Formatting: only parts written without an error are claimed to stay (a failed reference may become a declared one)."
 },
 "C63": {
  "status": "proved",
  "note": "C63_text is an equivalence on whole texts, C63_written the formatting side; C63_cut_inside_fails shows that the cut must not be inside a relation."
 },
 "C64": {
  "status": "proved",
  "note": "Writing: fixed lines and errors per relation, moved in by the depth; compositional over the inputs."
 },
 "C65": {
  "status": "proved",
  "note": "The listed content is invisible to every printer; C46 and C61 for what is kept; binary literals separately, hidden by default and determined by the verbose text; witness that a read filter and an inner field are lost without an error."
 },
 "C66": {
  "status": "proved",
  "note": "the other formats are parameters; that they read what they write is a hypothesis of C66_by_way_of only"
 },
 "C67": {
  "status": "partial",
  "note": "Proved for plans whose copied strings (Spec/Raw.lean), indentation and float spellings contain no line end; that no line is taken away is proved for every plan (C67_no_line_taken). The full claim is false in the code: C67_injected is a plan with one relation that is written without an error and read back as two."
 },
 "C68": {
  "status": "proved",
  "note": "Renumbering is defined on the whole plan; the text depends on anchors only through the names they show."
 },
 "C69": {
  "status": "partial",
  "note": "The claim is false: reading nested types named list or functions named if_then, and rejecting unfinished if_then texts, tries the rule exponentially often (exact counts proved for every depth; no polynomial bounds the attempts). Proved instead: the counting rules match like the parser; bounds exponential only in the number of opening brackets; linear bounds for types that do not reuse the names of compound types and for tuples after pest shares their common beginning."
 },
 "C70": {
  "status": "proved",
  "note": "Byte-offset versions of the cursor, IndentedLine, next_chunk and CompoundName with panicking slices, proved equal to the models over characters for every text; pest's own offsets are not modelled."
 },
 "C71": {
  "status": "proved",
  "note": "PlanImage is a predicate on the message alone (Spec/Image.lean); extension payloads are only said to come from a handler of the registry."
 },
 "C72": {
  "status": "proved",
  "note": "Equivalences for dates, times of day and timestamps; the scanner of chrono itself is modelled, not read from /repo."
 },
 "C73": {
  "status": "proved",
  "note": "For all decoders and readers as parameters; that a larger descriptor pool reads what a smaller one reads is a hypothesis about the library."
 },
 "C74": {
  "status": "proved",
  "note": "For all plans and options that agree on show_emit; C74_hidden_column shows that this condition is needed."
 },
 "C75": {
  "status": "proved",
  "note": "For whole texts and whole plans, over any history of registrations and any continuation."
 },
 "C76": {
  "status": "proved",
  "note": "For every type with an encoding that can be decoded; the conditions on names and arguments are those of C41 (identifiers, ArgsOk)."
 },
 "C77": {
  "status": "proved",
  "note": "Equivalences for every text."
 },
 "C78": {
  "status": "proved",
  "note": "Line level for all texts; plan level for texts that agree up to the plan header. Version and extension sections are not included in the claim."
 },
 "C79": {
  "status": "proved",
  "note": "For every text, list of declarations and permutation. Texts without relations are decided exactly (accepted with the declared content, or refused at a line of the extensions section); the order of declarations is proved irrelevant for reading any text and for writing any plan that loads without errors, as long as URNs precede their uses, which the code requires."
 },
 "C80": {
  "status": "partial",
  "note": "The claim is false: C80_unchecked shows that reading does not depend on the numbers of column references at all, C80_expression_silent that formatting does not report them inside expressions; C80_mappings_partial proves the one check that exists."
 },
 "C81": {
  "status": "proved",
  "note": "Conversion of a line is a function of the line, its addenda and the widths of its inputs (C81_read); errors of inputs come first (C81_first_failure); exchange of parts at any depth (C81_exchange, C81_plan_exchange). Stated on the trees that the lines of a text form (C33, C55), not on texts."
 },
 "C82": {
  "status": "partial",
  "note": "Messages of reference errors and contexts are injective; those of declaration errors only if names and URNs have no space (C82_insert_distinct_partial); C82_insert_spaces_fail is the counterexample, C82_insert_told what holds always."
 },
 "C83": {
  "status": "proved",
  "note": "all 116 rules of the grammar file, as data under the meaning of parsing expression grammars, agree with the model's recognisers on every text; outcomes are unique and always exist; lines, declarations and durations"
 },
 "C84": {
  "status": "proved",
  "note": "For every piece of syntax and all declarations: types, literals, expressions, extension arguments, lines and trees of lines are converted to a value exactly if they mean it (Spec/Meaning.lean); meanings are unique; every accepted text is made of the meanings of its lines."
 },
 "C85": {
  "status": "proved",
  "note": "C85_accepted: parsePlan reg text = ok p iff the text is made of the documented parts, its declarations are sound, its lines list a forest whose trees mean the relations of p (C84), and p records exactly the declarations in anchor order."
 },
 "C86": {
  "status": "proved",
  "note": "Equivalences for types, expressions, trees and whole texts; with C85 the outcome (plan, error, panic) of every text is settled. Stack or memory exhaustion is not modelled."
 },
 "C87": {
  "status": "proved",
  "note": "The encoding is that of prost as documented, driven by the attributes in examples.rs; lengths are below 2^64 as for every vector. Unknown fields nest up to 100 deep, as prost's recursion limit requires. The C87_*_decoded_iff theorems say for all bytes whether they are decoded and to what."
 },
 "C88": {
  "status": "proved",
  "note": "Equivalences for named reads, virtual reads, filter, project, sort, fetch, join, set and cross lines; for aggregates only survival is proved (C25). Except for reads, show_emit is assumed off and the widths at most 2^31 columns; virtual reads assume the indentation of two spaces; no addenda."
 },
 "C89": {
  "status": "proved",
  "note": "Equivalence at the level of lines: each header is given to the grammar, the tree of lines to build_rel. Aggregates, extension relations and addenda are left out; show_emit off, indentation of two spaces, at most 2^31 columns."
 },
 "C90": {
  "status": "proved",
  "note": "Equivalence for whole texts, virtual tables on one line or several. Aggregates, extension relations and addenda are left out; declarations and version as in C07 and C36, no line end in copied texts (C67)."
 },
 "C91": {
  "status": "proved",
  "note": "For the plans C90 describes. C91_reported_exactly says which errors are reported of a plan that is read back; C91_false_alarm and C91_lost_unreported are witnesses that the exceptions are needed and that the converse fails."
 },
 "C92": {
  "status": "proved",
  "note": "For the plans C90 describes. With all anchors shown, declared types must not have the name of a built-in type with parameters; C92_anchors_may_save is the witness that this is needed."
 },
 "C93": {
  "status": "proved",
  "note": "C93_more_declarations_harmless is the claim; C93_hidden_anchors_harmed is the witness that hidden anchors have to be excluded, C93_fewer_may_harm the witness that unused declarations cannot be taken away."
 },
 "C94": {
  "status": "proved",
  "note": "For the plans C90 describes. C94_parts_replaced is an equivalence; C94_width_matters shows that its condition on the number of columns is needed."
 }
}
