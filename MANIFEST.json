{
 "claims": [
  {
   "property": "C01",
   "status": "partial",
   "theorems": [
    "Verif.C01_string_round_trip_iff",
    "Verif.C01_string_round_trip_partial",
    "Verif.C01_string_round_trip_fails"
   ],
   "note": "C01_string_round_trip_iff characterises exactly the strings that survive; C01_string_round_trip_fails is a string that does not (NUL)."
  },
  {
   "property": "C02",
   "status": "partial",
   "theorems": [
    "Verif.C02_name_round_trip_iff",
    "Verif.C02_name_round_trip_partial",
    "Verif.C02_empty_name",
    "Verif.C02_name_round_trip_fails",
    "Verif.C02_names_distinct"
   ],
   "note": "C02_name_round_trip_iff characterises exactly the names that survive; C02_name_round_trip_fails is a name that does not."
  },
  {
   "property": "C03",
   "status": "proved",
   "theorems": [
    "Verif.C03_integer_round_trip",
    "Verif.C03_conversion_exact"
   ],
   "note": ""
  },
  {
   "property": "C04",
   "status": "proved",
   "theorems": [
    "Verif.C04_lookup_first_wins",
    "Verif.C04_declarations_persist",
    "Verif.C04_rejected_calls_change_nothing"
   ],
   "note": ""
  },
  {
   "property": "C05",
   "status": "proved",
   "theorems": [
    "Verif.C05_load_reports_answers",
    "Verif.C05_load_clean_iff",
    "Verif.C05_urns_clean_iff_distinct"
   ],
   "note": ""
  },
  {
   "property": "C06",
   "status": "partial",
   "theorems": [
    "Verif.C06_loadUrns_sorted",
    "Verif.C06_loadDecls_sorted",
    "Verif.C06_export_import_partial",
    "Verif.C06_export_import_iff",
    "Verif.C06_export_sorted",
    "Verif.C06_export_canonical",
    "Verif.C06_export_import_fails"
   ],
   "note": "Exact: C06_export_import_iff proves it holds precisely when every declaration refers to a declared URN and no type name starts with a doubled u! marker; the failing case is proved as C06_export_import_fails."
  },
  {
   "property": "C07",
   "status": "partial",
   "theorems": [
    "Verif.C07_extensions_iff",
    "Verif.C07_read_again",
    "Verif.C07_plan_iff",
    "Verif.C07_extensions_round_trip_partial",
    "Verif.C07_extensions_in_context_partial",
    "Verif.C07_dangling_rejected",
    "Verif.C07_space_panics",
    "Verif.C07_name_panics"
   ],
   "note": "proved for every store whose declarations refer to declared URNs (grammatical names, URNs without spaces and line breaks, anchors below 2^32), alone and inside a document; a dangling URN reference is rejected and a URN with a space or a name outside the grammar panics (proved) Exact: C07_extensions_iff (the section reads back as the store precisely when the store is sound) and C07_plan_iff for whole plans."
  },
  {
   "property": "C08",
   "status": "proved",
   "theorems": [
    "Verif.C08_type_marker_ignored",
    "Verif.C08_marker_refused"
   ],
   "note": ""
  },
  {
   "property": "C09",
   "status": "proved",
   "theorems": [
    "Verif.C09_printed_function_resolves",
    "Verif.C09_never_visibility_safe",
    "Verif.C09_function_text"
   ],
   "note": ""
  },
  {
   "property": "C10",
   "status": "proved",
   "theorems": [
    "Verif.C10_hidden_resolves_iff",
    "Verif.C10_resolution_exact",
    "Verif.C10_ambiguous_is_error",
    "Verif.C10_refusal_exact"
   ],
   "note": ""
  },
  {
   "property": "C11",
   "status": "partial",
   "theorems": [
    "Verif.C11_printed_resolves_iff",
    "Verif.C11_printed_type_resolves_partial",
    "Verif.C11_resolution_exact",
    "Verif.C11_refusal_exact",
    "Verif.C11_colon_type_resolves_wrongly",
    "Verif.C11_reference_text"
   ],
   "note": "Exact: C11_printed_resolves_iff proves for each setting of the option when the printed name resolves; with the default precisely if the name has no ':' or is declared twice. C11_colon_type_resolves_wrongly is the counterexample."
  },
  {
   "property": "C12",
   "status": "partial",
   "theorems": [
    "Verif.C12_type_round_trip_partial",
    "Verif.C12_type_text_injective",
    "Verif.C12_parser_builds_supported",
    "Verif.C12_unsupported_kinds_unreadable",
    "Verif.C12_map_panics",
    "Verif.C12_prefix_name_misread",
    "Verif.C12_list_name_misread",
    "Verif.C12_written_form",
    "Verif.C12_user_written",
    "Verif.C12_survives_iff",
    "Verif.C12_survives_whole"
   ],
   "note": "C12_survives_iff states exactly which types survive, for all declarations and options (SurvivesTy, Spec/TypesExact.lean); the full claim is false, as C12_unsupported_kinds_unreadable, C12_map_panics, C12_prefix_name_misread and C12_list_name_misread show."
  },
  {
   "property": "C13",
   "status": "partial",
   "theorems": [
    "Verif.C13_int_literal_exact_partial",
    "Verif.C13_int_literal_untyped",
    "Verif.C13_int_literal_changed_iff",
    "Verif.C13_int_literal_wraps",
    "Verif.C13_narrow_range_unchecked",
    "Verif.C13_overflow_panics"
   ],
   "note": "Exact for numbers that fit 32 bits (64 bits for i64); C13_int_literal_changed_iff characterises the changed ones, C13_int_literal_wraps is a witness."
  },
  {
   "property": "C14",
   "status": "partial",
   "theorems": [
    "Verif.C14_literal_round_trip_partial",
    "Verif.C14_parser_builds",
    "Verif.C14_nullable_string_lost",
    "Verif.C14_nullable_string_witness",
    "Verif.C14_null_text",
    "Verif.C14_null_flag_lost",
    "Verif.C14_variation_lost",
    "Verif.C14_string_ascription_ignored",
    "Verif.C14_integral_float_misread",
    "Verif.C14_binary_unreadable",
    "Verif.C14_survives_iff",
    "Verif.C14_null_survives_iff",
    "Verif.C14_untyped_survives_iff"
   ],
   "note": "Round trip for every literal with a faithful text, image of the parser characterised; exactly which literals survive under any options (C14_survives_iff, with the nulls and the untyped ones singled out); witnesses for nullable strings, nulls, type variations, integral floats and binaries."
  },
  {
   "property": "C15",
   "status": "proved",
   "theorems": [
    "Verif.C15_interval_round_trip",
    "Verif.C15_deprecated_modes_normalise",
    "Verif.C15_interval_errors_iff"
   ],
   "note": ""
  },
  {
   "property": "C16",
   "status": "proved",
   "theorems": [
    "Verif.C16_interval_text_exact",
    "Verif.C16_interval_no_panic"
   ],
   "note": ""
  },
  {
   "property": "C17",
   "status": "proved",
   "theorems": [
    "Verif.C17_units_inverse",
    "Verif.C17_suffix_inverse",
    "Verif.C17_supported"
   ],
   "note": ""
  },
  {
   "property": "C18",
   "status": "partial",
   "theorems": [
    "Verif.C18_timestamp_exact",
    "Verif.C18_time_exact",
    "Verif.C18_timestamp_round_trip",
    "Verif.C18_time_round_trip",
    "Verif.C18_loss_refused",
    "Verif.C18_tenth_digit_lost_partial",
    "Verif.C18_leap_second_not_printable"
   ],
   "note": "Conversion is exact and the round trip holds; the library drops digits after the ninth (C18_tenth_digit_lost_partial) and leap seconds are accepted but not printable."
  },
  {
   "property": "C19",
   "status": "proved",
   "theorems": [
    "Verif.C19_date_round_trip",
    "Verif.C19_date_calendar",
    "Verif.C19_date_panics_iff",
    "Verif.C19_date_literal_round_trip",
    "Verif.C19_date_spelling"
   ],
   "note": ""
  },
  {
   "property": "C20",
   "status": "partial",
   "theorems": [
    "Verif.C20_expression_round_trip_partial",
    "Verif.C20_expression_text_injective",
    "Verif.C20_parser_builds_supported",
    "Verif.C20_nested_field_lost",
    "Verif.C20_unsupported_unreadable",
    "Verif.C20_no_clauses_unreadable",
    "Verif.C20_other_arguments_unreadable",
    "Verif.C20_type_argument_misread",
    "Verif.C20_survives_iff",
    "Verif.C20_survivors_injective"
   ],
   "note": "Exactly which expressions survive, under any options, is proved (C20_survives_iff, assuming only that floats are written as numbers), so the claim is settled; it is partial because nested field references, conditionals without clauses, enum/type arguments and function options are shown to be lost. Round trip at any depth for every faithful expression; the image of the parser is characterised (C20_parser_builds_supported)."
  },
  {
   "property": "C21",
   "status": "proved",
   "theorems": [
    "Verif.C21_outputs_as_written"
   ],
   "note": ""
  },
  {
   "property": "C22",
   "status": "proved",
   "theorems": [
    "Verif.C22_project_round_trip",
    "Verif.C22_project_items_partial"
   ],
   "note": "Both halves; for plans in PlanOk, at any depth. Expressions must have a faithful text (C20), the mapping must be in range."
  },
  {
   "property": "C23",
   "status": "proved",
   "theorems": [
    "Verif.C23_grouping_sets"
   ],
   "note": ""
  },
  {
   "property": "C24",
   "status": "proved",
   "theorems": [
    "Verif.C24_aggregate_outputs",
    "Verif.C24_other_items_rejected"
   ],
   "note": ""
  },
  {
   "property": "C25",
   "status": "partial",
   "theorems": [
    "Verif.C25_aggregate_round_trip_partial",
    "Verif.C25_cast_rejected",
    "Verif.C25_measure_filter_dropped"
   ],
   "note": "For aggregates as in AggregateOk. Fails for a single set that begins with a cast; filters, phases and sorts of measures are dropped without an error; a measure equal to a grouping expression, unused grouping expressions that are put out and deprecated grouping fields are excluded."
  },
  {
   "property": "C26",
   "status": "partial",
   "theorems": [
    "Verif.C26_widths_agree_partial",
    "Verif.C26_semi_join_widths_differ",
    "Verif.C26_widths_agree_iff",
    "Verif.C26_semi_join_iff"
   ],
   "note": "Exact: C26_widths_agree_iff proves the widths agree at every node precisely when every join without an output mapping puts out as many columns as its inputs have together (registered relations reporting the columns they were built with); C26_semi_join_widths_differ is a counterexample for other joins."
  },
  {
   "property": "C27",
   "status": "proved",
   "theorems": [
    "Verif.C27_set_widths",
    "Verif.C27_set_rejects"
   ],
   "note": ""
  },
  {
   "property": "C28",
   "status": "proved",
   "theorems": [
    "Verif.C28_arity",
    "Verif.C28_plan_arity",
    "Verif.C28_wrong_count_is_error"
   ],
   "note": ""
  },
  {
   "property": "C29",
   "status": "partial",
   "theorems": [
    "Verif.C29_fetch_order",
    "Verif.C29_fetch_accepted",
    "Verif.C29_bad_counts_rejected",
    "Verif.C29_duplicate_panics"
   ],
   "note": "Everything but one point: duplicate arguments are not reported but panic (C29_duplicate_panics)."
  },
  {
   "property": "C30",
   "status": "partial",
   "theorems": [
    "Verif.C30_join_types",
    "Verif.C30_set_operations",
    "Verif.C30_sort_directions_partial",
    "Verif.C30_clustered_unreadable"
   ],
   "note": "Join types and set operations in full; of the sort directions Clustered is printed but cannot be read (C30_clustered_unreadable)."
  },
  {
   "property": "C31",
   "status": "proved",
   "theorems": [
    "Verif.C31_chunks_partition",
    "Verif.C31_merge_assertion"
   ],
   "note": ""
  },
  {
   "property": "C32",
   "status": "proved",
   "theorems": [
    "Verif.C32_plan_chunk",
    "Verif.C32_other_chunk",
    "Verif.C32_driver"
   ],
   "note": ""
  },
  {
   "property": "C33",
   "status": "proved",
   "theorems": [
    "Verif.C33_build_iff_listing",
    "Verif.C33_listing_injective"
   ],
   "note": ""
  },
  {
   "property": "C34",
   "status": "proved",
   "theorems": [
    "Verif.C34_accepts_iff_may_follow",
    "Verif.C34_addendum_in_place"
   ],
   "note": ""
  },
  {
   "property": "C35",
   "status": "proved",
   "theorems": [
    "Verif.C35_section_order",
    "Verif.C35_nothing_before_first_header"
   ],
   "note": ""
  },
  {
   "property": "C36",
   "status": "partial",
   "theorems": [
    "Verif.C36_plan_version_iff",
    "Verif.C36_version_round_trip_partial",
    "Verif.C36_version_accepted",
    "Verif.C36_version_fails_newline",
    "Verif.C36_version_fails_injection",
    "Verif.C36_version_fails_default",
    "Verif.C36_header_exact"
   ],
   "note": "Exact for whole plans: C36_plan_version_iff proves it holds precisely for non-default versions whose producer and git hash have no inner line break; failing cases are proved as C36_version_fails_*."
  },
  {
   "property": "C37",
   "status": "partial",
   "theorems": [
    "Verif.C37_addenda_collected",
    "Verif.C37_extension_table",
    "Verif.C37_extension_table_only_on_read",
    "Verif.C37_printed_addenda_read_back_partial",
    "Verif.C37_addenda_survive_iff"
   ],
   "note": "Collecting addenda is characterised exactly for every list of lines. C37_addenda_survive_iff says exactly which advanced extensions survive under any options: each payload is explained by an identifier and arguments that survive as text (C41) without columns, and is rebuilt from them. Partial because the code loses the others."
  },
  {
   "property": "C38",
   "status": "proved",
   "theorems": [
    "Verif.C38_expression_errors",
    "Verif.C38_extension_arguments_errors",
    "Verif.C38_literal_errors_exact",
    "Verif.C38_plan_errors",
    "Verif.C38_tokens_reported",
    "Verif.C38_no_silent_tokens",
    "Verif.C38_name_as_token",
    "Verif.C38_type_errors_exact"
   ],
   "note": "Tokens are found by an independent scanner that skips quoted text. Errors are also characterised exactly for types, literals, expressions, extension arguments and whole plans (nothing reported iff nothing missing). The order of the queue is not claimed: the model lists errors in text order, the code pushes those of absent fields earlier. C38_name_as_token shows why unquoted text is restricted."
  },
  {
   "property": "C39",
   "status": "proved",
   "theorems": [
    "Verif.C39_handlers_are_accepted",
    "Verif.C39_urls_are_accepted",
    "Verif.C39_accepted_apart",
    "Verif.C39_registration_exact",
    "Verif.C39_names",
    "Verif.C39_namespaces_independent"
   ],
   "note": ""
  },
  {
   "property": "C40",
   "status": "proved",
   "theorems": [
    "Verif.C40_unread_arguments_rejected",
    "Verif.C40_order_irrelevant",
    "Verif.C40_error_names_unread"
   ],
   "note": ""
  },
  {
   "property": "C41",
   "status": "partial",
   "theorems": [
    "Verif.C41_value_round_trip_partial",
    "Verif.C41_relation_line_round_trip_partial",
    "Verif.C41_addendum_round_trip_partial",
    "Verif.C41_value_text_injective",
    "Verif.C41_one_element_tuple_comma",
    "Verif.C41_literal_expression_misread",
    "Verif.C41_whole_float_misread",
    "Verif.C41_value_word_name_unreadable",
    "Verif.C41_raw_names_unreadable",
    "Verif.C41_literal_column_misread",
    "Verif.C41_value_survives_iff",
    "Verif.C41_survivors_injective",
    "Verif.C41_column_survives_iff",
    "Verif.C41_addendum_survives_iff",
    "Verif.C41_relation_survives_iff"
   ],
   "note": "As stated it is false, and the failing cases are proved as C41_*_misread / _unreadable. What is true is stated exactly, under every option and without conditions on the arguments: C41_value_survives_iff (single values), C41_column_survives_iff (output columns), C41_addendum_survives_iff and C41_relation_survives_iff (whole lines, read with as many named arguments as were written) say exactly which are read back from their own text; C41_survivors_injective says that no two surviving values are confused. Missing from the full statement: everything outside these sets, which is lost."
  },
  {
   "property": "C42",
   "status": "proved",
   "theorems": [
    "Verif.C42_columns_round_trip",
    "Verif.C42_named_columns_convert",
    "Verif.C42_schema_round_trip",
    "Verif.C42_mismatch_rejected"
   ],
   "note": ""
  },
  {
   "property": "C43",
   "status": "proved",
   "theorems": [
    "Verif.C43_merge_keeps_first",
    "Verif.C43_first_files",
    "Verif.C43_core_kept"
   ],
   "note": ""
  },
  {
   "property": "C44",
   "status": "proved",
   "theorems": [
    "Verif.C44_success_exact",
    "Verif.C44_text_written_despite_errors",
    "Verif.C44_explicit_format_decides",
    "Verif.C44_extension_detected",
    "Verif.C44_format_named"
   ],
   "note": ""
  },
  {
   "property": "C45",
   "status": "partial",
   "theorems": [
    "Verif.C45_failed_conversion_truncates",
    "Verif.C45_old_result_lost",
    "Verif.C45_in_place_reads_nothing",
    "Verif.C45_open_failure_partial",
    "Verif.C45_other_files_untouched_partial"
   ],
   "note": "The code violates it: C45_failed_conversion_truncates shows every failure after opening empties the output file, C45_in_place_reads_nothing that in-place conversion loses the plan. Proved instead: open failures change nothing and no other file is touched."
  },
  {
   "property": "C46",
   "status": "proved",
   "theorems": [
    "Verif.C46_plan_round_trip",
    "Verif.C46_round_trip_tidy"
   ],
   "note": "For every plan in PlanOk and CompletePlan and all options under which text can be read back. What the fragment leaves out, and why, is listed in DESIGN.md; witnesses are proved for many of the exclusions."
  },
  {
   "property": "C47",
   "status": "partial",
   "theorems": [
    "Verif.C47_canonical_iff",
    "Verif.C47_canonical_partial",
    "Verif.C47_blank_producer_fails",
    "Verif.C47_verbose_limit_fails"
   ],
   "note": "Exact: C47_canonical_iff proves it holds precisely when producer and git hash are not blank and, if all literals get types, no limit uses a deprecated field; the failing cases are proved."
  },
  {
   "property": "C48",
   "status": "partial",
   "theorems": [
    "Verif.C48_line_spelled_partial",
    "Verif.C48_tail_ignored",
    "Verif.C48_unknown_rejected",
    "Verif.C48_garbage_accepted"
   ],
   "note": "False of the code: text behind the closing bracket is ignored for every relation except a virtual table (C48_tail_ignored for every tail, C48_garbage_accepted for whole plans). Proved: every accepted line starts with a derivation, in a grammar transcribed from expression_grammar.pest as relations between trees and texts, of exactly the line that is built; other beginnings are rejected; virtual tables have no tail. Missing: an empty tail for the other relations, which the code does not require."
  },
  {
   "property": "C49",
   "status": "partial",
   "theorems": [
    "Verif.C49_clause_error_panics",
    "Verif.C49_reference_panics",
    "Verif.C49_panics_explained_partial",
    "Verif.C49_accepted_without_hazard",
    "Verif.C49_declarations_read_whole",
    "Verif.C49_every_hazard_panics",
    "Verif.C49_structure_never_panics_partial"
   ],
   "note": "False in general: C49_every_hazard_panics lists texts on which the parser panics. Proved instead: every panic is explained by a hazard of the text out of a closed list (C49_panics_explained_partial), and no accepted text has one (C49_accepted_without_hazard). The exact condition is C86_panics."
  },
  {
   "property": "C50",
   "status": "partial",
   "theorems": [
    "Verif.C50_layout_partial",
    "Verif.C50_plan_layout_partial",
    "Verif.C50_blank_line_anywhere_partial",
    "Verif.C50_line_end_anywhere_partial",
    "Verif.C50_line_end_in_string",
    "Verif.C50_blank_before_dash",
    "Verif.C50_layout_insensitive_partial",
    "Verif.C50_crlf_partial",
    "Verif.C50_blank_line_partial"
   ],
   "note": "fails before continuation lines (C50_blank_before_dash, C50_line_end_in_string); C50_layout_partial: everywhere else, in any text"
  },
  {
   "property": "C51",
   "status": "proved",
   "theorems": [
    "Verif.C51_layouts_read_alike",
    "Verif.C51_threshold_keeps_meaning"
   ],
   "note": "Layouts: for all texts of rows, filter and columns readable one by one. Threshold: for plans in PlanOk."
  },
  {
   "property": "C52",
   "status": "proved",
   "theorems": [
    "Verif.C52_read_round_trip",
    "Verif.C52_virtual_mapping_lost"
   ],
   "note": "For reads of named tables with a schema that can be written; virtual tables lose the mapping (C52_virtual_mapping_lost)."
  },
  {
   "property": "C53",
   "status": "proved",
   "theorems": [
    "Verif.C53_names_round_trip",
    "Verif.C53_root_conditions"
   ],
   "note": "Conditions and, for plans in PlanOk, survival of the names."
  },
  {
   "property": "C54",
   "status": "proved",
   "theorems": [
    "Verif.C54_repeated_names"
   ],
   "note": ""
  },
  {
   "property": "C55",
   "status": "proved",
   "theorems": [
    "Verif.C55_plan_is_text"
   ],
   "note": "Soundness of the whole parser with respect to a declarative grammar (Spec/Grammar.lean, Spec/PlanLines.lean): every line of an accepted text is accounted for. The tails that C48 speaks of are part of TextSays."
  },
  {
   "property": "C56",
   "status": "partial",
   "theorems": [
    "Verif.C56_registry_reads",
    "Verif.C56_registry_writes",
    "Verif.C56_partition_accepts",
    "Verif.C56_plan_hint_accepts",
    "Verif.C56_blob_read_accepts",
    "Verif.C56_partition_round_trip",
    "Verif.C56_unknown_strategy_lost",
    "Verif.C56_plan_hint_round_trip",
    "Verif.C56_blob_read_round_trip",
    "Verif.C56_accepted_stable",
    "Verif.C56_only_own_payloads",
    "Verif.C56_registry_built",
    "Verif.C56_payloads_have_text",
    "Verif.C56_plan_round_trip"
   ],
   "note": "The acceptance theorems hold for all three handlers, and PlanHint and BlobStoreRead round-trip for all payloads. PartitionHint round-trips exactly when its strategy numbers are known ones (C56_partition_round_trip is an equivalence); an unknown number is silently written as UNSPECIFIED (C56_unknown_strategy_lost). The protobuf encoding is a parameter that decodes the payload in question; C87 discharges this for the encoding the code uses. C56_registry_reads and C56_registry_writes say exactly which payloads the registry reads and writes, with the documented names and type URLs."
  },
  {
   "property": "C57",
   "status": "proved",
   "theorems": [
    "Verif.C57_expression_reaches_handler",
    "Verif.C57_scalar_is_expression",
    "Verif.C57_scalar_kinds_apart",
    "Verif.C57_reference_is_direct",
    "Verif.C57_vector_round_trip",
    "Verif.C57_tuple_element_rejected"
   ],
   "note": ""
  },
  {
   "property": "C58",
   "status": "proved",
   "theorems": [
    "Verif.C58_settles_any",
    "Verif.C58_second_round",
    "Verif.C58_exact_iff",
    "Verif.C58_exact_fails",
    "Verif.C58_reparse",
    "Verif.C58_settles",
    "Verif.C58_no_errors",
    "Verif.C58_sample_text",
    "Verif.C58_empty_sort_fails",
    "Verif.C58_cast_group_fails",
    "Verif.C58_semi_join_fails",
    "Verif.C58_reported_fails",
    "Verif.C58_untidy_reported"
   ],
   "note": "For every accepted text whose plan meets PlainPlan (Spec/Reparse.lean), the exceptions named in the statement; these also bound the number of columns by 2^31. C58_settles needs literal types shown where required, the default; C58_settles_any does not. C58_exact_iff says exactly when the plan is the same to the last field after one round, C58_second_round that it is after two. The witnesses C58_*_fails show that the exceptions are needed."
  },
  {
   "property": "C59",
   "status": "partial",
   "theorems": [
    "Verif.C59_same_parser",
    "Verif.C59_line_error_partial",
    "Verif.C59_initial_line_number",
    "Verif.C59_relation_error",
    "Verif.C59_line_sample",
    "Verif.C59_relation_sample",
    "Verif.C59_addendum_sample",
    "Verif.C59_initial_line_fails"
   ],
   "note": "For all texts: errors of lines and relations name the line and number of the line at fault, and forgetting the contexts gives the parser of the other claims. Missing: lines before the first section header, whose number is wrong in the code (proved as C59_initial_line_number and, on a witness, C59_initial_line_fails); within a line broken over several lines the code names the first."
  },
  {
   "property": "C60",
   "status": "proved",
   "theorems": [
    "Verif.C60_days",
    "Verif.C60_expression_panics_iff",
    "Verif.C60_error_names",
    "Verif.C60_panics_only_on_dates",
    "Verif.C60_no_panic_after_parse",
    "Verif.C60_last_day"
   ],
   "note": "Every printer is followed with the set of error names it can report. Panics of the printer other than the date arithmetic were ruled out by reading src/textify (an assertion on two children, unwraps of constants); handlers are assumed not to panic, and recursion depth is not modelled. For plans the theorem is one-directional: a column dropped by a mapping is not written, so its date does no harm."
  },
  {
   "property": "C61",
   "status": "proved",
   "theorems": [
    "Verif.C61_text_determines_plan",
    "Verif.C61_same_text_iff",
    "Verif.C61_options_agree",
    "Verif.C61_equivalence",
    "Verif.C61_reflexive",
    "Verif.C61_same_width"
   ],
   "note": "PlanEquiv is symmetric and transitive; with C46 plans of one text are equivalent, whatever the options. The converse needs literal types only where required and version texts that are not white space only (C47 has the counterexamples). Plans that cannot be written are outside: see PlanOk."
  },
  {
   "property": "C62",
   "status": "proved",
   "theorems": [
    "Verif.C62_text",
    "Verif.C62_writing",
    "Verif.C62_written_text",
    "Verif.C62_related_matters"
   ],
   "note": "C62_text for reading, C62_writing and C62_written_text for formatting; C62_related_matters shows that the condition on names is needed. Formatting: only parts written without an error are claimed to stay (a failed reference may become a declared one)."
  },
  {
   "property": "C63",
   "status": "proved",
   "theorems": [
    "Verif.C63_text",
    "Verif.C63_same_start",
    "Verif.C63_written",
    "Verif.C63_cut_inside_fails"
   ],
   "note": "C63_text is an equivalence on whole texts, C63_written the formatting side; C63_cut_inside_fails shows that the cut must not be inside a relation."
  },
  {
   "property": "C64",
   "status": "proved",
   "theorems": [
    "Verif.C64_written",
    "Verif.C64_below_root"
   ],
   "note": "Writing: fixed lines and errors per relation, moved in by the depth; compositional over the inputs."
  },
  {
   "property": "C65",
   "status": "proved",
   "theorems": [
    "Verif.C65_read_kept",
    "Verif.C65_text",
    "Verif.C65_read_back",
    "Verif.C65_nothing_else",
    "Verif.C65_written_kept",
    "Verif.C65_kept_once",
    "Verif.C65_hidden_bytes",
    "Verif.C65_bytes_text",
    "Verif.C65_verbose_bytes",
    "Verif.C65_bytes_unreadable",
    "Verif.C65_loses_filter_and_field"
   ],
   "note": "The listed content is invisible to every printer; C46 and C61 for what is kept; binary literals separately, hidden by default and determined by the verbose text; witness that a read filter and an inner field are lost without an error."
  },
  {
   "property": "C66",
   "status": "proved",
   "theorems": [
    "Verif.C66_text_input",
    "Verif.C66_text_settles",
    "Verif.C66_by_way_of",
    "Verif.C66_text_between"
   ],
   "note": "the other formats are parameters; that they read what they write is a hypothesis of C66_by_way_of only"
  },
  {
   "property": "C67",
   "status": "partial",
   "theorems": [
    "Verif.C67_lines_partial",
    "Verif.C67_relation_lines_partial",
    "Verif.C67_no_line_taken",
    "Verif.C67_no_relation_line_taken",
    "Verif.C67_virtual_table_lines_partial",
    "Verif.C67_injected"
   ],
   "note": "Proved for plans whose copied strings (Spec/Raw.lean), indentation and float spellings contain no line end; that no line is taken away is proved for every plan (C67_no_line_taken). The full claim is false in the code: C67_injected is a plan with one relation that is written without an error and read back as two."
  },
  {
   "property": "C68",
   "status": "proved",
   "theorems": [
    "Verif.C68_relations",
    "Verif.C68_written_text",
    "Verif.C68_declarations",
    "Verif.C68_shown_anchors_differ"
   ],
   "note": "Renumbering is defined on the whole plan; the text depends on anchors only through the names they show."
  },
  {
   "property": "C69",
   "status": "partial",
   "theorems": [
    "Verif.C69_same_parser",
    "Verif.C69_type_attempts_partial",
    "Verif.C69_expr_attempts_partial",
    "Verif.C69_arg_attempts_partial",
    "Verif.C69_type_linear",
    "Verif.C69_type_rejected",
    "Verif.C69_arg_linear",
    "Verif.C69_type_exponential",
    "Verif.C69_expr_exponential",
    "Verif.C69_rejected_exponential",
    "Verif.C69_arg_as_written",
    "Verif.C69_no_polynomial_bound"
   ],
   "note": "The claim is false: reading nested types named list or functions named if_then, and rejecting unfinished if_then texts, tries the rule exponentially often (exact counts proved for every depth; no polynomial bounds the attempts). Proved instead: the counting rules match like the parser; bounds exponential only in the number of opening brackets; linear bounds for types that do not reuse the names of compound types and for tuples after pest shares their common beginning."
  },
  {
   "property": "C70",
   "status": "proved",
   "theorems": [
    "Verif.C70_slice",
    "Verif.C70_find",
    "Verif.C70_indentation",
    "Verif.C70_plan_chunk",
    "Verif.C70_other_chunk",
    "Verif.C70_same_sections",
    "Verif.C70_same_parse",
    "Verif.C70_compound_name",
    "Verif.C70_base_name"
   ],
   "note": "Byte-offset versions of the cursor, IndentedLine, next_chunk and CompoundName with panicking slices, proved equal to the models over characters for every text; pest's own offsets are not modelled."
  },
  {
   "property": "C71",
   "status": "proved",
   "theorems": [
    "Verif.C71_image",
    "Verif.C71_everywhere"
   ],
   "note": "PlanImage is a predicate on the message alone (Spec/Image.lean); extension payloads are only said to come from a handler of the registry."
  },
  {
   "property": "C72",
   "status": "proved",
   "theorems": [
    "Verif.C72_date",
    "Verif.C72_time",
    "Verif.C72_timestamp",
    "Verif.C72_time_refused",
    "Verif.C72_timestamp_refused",
    "Verif.C72_date_refused",
    "Verif.C72_lenient"
   ],
   "note": "Equivalences for dates, times of day and timestamps; the scanner of chrono itself is modelled, not read from /repo."
  },
  {
   "property": "C73",
   "status": "proved",
   "theorems": [
    "Verif.C73_plain_json",
    "Verif.C73_more_descriptors",
    "Verif.C73_bad_blob"
   ],
   "note": "For all decoders and readers as parameters; that a larger descriptor pool reads what a smaller one reads is a hypothesis about the library."
  },
  {
   "property": "C74",
   "status": "proved",
   "theorems": [
    "Verif.C74_errors_independent",
    "Verif.C74_literal_text",
    "Verif.C74_hidden_column"
   ],
   "note": "For all plans and options that agree on show_emit; C74_hidden_column shows that this condition is needed."
  },
  {
   "property": "C75",
   "status": "proved",
   "theorems": [
    "Verif.C75_read_grows",
    "Verif.C75_written_grows"
   ],
   "note": "For whole texts and whole plans, over any history of registrations and any continuation."
  },
  {
   "property": "C76",
   "status": "proved",
   "theorems": [
    "Verif.C76_payload_iff",
    "Verif.C76_attached",
    "Verif.C76_relation",
    "Verif.C76_plan_round_trip"
   ],
   "note": "For every type with an encoding that can be decoded; the conditions on names and arguments are those of C41 (identifiers, ArgsOk)."
  },
  {
   "property": "C77",
   "status": "proved",
   "theorems": [
    "Verif.C77_identifier",
    "Verif.C77_integer",
    "Verif.C77_float",
    "Verif.C77_string",
    "Verif.C77_name"
   ],
   "note": "Equivalences for every text."
  },
  {
   "property": "C78",
   "status": "proved",
   "theorems": [
    "Verif.C78_line",
    "Verif.C78_plan",
    "Verif.C78_comma_space"
   ],
   "note": "Line level for all texts; plan level for texts that agree up to the plan header. Version and extension sections are not included in the claim."
  },
  {
   "property": "C79",
   "status": "proved",
   "theorems": [
    "Verif.C79_sound",
    "Verif.C79_decided",
    "Verif.C79_accepted",
    "Verif.C79_order",
    "Verif.C79_written",
    "Verif.C79_empty_line"
   ],
   "note": "For every text, list of declarations and permutation. Texts without relations are decided exactly (accepted with the declared content, or refused at a line of the extensions section); the order of declarations is proved irrelevant for reading any text and for writing any plan that loads without errors, as long as URNs precede their uses, which the code requires."
  },
  {
   "property": "C80",
   "status": "partial",
   "theorems": [
    "Verif.C80_unchecked",
    "Verif.C80_plan_unchecked",
    "Verif.C80_expression_silent",
    "Verif.C80_mappings_partial",
    "Verif.C80_filter_silent",
    "Verif.C80_read_silent",
    "Verif.C80_mapping_reported"
   ],
   "note": "The claim is false: C80_unchecked shows that reading does not depend on the numbers of column references at all, C80_expression_silent that formatting does not report them inside expressions; C80_mappings_partial proves the one check that exists."
  },
  {
   "property": "C81",
   "status": "proved",
   "theorems": [
    "Verif.C81_read",
    "Verif.C81_first_failure",
    "Verif.C81_exchange",
    "Verif.C81_plan_exchange",
    "Verif.C81_width_matters"
   ],
   "note": "Conversion of a line is a function of the line, its addenda and the widths of its inputs (C81_read); errors of inputs come first (C81_first_failure); exchange of parts at any depth (C81_exchange, C81_plan_exchange). Stated on the trees that the lines of a text form (C33, C55), not on texts."
  },
  {
   "property": "C82",
   "status": "partial",
   "theorems": [
    "Verif.C82_insert_told",
    "Verif.C82_insert_distinct_partial",
    "Verif.C82_insert_spaces_fail",
    "Verif.C82_lookup_distinct",
    "Verif.C82_context_distinct",
    "Verif.C82_classes_apart"
   ],
   "note": "Messages of reference errors and contexts are injective; those of declaration errors only if names and URNs have no space (C82_insert_distinct_partial); C82_insert_spaces_fail is the counterexample, C82_insert_told what holds always."
  },
  {
   "property": "C83",
   "status": "proved",
   "theorems": [
    "Verif.C83_rules",
    "Verif.C83_ends",
    "Verif.C83_lines",
    "Verif.C83_declarations",
    "Verif.C83_durations"
   ],
   "note": "all 116 rules of the grammar file, as data under the meaning of parsing expression grammars, agree with the model's recognisers on every text; outcomes are unique and always exist; lines, declarations and durations"
  },
  {
   "property": "C84",
   "status": "proved",
   "theorems": [
    "Verif.C84_types",
    "Verif.C84_literals",
    "Verif.C84_expressions",
    "Verif.C84_arguments",
    "Verif.C84_lines",
    "Verif.C84_trees",
    "Verif.C84_one_meaning",
    "Verif.C84_plan"
   ],
   "note": "For every piece of syntax and all declarations: types, literals, expressions, extension arguments, lines and trees of lines are converted to a value exactly if they mean it (Spec/Meaning.lean); meanings are unique; every accepted text is made of the meanings of its lines."
  },
  {
   "property": "C85",
   "status": "proved",
   "theorems": [
    "Verif.C85_accepted"
   ],
   "note": "C85_accepted: parsePlan reg text = ok p iff the text is made of the documented parts, its declarations are sound, its lines list a forest whose trees mean the relations of p (C84), and p records exactly the declarations in anchor order."
  },
  {
   "property": "C86",
   "status": "proved",
   "theorems": [
    "Verif.C86_types",
    "Verif.C86_types_refused",
    "Verif.C86_expressions",
    "Verif.C86_trees",
    "Verif.C86_panics",
    "Verif.C86_refused"
   ],
   "note": "Equivalences for types, expressions, trees and whole texts; with C85 the outcome (plan, error, panic) of every text is settled. Stack or memory exhaustion is not modelled."
  },
  {
   "property": "C87",
   "status": "proved",
   "theorems": [
    "Verif.C87_partition_wire_iff",
    "Verif.C87_hint_wire",
    "Verif.C87_blob_wire_iff",
    "Verif.C87_concatenated",
    "Verif.C87_varint_exact",
    "Verif.C87_unknown_fields",
    "Verif.C87_decoded_in_range",
    "Verif.C87_registry",
    "Verif.C87_partition_decoded_iff",
    "Verif.C87_hint_decoded_iff",
    "Verif.C87_blob_decoded_iff"
   ],
   "note": "The encoding is that of prost as documented, driven by the attributes in examples.rs; lengths are below 2^64 as for every vector. Unknown fields nest up to 100 deep, as prost's recursion limit requires. The C87_*_decoded_iff theorems say for all bytes whether they are decoded and to what."
  },
  {
   "property": "C88",
   "status": "proved",
   "theorems": [
    "Verif.C88_filter_survives_iff",
    "Verif.C88_project_survives_iff",
    "Verif.C88_sort_survives_iff",
    "Verif.C88_fetch_survives_iff",
    "Verif.C88_join_survives_iff",
    "Verif.C88_set_survives_iff",
    "Verif.C88_cross_survives_iff",
    "Verif.C88_named_read_survives_iff",
    "Verif.C88_virtual_read_survives_iff"
   ],
   "note": "Equivalences for named reads, virtual reads, filter, project, sort, fetch, join, set and cross lines; for aggregates only survival is proved (C25). Except for reads, show_emit is assumed off and the widths at most 2^31 columns; virtual reads assume the indentation of two spaces; no addenda."
  },
  {
   "property": "C89",
   "status": "proved",
   "theorems": [
    "Verif.C89_tree_survives_iff",
    "Verif.C89_one_lost_line_loses_all",
    "Verif.C89_widths_kept",
    "Verif.C89_top_survives_iff"
   ],
   "note": "Equivalence at the level of lines: each header is given to the grammar, the tree of lines to build_rel. Aggregates, extension relations and addenda are left out; show_emit off, indentation of two spaces, at most 2^31 columns."
  },
  {
   "property": "C90",
   "status": "proved",
   "theorems": [
    "Verif.C90_plan_survives_iff",
    "Verif.C90_one_at_a_time"
   ],
   "note": "Equivalence for whole texts, virtual tables on one line or several. Aggregates, extension relations and addenda are left out; declarations and version as in C07 and C36, no line end in copied texts (C67)."
  },
  {
   "property": "C91",
   "status": "proved",
   "theorems": [
    "Verif.C91_reported_exactly",
    "Verif.C91_read_back_unreported",
    "Verif.C91_reported_lost",
    "Verif.C91_false_alarm",
    "Verif.C91_lost_unreported"
   ],
   "note": "For the plans C90 describes. C91_reported_exactly says which errors are reported of a plan that is read back; C91_false_alarm and C91_lost_unreported are witnesses that the exceptions are needed and that the converse fails."
  },
  {
   "property": "C92",
   "status": "proved",
   "theorems": [
    "Verif.C92_default_loses_least",
    "Verif.C92_default_loses_least_of_all",
    "Verif.C92_layout_irrelevant",
    "Verif.C92_anchors_may_save"
   ],
   "note": "For the plans C90 describes. With all anchors shown, declared types must not have the name of a built-in type with parameters; C92_anchors_may_save is the witness that this is needed."
  },
  {
   "property": "C93",
   "status": "proved",
   "theorems": [
    "Verif.C93_more_declarations_harmless",
    "Verif.C93_hidden_anchors_harmed",
    "Verif.C93_fewer_may_harm"
   ],
   "note": "C93_more_declarations_harmless is the claim; C93_hidden_anchors_harmed is the witness that hidden anchors have to be excluded, C93_fewer_may_harm the witness that unused declarations cannot be taken away."
  },
  {
   "property": "C94",
   "status": "proved",
   "theorems": [
    "Verif.C94_parts_read_back",
    "Verif.C94_parts_replaced",
    "Verif.C94_width_matters"
   ],
   "note": "For the plans C90 describes. C94_parts_replaced is an equivalence; C94_width_matters shows that its condition on the number of columns is needed."
  }
 ]
}
