{"id": "C01", "title": "String values survive format then parse", "statement": "For a plan containing a string value (literal, extension argument) the text produced by format() parses back to exactly the same string. Characters the formatter escapes must be understood by the parser's unescaping.", "quantifier": "every Unicode string s", "why_tests_cant": "there are unboundedly many strings, and the failing ones involve individual code points (control, zero-width, grapheme extenders) a sample will miss", "anchors": ["src/textify/types.rs:escaped", "src/parser/common.rs:unescape_string", "src/parser/expression_grammar.pest:string_literal"]}
{"id": "C02", "title": "Names survive format then parse", "statement": "Any table, column or root name printed by format() (bare when it is an identifier, quoted otherwise) is read back by parse() as the same name, and the reader stops exactly where the printed name ends, so that what follows is parsed as the next token.", "quantifier": "every name string and every following text that cannot extend an identifier", "why_tests_cant": "all strings, including those that look like identifiers, keywords, contain quotes, backslashes, dots or brackets", "anchors": ["src/textify/types.rs:Name", "src/textify/types.rs:is_identifer", "src/parser/expressions.rs:Name", "src/parser/expression_grammar.pest:name,quoted_name"]}
{"id": "C03", "title": "Integer tokens survive format then parse", "statement": "Every integer printed in a plan (literal, field index, anchor, version component, fetch count) is read back as the same integer, and the reader consumes exactly its digits.", "quantifier": "every integer in the field's range and every following text not starting with a digit", "why_tests_cant": "the domain is 2^64 values times every continuation", "anchors": ["src/parser/expressions.rs:to_int_literal,FieldIndex", "src/parser/expression_grammar.pest:integer"]}
{"id": "C04", "title": "Extension store behaves as a first-wins map", "statement": "After any sequence of URN and extension declarations, looking an anchor up returns exactly the first declaration accepted for that (anchor, kind); later declarations for the same anchor and kind are reported as errors and change nothing. URNs likewise.", "quantifier": "every finite history of add_extension_urn / add_extension calls", "why_tests_cant": "the state depends on the whole history; tests sample a few histories", "anchors": ["src/extensions/simple.rs:SimpleExtensions::add_extension,add_extension_urn,find_by_anchor,find_urn"]}
{"id": "C05", "title": "Every defective declaration is reported, every sound one is accepted silently", "statement": "Loading a plan's declarations returns an error for a declaration exactly when it re-declares an anchor of the same kind, refers to an undeclared URN, has a forbidden u! prefix or carries no mapping; a list without such defects loads with no error.", "quantifier": "every list of URN and extension declarations", "why_tests_cant": "error conditions combine over arbitrary lists and orders", "anchors": ["src/extensions/simple.rs:SimpleExtensions::from_extensions,add_extension,InsertError"]}
{"id": "C06", "title": "Extension declarations survive export and re-import", "statement": "Exporting a plan's declarations (extension_urns, extensions) and loading the exported lists gives an equal store with no errors whenever every referenced URN is declared; the exported order is sorted and independent of insertion order.", "quantifier": "every store reachable by any history", "why_tests_cant": "ranges over all reachable stores", "anchors": ["src/extensions/simple.rs:to_extension_urns,to_extension_declarations,from_extensions"]}
{"id": "C07", "title": "Extensions section text round trip", "statement": "Writing the === Extensions section and parsing those lines again gives an equal extension store, for every store whose names the grammar can spell; the parse reports no error.", "quantifier": "every store with grammatical names and URNs without spaces, any anchors up to u32::MAX", "why_tests_cant": "character-level property over unbounded stores and anchor widths (padding)", "anchors": ["src/extensions/simple.rs:SimpleExtensions::write", "src/parser/extensions.rs:ExtensionParser::parse_line,URNExtensionDeclaration,SimpleExtensionDeclaration"]}
{"id": "C08", "title": "u! prefix is normalised for types and refused elsewhere", "statement": "Declaring a type as u!name and as name produce the same store; declaring a function or type variation with u! is refused without changing the store.", "quantifier": "every store, anchor, URN anchor and name", "why_tests_cant": "ranges over all stores and names", "anchors": ["src/extensions/simple.rs:add_extension"]}
{"id": "C09", "title": "Printed function references resolve to the same function", "statement": "With default options the text printed for a declared function anchor (name, optional signature, optional #anchor) resolves, against the same declarations, to that anchor.", "quantifier": "every declaration set and every declared function anchor", "why_tests_cant": "depends on all names and overloads present; ambiguity is a global property of the set", "anchors": ["src/textify/types.rs:NamedAnchor::lookup,textify", "src/extensions/simple.rs:resolve_function,is_name_unique,lookup_function"]}
{"id": "C10", "title": "Function resolution never guesses", "statement": "Whenever a written function reference resolves, the chosen declaration's name agrees with the written name; without an explicit anchor it is the only declaration that could be meant; otherwise an error is returned.", "quantifier": "every declaration set and written reference", "why_tests_cant": "absence of silent ambiguity is a universally quantified claim", "anchors": ["src/extensions/simple.rs:resolve_function,find_by_name,find_by_base_name"]}
{"id": "C11", "title": "Printed user-defined type names resolve to the same type", "statement": "With default options the text printed for a declared type anchor resolves, against the same declarations, to that anchor.", "quantifier": "every declaration set and every declared type anchor", "why_tests_cant": "global ambiguity over arbitrary declaration sets", "anchors": ["src/textify/types.rs:NamedAnchor", "src/parser/types.rs:get_and_validate_anchor"]}
{"id": "C12", "title": "Types survive format then parse", "statement": "Formatting a Substrait type and parsing the text yields the same type (for types the text format supports), at any nesting depth, and parsing stops exactly at the end of the type.", "quantifier": "every supported type of any depth, every declaration set, every continuation", "why_tests_cant": "recursive datatype with unbounded depth", "anchors": ["src/textify/types.rs:Textify for Kind", "src/parser/types.rs:Type::parse_pair", "src/parser/expression_grammar.pest:type"]}
{"id": "C13", "title": "Ascribed integer literals keep their value or are rejected", "statement": "Parsing an integer literal with an ascribed integer type either yields exactly the written value in that type or reports an error; it never yields a different number.", "quantifier": "every integer and every integer type", "why_tests_cant": "boundary behaviour over 2^64 values", "anchors": ["src/parser/expressions.rs:to_int_literal"]}
{"id": "C14", "title": "Literals survive format then parse, including nullability", "statement": "Formatting a literal (integer, boolean, string, null) and parsing it yields the same literal with the same type and the same nullability, whether types are shown always or only when required.", "quantifier": "every literal value, type, nullability and literal-type visibility", "why_tests_cant": "product of unbounded values, types, nullability and options", "anchors": ["src/textify/expressions.rs:Textify for Literal", "src/parser/expressions.rs:Literal::parse_pair"]}
{"id": "C15", "title": "Day intervals survive format then parse", "statement": "An interval_day literal with a writable precision is printed as day/second/sub-second terms that parse back to the same days, seconds, sub-seconds and precision.", "quantifier": "all i32 days, i32 seconds, i64 sub-seconds, precisions 0/3/6/9/12", "why_tests_cant": "2^128 values and sign combinations; zero terms are dropped", "anchors": ["src/textify/expressions.rs:write_interval_day_to_second_literal", "src/parser/expressions.rs:parse_interval_day_duration,interval_day_from_pair"]}
{"id": "C16", "title": "Day interval text is accepted only when unambiguous", "statement": "An interval_day string is accepted only if its terms are in d, s, sub-second order with at most one each, single-space separated, with a sub-second unit that agrees with the ascribed precision; the accepted value is the written one.", "quantifier": "every string and precision", "why_tests_cant": "language-membership over all strings", "anchors": ["src/parser/expressions.rs:interval_day_from_pair", "src/parser/expression_grammar.pest:interval_day_duration"]}
{"id": "C17", "title": "Sub-second precision tables are mutually inverse", "statement": "Precision exponents, precision names and duration suffixes convert back and forth without loss, and every other exponent or suffix is refused.", "quantifier": "every i32 exponent and every suffix string", "why_tests_cant": "refusal ranges over all integers and strings", "anchors": ["src/precision.rs:SupportedPrecision"]}
{"id": "C18", "title": "Timestamps and times never lose sub-seconds silently", "statement": "Converting a written timestamp/time to a precision either gives the exact value or fails; converting a stored value to text and back gives the same value for precisions 0, 3, 6, 9 within range.", "quantifier": "every i64 value and every precision", "why_tests_cant": "arithmetic over i64 with division/remainder and range limits", "anchors": ["src/parser/expressions.rs:duration_to_precision_units,check_supported_precision", "src/textify/expressions.rs:duration_from_precision_units,precision_time_to_string"]}
{"id": "C19", "title": "Dates survive format then parse", "statement": "A date literal's day count is printed as a calendar date that parses back to the same day count.", "quantifier": "every day count in the printable range", "why_tests_cant": "calendar arithmetic over millions of days, leap-year rules", "anchors": ["src/textify/expressions.rs:days_to_date_string", "src/parser/expressions.rs:parse_date_to_days"]}
{"id": "C20", "title": "Expressions survive format then parse", "statement": "Formatting an expression (field reference, literal, scalar function call, cast, if-then) and parsing the text with the same declarations yields an equal expression, at any nesting depth.", "quantifier": "every supported expression of any depth, every declaration set, every safe continuation", "why_tests_cant": "recursive datatype; grammar ambiguities only show up in particular nestings", "anchors": ["src/textify/expressions.rs:Textify for Expression,ScalarFunction,Cast,IfThen", "src/parser/expressions.rs:Expression::parse_pair"]}
{"id": "C21", "title": "Parsed output mapping denotes the written columns", "statement": "For Filter/Sort/Fetch/Join/Set/Cross the parsed relation emits exactly the columns listed after =>: Direct is chosen only when the list is the identity over the input, and in every case the emitted column list equals the written list.", "quantifier": "every reference list and every input width", "why_tests_cant": "all lists and widths", "anchors": ["src/parser/relations.rs:make_emit,parse_emit"]}
{"id": "C22", "title": "Project text denotes the same output columns", "statement": "Formatting a Project and parsing it gives a Project whose output columns (field references and expressions after applying the emit) are the same list, even when the mapping repeats or reorders columns.", "quantifier": "every input width, expression list and in-range mapping", "why_tests_cant": "all mappings; the parser rebuilds expressions and mapping from scratch", "anchors": ["src/textify/rels.rs:from_project", "src/parser/relations.rs:ProjectRel"]}
{"id": "C23", "title": "Grouping sets survive deduplication", "statement": "The grouping expressions built for an aggregate contain no duplicates, every grouping reference is in range, and dereferencing each grouping set gives exactly the written set.", "quantifier": "every list of grouping sets", "why_tests_cant": "all lists of lists with arbitrary repetitions", "anchors": ["src/parser/relations.rs:build_grouping_fields"]}
{"id": "C24", "title": "Aggregate output mapping denotes the written outputs", "statement": "Every output item of a parsed aggregate is mapped to a grouping expression equal to the written one or to a fresh measure for it; items that are neither calls nor grouping expressions are rejected; indexes are always in range.", "quantifier": "every grouping list and output list", "why_tests_cant": "all lists", "anchors": ["src/parser/relations.rs:parse_aggregate_output"]}
{"id": "C25", "title": "Aggregates survive format then parse", "statement": "Formatting an aggregate and parsing it yields the same grouping sets and the same output columns.", "quantifier": "every well-formed aggregate", "why_tests_cant": "grouping-set notation has several special cases (single set, empty set, repeated sets)", "anchors": ["src/textify/rels.rs:from_aggregate", "src/parser/relations.rs:AggregateRel"]}
{"id": "C26", "title": "Parser and formatter agree on relation width", "statement": "For every relation tree built by the parser the number of output columns the parser computed equals the number the formatter computes, so $n references mean the same column in both directions.", "quantifier": "every parsed relation tree", "why_tests_cant": "structural induction over arbitrary trees and every relation kind", "anchors": ["src/parser/relations.rs", "src/textify/rels.rs:Relation::emitted,join_output_columns"]}
{"id": "C27", "title": "Set relation inputs have one common width", "statement": "The parser accepts a Set only with at least two inputs of equal width, and then the formatter's computed width is that width.", "quantifier": "every list of inputs", "why_tests_cant": "all input lists", "anchors": ["src/parser/relations.rs:parse_set_relation_pair", "src/textify/rels.rs:from_set"]}
{"id": "C28", "title": "Relation arity is enforced", "statement": "Every relation in a plan returned by parse() has exactly the number of inputs its kind requires; any other number of child lines is an error.", "quantifier": "every line tree", "why_tests_cant": "all trees", "anchors": ["src/parser/relations.rs:expect_one_child", "src/parser/structural.rs:RelationParser", "src/parser/extensions.rs:validate_child_count"]}
{"id": "C29", "title": "Fetch arguments are order-independent and strict", "statement": "Fetch limit/offset may be written in either order with the same result; duplicates, unknown names and negative or oversized counts are rejected.", "quantifier": "every argument list", "why_tests_cant": "all permutations and repetitions", "anchors": ["src/parser/common.rs:ParsedNamedArgs", "src/parser/relations.rs:FetchRel,CountMode,OffsetMode"]}
{"id": "C30", "title": "Enum spellings are mutually inverse", "statement": "Every sort direction, join type and set operation that format() prints is accepted by parse() as the same value, also where one spelling is a prefix of another; unspecified and unknown values are reported.", "quantifier": "every i32 enum value and every continuation text", "why_tests_cant": "unknown values range over i32; prefix clashes depend on following text", "anchors": ["src/textify/values.rs:ValueEnum", "src/parser/relations.rs:JoinType,SetOp", "src/parser/expression_grammar.pest:join_type,set_op,sort_direction"]}
{"id": "C31", "title": "Chunking loses nothing", "statement": "Splitting the input into chunks preserves every byte in order, chunk line numbers are the true 1-based line numbers, each chunk consumes at least one line, and splitting terminates.", "quantifier": "every input text and every merge policy", "why_tests_cant": "all texts and all policies", "anchors": ["src/parser/chunks.rs:ChunkCursor"]}
{"id": "C32", "title": "Only deeper dash lines are merged into a relation", "statement": "In the plan section a chunk consists of a line followed by exactly the maximal run of lines one level deeper starting with '- '; elsewhere every chunk is one line.", "quantifier": "every input text", "why_tests_cant": "all texts", "anchors": ["src/parser/structural.rs:Parser::next_chunk"]}
{"id": "C33", "title": "Indentation determines the tree uniquely", "statement": "Writing a forest of relation lines with one indentation level per depth and reading the lines back rebuilds exactly that forest; a line that skips a level is rejected and nothing is lost or reordered.", "quantifier": "every forest", "why_tests_cant": "all forests of any depth and width", "anchors": ["src/parser/structural.rs:TreeBuilder"]}
{"id": "C34", "title": "Addenda attach to the relation above them", "statement": "An addendum line is attached to the relation it is indented under, in order, and is rejected at top level, without a parent, or after that relation's first child.", "quantifier": "every line sequence", "why_tests_cant": "all sequences", "anchors": ["src/parser/structural.rs:TreeBuilder::add_line"]}
{"id": "C35", "title": "Sections appear at most once and in order", "statement": "A plan text is accepted only if its section headers are a strictly increasing selection of Version, Extensions, Plan.", "quantifier": "every sequence of lines", "why_tests_cant": "state machine over unbounded inputs", "anchors": ["src/parser/structural.rs:State::section_rank,parse_line,parse_section_header"]}
{"id": "C36", "title": "Version section survives format then parse", "statement": "A plan's version (numbers, producer, git hash) is printed and read back unchanged up to surrounding whitespace.", "quantifier": "every version record", "why_tests_cant": "all strings and u32 triples", "anchors": ["src/textify/plan.rs:write_version", "src/parser/structural.rs:parse_version_header,parse_version_detail"]}
{"id": "C37", "title": "Advanced extensions survive as addenda", "statement": "At most one enhancement is accepted, optimizations keep their order, an extension-table addendum is accepted exactly once and only on Read:Extension; printing the collected addenda and collecting them again gives the same payloads.", "quantifier": "every list of addenda", "why_tests_cant": "all lists", "anchors": ["src/parser/structural.rs:Addenda", "src/textify/addenda.rs"]}
{"id": "C38", "title": "No silent failure tokens", "statement": "If formatting returns an empty error list, the text contains no failure token; every failure token written corresponds to a reported error of its own with the same name; names and other texts the plan contributes without quotes are assumed not to be spelled like a token.", "quantifier": "every plan, complete or not, whose unquoted texts contain no quote, brace or final exclamation mark; every set of options", "why_tests_cant": "all plans including malformed ones", "anchors": ["src/textify/foundation.rs:Scope::failure,ErrorQueue", "src/textify/rels.rs:Emitted", "src/textify/values.rs:Value"]}
{"id": "C39", "title": "Registry behaves as a pair of consistent maps", "statement": "After any sequence of registrations, an extension found by type URL has a handler under the reported name in the same namespace, that name is the one registered for the URL, failed registrations change nothing, and namespaces do not interact.", "quantifier": "every registration history", "why_tests_cant": "all histories", "anchors": ["src/extensions/registry.rs:ExtensionRegistry::register,decode_with_type_and_context,parse_with_type"]}
{"id": "C40", "title": "Unread extension arguments are rejected", "statement": "Decoding extension arguments succeeds only if the handler looked at every named argument present and, when there are any, at the positional arguments; the verdict does not depend on the order of the reads.", "quantifier": "every argument set and every sequence of handler reads", "why_tests_cant": "handlers are arbitrary programs", "anchors": ["src/extensions/args.rs:ArgsAccess,ExtensionArgs::parse"]}
{"id": "C41", "title": "Extension arguments survive format then parse", "statement": "Extension arguments (positional, named, tuples of any nesting) print to text that parses back to the same values in the same order.", "quantifier": "every argument list", "why_tests_cant": "recursive tuples, arbitrary names; one-element tuples need a trailing comma", "anchors": ["src/textify/extensions.rs", "src/parser/extensions.rs:ExtensionValue::parse_pair,extension_args_rule_parsing"]}
{"id": "C42", "title": "Schemas convert to columns and back", "statement": "Converting named columns to a schema and back is lossless, and a schema whose name and type counts differ is rejected.", "quantifier": "every column list and schema", "why_tests_cant": "all lists", "anchors": ["src/extensions/registry.rs:ExtensionProtoConvert"]}
{"id": "C43", "title": "Descriptor merging keeps the first file of each name", "statement": "Merging descriptor sets keeps every core file, never has two files with one name, keeps the first of duplicates and loses no file name.", "quantifier": "every list of descriptor sets", "why_tests_cant": "all lists", "anchors": ["src/json.rs:build_descriptor_pool"]}
{"id": "C44", "title": "Exit status reflects formatting problems", "statement": "The CLI reports success exactly when the input was parsed, the output written, and no formatting error occurred; text is written even when there are formatting errors; explicit formats override file extensions.", "quantifier": "every command line, input and plan", "why_tests_cant": "all combinations", "anchors": ["src/cli.rs:run_with_extensions,write_plan,resolve_input_format"]}
{"id": "C45", "title": "A failed conversion leaves the output file alone", "statement": "If convert fails (unreadable format, parse error), an existing output file keeps its previous content.", "quantifier": "every failure point of the convert command", "why_tests_cant": "crash/failure points, including input and output being the same file", "anchors": ["src/cli.rs:run_inner,get_writer"]}
{"id": "C46", "title": "Whole plans survive format then parse", "statement": "For every plan in the supported fragment, format() reports no error and parse() of the text returns an equivalent plan (same relation tree, same output columns, same expressions).", "quantifier": "every supported plan", "why_tests_cant": "all plans of any size", "anchors": ["src/lib.rs:parse,format", "src/textify/plan.rs", "src/parser/structural.rs"]}
{"id": "C47", "title": "Formatting is canonical", "statement": "Formatting, parsing and formatting again yields the same text as formatting once.", "quantifier": "every supported plan", "why_tests_cant": "all plans", "anchors": ["src/lib.rs:parse,format"]}
{"id": "C48", "title": "Malformed relation lines are rejected", "statement": "A plan line is accepted only if the whole line is a well-formed relation; text after the closing bracket is an error.", "quantifier": "every line", "why_tests_cant": "all strings", "anchors": ["src/parser/structural.rs:LineNode::parse", "src/parser/expression_grammar.pest"]}
{"id": "C49", "title": "Parsing never panics", "statement": "For every input text parse() returns Ok or Err; it never panics.", "quantifier": "every input text", "why_tests_cant": "all strings", "anchors": ["src/parser/types.rs", "src/parser/expressions.rs", "src/parser/common.rs:RuleIter"]}
{"id": "C50", "title": "Line-ending and blank-line insensitivity", "statement": "Replacing LF by CRLF, adding blank lines or trailing spaces does not change the parsed plan.", "quantifier": "every input text", "why_tests_cant": "all texts", "anchors": ["src/parser/chunks.rs", "src/parser/structural.rs:IndentedLine::from,parse_plan"]}
{"id": "C51", "title": "Virtual table layout does not matter", "statement": "The inline and the row-per-line layout of Read:Virtual parse to the same relation, so virtual_table_multiline_threshold never changes meaning.", "quantifier": "every virtual table and threshold", "why_tests_cant": "all row lists and thresholds", "anchors": ["src/textify/rels.rs:from_read,write_header", "src/parser/relations.rs:VirtualReadRel", "src/parser/expression_grammar.pest:virtual_read_relation"]}
{"id": "C52", "title": "Read output mapping survives format then parse", "statement": "A table read with an explicit emit mapping is printed so that parsing restores the same schema and the same mapping.", "quantifier": "every schema and mapping", "why_tests_cant": "all schemas and mappings; named, virtual and extension reads take different paths", "anchors": ["src/textify/rels.rs:from_read,Emitted", "src/parser/relations.rs:parse_output"]}
{"id": "C53", "title": "Root relations are only at top level with exactly one input", "statement": "A Root line is accepted only at depth 0 and only with exactly one child and no addenda; its names survive the round trip.", "quantifier": "every line tree", "why_tests_cant": "all trees", "anchors": ["src/parser/structural.rs:build_plan_rel"]}
{"id": "C54", "title": "Repeated named arguments of an extension", "statement": "When an extension line gives a named argument several times, the last value counts and stands at the first position; all other arguments keep value and position.", "quantifier": "every list of named arguments", "why_tests_cant": "all argument lists", "anchors": ["src/parser/extensions.rs:extension_args_rule_parsing", "src/extensions/args.rs:ExtensionArgs"]}
{"id": "C55", "title": "An accepted plan is what its text says", "statement": "Whenever a text is accepted, it consists of blank lines and at most one version, extensions and plan section in that order; the plan's version, URNs and declarations are exactly those written, without conflicts, and its relations are built from exactly the relation lines that the grammar derives, in place.", "quantifier": "every input text that is accepted", "why_tests_cant": "all strings", "anchors": ["src/parser/structural.rs:Parser", "src/parser/extensions.rs:ExtensionParser", "src/parser/expression_grammar.pest"]}
{"id": "C56", "title": "The shipped extensions lose nothing", "statement": "The example handlers (PartitionHint, PlanHint, BlobStoreRead) accept exactly the arguments that stand for a payload, and every payload comes back unchanged from its own text, also inside a whole plan; examples::registry() builds without a panic.", "quantifier": "every payload and every argument list", "why_tests_cant": "all strategy lists, counts, texts; unknown enum numbers are only noticed when tried", "anchors": ["src/extensions/examples.rs", "src/extensions/args.rs:ArgsAccess", "src/extensions/registry.rs:ExtensionAdapter"]}
{"id": "C57", "title": "Expressions reach extension handlers unchanged", "statement": "An expression printed as an extension argument is read back as a value that converts to the same expression, at every verbosity; a scalar argument widens to exactly the expression its text denotes in expression position; tuples convert element by element.", "quantifier": "every expression, scalar and tuple", "why_tests_cant": "all expressions and verbosities", "anchors": ["src/extensions/args.rs:TryFrom<&ExtensionValue>,Expr,get_named_tuple", "src/textify/extensions.rs", "src/parser/extensions.rs"]}
{"id": "C58", "title": "Accepted texts survive being formatted and read again", "statement": "For every accepted text, format() of its plan is accepted again and gives a plan with the same meaning, and formatting that plan gives the same text; nothing is reported if every nullability is given and intervals are within bounds. Exceptions: names and strings without a spelling, user-defined types named like built-in ones, floats printed without a decimal point, leap seconds and dates outside the calendar, output columns that are not there, sorts without fields, casts at the front of a single grouping set, semi-joins that ask for both sides, unions of inputs with different widths, limits that are not plain numbers but numeric, and payloads whose handlers do not give back what they were given.", "quantifier": "every accepted text", "why_tests_cant": "all strings; the repository's roundtrip_plan helper tries a few dozen", "anchors": ["src/lib.rs:parse,format", "tests/common/mod.rs:roundtrip_plan", "src/parser/structural.rs", "src/textify/plan.rs"]}
{"id": "C59", "title": "Errors name the line they are about", "statement": "Every parse error carries the number of a line of the text and shows (part of) that line. An error of a line names the first line that cannot be read; an error of a relation names the line of a relation all of whose inputs convert while it does not, or of the addendum at fault. A line broken into continuation lines counts as its first line.", "quantifier": "every input text that is rejected", "why_tests_cant": "all strings; tests look at messages of a few texts and hardly at their numbers", "anchors": ["src/parser/errors.rs:ParseContext", "src/parser/structural.rs:parse_plan,parse_line,LineNode::parse,TreeBuilder::add_line,Addenda,RelationParser", "src/parser/relations.rs:RelationParsingContext"]}
{"id": "C60", "title": "Formatting panics only on dates outside the calendar", "statement": "Formatting a plan panics only if it writes a date literal whose day count leaves the years -262143 to 262142 (an expression does exactly then); every other problem is reported under one of a fixed list of names. A plan that was read from text never makes the formatter panic.", "quantifier": "every plan, registry and choice of options", "why_tests_cant": "all plans; a date literal is any 32-bit number, and tests use none outside the calendar", "anchors": ["src/textify/expressions.rs:days_to_date_string", "src/textify/foundation.rs:FormatError::message", "src/textify/rels.rs", "src/textify/types.rs", "src/textify/plan.rs"]}
{"id": "C61", "title": "The text of a plan determines what the plan means", "statement": "Two plans that can be written and have the same text mean the same, even if they were formatted with different readable options; with literal types only where required, plans that mean the same have the same text. One plan formatted with two choices of readable options is read as two plans that mean the same.", "quantifier": "every pair of plans that can be written, every registry, every two readable choices of options", "why_tests_cant": "a pair of different plans with one text is a coincidence no sample of plans finds; a property of pairs", "anchors": ["src/textify/plan.rs", "src/textify/rels.rs", "src/textify/expressions.rs", "src/parser/structural.rs", "src/textify/foundation.rs:OutputOptions"]}
{"id": "C62", "title": "Unrelated declarations do not matter", "statement": "If a text is accepted, replacing everything before its plan section by declarations that include the old ones, and give no further declaration a name (up to its signature) that the text already gives to one of the same kind, gives an accepted text with the same relations. Adding such declarations to a plan leaves everything behind the header of the plan section as it was, if that was written without an error; URNs never matter there.", "quantifier": "every text, plan, registry, choice of options and list of further declarations", "why_tests_cant": "all combinations of declarations and references; compact names depend on every declaration in the plan, so an addition anywhere could change any reference", "anchors": ["src/extensions/simple.rs:resolve_function,lookup_function,is_name_unique", "src/parser/structural.rs:parse_plan,build_plan", "src/textify/types.rs:NamedAnchor", "src/textify/plan.rs"]}
{"id": "C63", "title": "Relations of a plan are independent of each other", "statement": "A plan section may be cut in front of any line that is not indented: the text is accepted exactly if it is accepted with either part alone, and its relations are those of the first part followed by those of the second. The text of a list of relations is the texts of its parts with an empty line between them, and its errors are theirs.", "quantifier": "every text, every cut, every list of relations", "why_tests_cant": "all texts and cuts; state carried over from one relation to the next (tree builder, merged lines, contexts) shows only in particular combinations", "anchors": ["src/parser/structural.rs:TreeBuilder,parse_plan,build_plan", "src/parser/chunks.rs", "src/textify/plan.rs"]}
{"id": "C64", "title": "A relation is written the same at every depth", "statement": "Every relation has a fixed list of lines with depths and a fixed list of errors: wherever it stands, it is written as these lines, moved in by the depth at which it stands. Its lines are its own (the header at depth 0, rows and addenda at depth 1), which depend on its inputs only through how many columns each puts out, followed by the lines of its inputs in order, one step further in; below a root likewise.", "quantifier": "every relation tree, depth, choice of options, registry and store", "why_tests_cant": "all trees and depths; indentation is passed down as a scope and a mistake shows only where a scope is missing or pushed twice", "anchors": ["src/textify/rels.rs:Relation::textify,write_header,write_children", "src/textify/addenda.rs", "src/textify/foundation.rs:ScopedContext,IndentStack"]}
{"id": "C65", "title": "Formatting silently drops only a known list of content", "statement": "The text of a plan and the reported errors depend on the plan only through what is kept of it: everything except hints and other content of RelCommon, the output mapping of extension relations, filters of reads that are not virtual tables, variation and nullability of the row of a schema, other read content, type variations of literals, the nullable flag of nulls, inner fields of references, filters, phases, sorts and the like of measures, measures without a call, the bytes of binary literals unless the options show them, and grouping expressions that are overridden; deprecated encodings of intervals and grouping sets count as the current ones. If what is kept can be written, its text is read as a plan that means the same as what is kept, so nothing else is lost; plans that can be written lose nothing.", "quantifier": "every plan, registry and choice of options", "why_tests_cant": "all plans; a dropped field is a missing line of code and shows only in a plan that uses the field", "anchors": ["src/textify/rels.rs:from_read,from_aggregate,from_extension,get_emit", "src/textify/expressions.rs:write_literal_value,interval_day_precision_units,FieldReference", "src/textify/plan.rs"]}
{"id": "C66", "title": "Conversions of the tool compose", "statement": "Converting an accepted text to text succeeds and writes a file that converts again to the same bytes, if nothing in the plan is on the known list of exceptions. Converting a text to another format and that file to text gives the bytes of formatting the plan of the text at once, if the other format reads what it writes. A plan in another format that can be written as text is converted to text and from there to any format with success, and the plan written at the end means the same.", "quantifier": "every registry, file system, pair of commands where the second reads the file the first writes, and input", "why_tests_cant": "all plans and all combinations of formats, paths and options; tests run one command on a few files", "anchors": ["src/cli.rs:run_inner,read_plan,write_plan,create_output_options,get_reader,get_writer", "src/lib.rs:parse_with_registry,format_with_registry"]}
{"id": "C67", "title": "The content of a plan does not change the lines of its text", "statement": "The text of a plan has exactly as many lines as its shape requires: version lines, the declarations under their headers, one line for each relation and addendum, one per row of a large virtual table. Nothing that a name, a literal or any other string of the plan contains adds a line or takes one away, so no content of a plan can be taken for a further relation or declaration.", "quantifier": "every plan, registry and choice of options", "why_tests_cant": "all strings at all places where a plan has one; tests use well-behaved names", "anchors": ["src/textify/expressions.rs:escaped,Name,FunctionOption", "src/textify/types.rs:NamedAnchor,Parameter", "src/textify/extensions.rs", "src/textify/plan.rs:write_version", "src/extensions/simple.rs:write", "src/textify/rels.rs:write_header"]}
{"id": "C68", "title": "The numbers of anchors do not show in the relations", "statement": "If every anchor of a plan (functions, types, type variations, URNs) gets another number, different ones for different anchors, in the declarations as in the relations, then everything behind the header of the plan section is written as before, provided it was written without an error and no anchor is shown: because the options say so, or because no two declarations of a kind share a name. The renumbered plan is written without an error too.", "quantifier": "every plan, registry, choice of options and injective renumbering", "why_tests_cant": "all plans and all renumberings; names are shown or shortened depending on every other declaration, looked up in a map ordered by anchors, so an order-dependent choice shows only for particular numbers", "anchors": ["src/extensions/simple.rs:lookup_function,is_name_unique,is_base_name_unique", "src/textify/types.rs:NamedAnchor", "src/textify/expressions.rs", "src/textify/rels.rs:get_grouping_sets", "src/textify/plan.rs"]}
{"id": "C69", "title": "Parsing takes a number of steps polynomial in the length of the text", "statement": "The recursive rules of the grammar (types, expressions, arguments of extensions) are tried a number of times that is bounded by a polynomial in the length of the text, whether the text is accepted or rejected. (False: alternatives that begin alike run the nested rule again, and no earlier result is kept.)", "quantifier": "every text, of every length and nesting", "why_tests_cant": "the repeated attempts double with each level of nesting, so texts of the size of a test are read at once and a text of four lines is never finished; no test can show that every text of a kind is harmless", "anchors": ["src/parser/expression_grammar.pest:type,compound_type,user_defined_type,expression,if_then,function_call,tuple,extension_argument", "src/parser/common.rs:parse"]}
{"id": "C70", "title": "Slicing strings by byte offsets never panics", "statement": "The cursor, the splitting of indented lines and the splitting of compound names compute with byte offsets. For every text the offsets they slice at lie between two characters and inside the text, the assertions of the cursor hold, and the chunks, depths and names are those that counting characters gives: a text with characters of several bytes is read like any other.", "quantifier": "every text, line and name, with characters of any width", "why_tests_cant": "all positions of multi-byte characters relative to line ends, indentation and colons; an offset off by one is invisible in ASCII text and a panic in other text", "anchors": ["src/parser/chunks.rs:peek_line,merge,next", "src/parser/structural.rs:IndentedLine::from,next_chunk", "src/extensions/simple.rs:CompoundName"]}
{"id": "C71", "title": "The parser builds only complete messages", "statement": "Every plan the parser accepts satisfies a fixed list of conditions on the message alone: all messages and inputs the relation needs are present, every enum has a known and specified variant, no deprecated encoding, hint, type variation or function option occurs, arities are right, a mapping is stored only if it is not the identity, grouping expressions have no repetitions and are all used, limits are expressions, extension payloads come from the registry, and every function and type reference is declared in the plan itself.", "quantifier": "for every registry, every text and every plan it is parsed to, at every position of the plan", "why_tests_cant": "The claim is about all accepted texts; a test sees single texts, and a missing piece in a rarely used relation or a default left in a field nobody prints does not show in the text that tests compare.", "anchors": ["src/parser/relations.rs:165-1384", "src/parser/structural.rs:387-778", "src/parser/expressions.rs:818-1085"]}
{"id": "C72", "title": "Exactly the documented spellings of dates, times and timestamps are accepted", "statement": "A quoted text is a date literal exactly if it is year, month and day with the same separator, a hyphen or a slash, and names a day of the calendar; a time of day exactly if it is hours, minutes, seconds and an optional fraction with a point; a timestamp exactly if it is a date and a time with T or white space between them. The value is the one the digits say, fractions finer than a nanosecond are cut off, and the text is refused if the value is not a whole 64-bit number of the units of the precision. Where the reading is more lenient than the documentation says (white space before each number, one-digit fields, signed years of any length, no gap after a two-digit day), the claim says so.", "quantifier": "every text, precision and value", "why_tests_cant": "tests use a handful of well-formed spellings; what else is accepted, and that nothing is read as another instant through a second format, concerns all texts", "anchors": ["src/parser/expressions.rs:365-383", "src/parser/expressions.rs:493-555"]}
{"id": "C73", "title": "Descriptors only add to what JSON input can be read", "statement": "A plan in the plain JSON encoding is read the same whatever descriptors are registered, as long as a descriptor pool can be built at all; registering more descriptors later never changes the plan that a text was read as before; a descriptor blob that does not decode makes all JSON input fail, plain plans included.", "quantifier": "for every decoder, every list of registered descriptor blobs in every order, with files repeated or not, and every text", "why_tests_cant": "the claim compares all sequences of registrations; a test registers one or two blobs and reads one plan", "anchors": ["src/json.rs:36-98", "src/cli.rs:352-356", "src/extensions/registry.rs:descriptors"]}
{"id": "C74", "title": "Display options do not change what is reported", "statement": "Formatting a plan reports the same errors whatever the options say about anchors, types of literals, bytes, indentation and the layout of rows; the text of a literal with its type is the text without it followed by a colon and the type, and with the default option the type is left out exactly for non-nullable booleans, strings, binaries, i64 and fp64.", "quantifier": "for every plan, complete or not, every registry and every two settings of the options that agree on showing all columns", "why_tests_cant": "options multiply the cases of every printer; an error that is swallowed in one mode shows only if the defect and the mode meet in a test", "anchors": ["src/textify/foundation.rs:28-96", "src/textify/expressions.rs:383-488", "src/textify/types.rs:109-222", "src/textify/rels.rs:135-360"]}
{"id": "C75", "title": "Registering more extensions takes nothing away", "statement": "Further registrations, accepted or refused, change neither the plan that a text is read as nor the text of a plan that is written without errors; the only outcome of reading that they can change is the refusal of an extension that is not registered.", "quantifier": "for every history of registrations and every continuation of it, every text and every plan", "why_tests_cant": "a registry is shared by the whole process; a shadowed name or URL appears only with particular sets of extensions loaded together", "anchors": ["src/extensions/registry.rs:461-690", "src/parser/relations.rs:38-84", "src/textify/addenda.rs:95-125", "src/textify/rels.rs:440-455"]}
{"id": "C76", "title": "An extension author's obligations suffice", "statement": "The payload of a registered type goes from the message to arguments and back to the same message exactly when from_args, applied to what to_args produced, rebuilds the value and has looked at every argument; if in addition its name is an identifier and its arguments have a faithful text, it survives format then parse wherever it is attached and as a relation over any inputs, whatever else is registered.", "quantifier": "for every type, value, encoding with decode(encode t) = t, history of registrations and inputs", "why_tests_cant": "extensions are written by users; tests of this crate only cover the shipped handlers", "anchors": ["src/extensions/registry.rs:340-413", "src/extensions/registry.rs:547-700", "src/extensions/args.rs:205-336", "src/textify/addenda.rs:40-125"]}
{"id": "C77", "title": "Words are read as far as they go and no further", "statement": "An identifier, integer or float is read exactly when the text begins with one, and then the longest one is taken; an integer token stands for the number its digits denote. A string literal or quoted name ends at the first quote that is not escaped, and stands for its characters with the escapes for line feed, tab and carriage return replaced and any other escaped character taken as itself.", "quantifier": "for every text", "why_tests_cant": "the terminals are the base of every other rule; a word that ends too early or too late is only seen with the neighbours that expose it", "anchors": ["src/parser/expression_grammar.pest:8-33", "src/parser/common.rs:102-153"]}
{"id": "C78", "title": "The width of spaces inside a line does not matter", "statement": "Two lines of the plan section that differ at most in the width of runs of spaces outside of quotes are read alike, at the top and below: both are refused or both give the same relation, row or addendum. Two plans whose lines after the header of the plan section differ only in that way, with the same indentation, are read as the same plan or refused with the same error. That a space is there at all does matter in places: the list of grouping expressions takes spaces before its first comma and not before the later ones.", "quantifier": "for every two lines and every two texts", "why_tests_cant": "every rule of the grammar says for itself where spaces go; a rule that takes one space and not two is only seen by a text that has two exactly there", "anchors": ["src/parser/expression_grammar.pest:whole file", "src/parser/structural.rs:963-1085", "src/parser/chunks.rs"]}
{"id": "C79", "title": "What precedes the relations is accepted exactly if its declarations are sound, and their order does not matter", "statement": "A text that consists of an optional version, an optional extensions section with lines of the documented form and no relations is accepted exactly if every declaration can be recorded (only types carry the marker u!), no anchor of a kind is declared twice and the URN of each declaration stands before it; otherwise it is refused, never with a panic. In front of any relations the declarations may then be reordered, spread over repeated titles and separated by blank lines as long as URNs come before what refers to them: the text is read as the same plan. Formatting writes a plan that loads without errors the same whatever the order of its URNs and declarations.", "quantifier": "for every text, every list of declarations and every permutation of it", "why_tests_cant": "orders and interleavings of declarations are unbounded; the store is a sorted map filled in the order of the text, and a dependence on that order shows only for particular permutations", "anchors": ["src/parser/extensions.rs:88-264", "src/parser/structural.rs:963-1234", "src/extensions/simple.rs:160-330", "src/textify/plan.rs:22-121"]}
{"id": "C80", "title": "Every column reference of an accepted plan points at an existing column", "statement": "Every column reference of a plan that was read, in an output list or inside an expression, is smaller than the number of columns it can refer to; at least formatting reports every one that is not. (False: reading accepts or refuses a plan independently of the numbers of its references, and formatting reports only output mappings of relations other than reads of named tables.)", "quantifier": "for every text, every plan, every relation at any depth and every choice of other numbers for the references", "why_tests_cant": "that a check is missing altogether is a statement about all plans and all reference numbers: for every accepted text all texts with other numbers are accepted as well", "anchors": ["src/parser/relations.rs:219-300", "src/parser/expressions.rs:35-80", "src/textify/rels.rs:100-200"]}
{"id": "C81", "title": "A relation takes from its inputs only how many columns they have", "statement": "Reading a line of a plan, with its addenda, uses of the relations below it nothing but the number of columns of each: it gives the same relation on exactly these inputs in the order of their lines, the same number of columns, or the same refusal, whichever inputs of these widths there are. An input that cannot be read is reported before the line above it. So a part of a plan at any depth can be exchanged for one with as many columns: the plan is still accepted and only that part of the result changes.", "quantifier": "for every set of declarations, registry, line, list of addenda and inputs at any depth", "why_tests_cant": "tests read one plan at a time; that a relation does not look into its inputs, swap, drop or repeat them is a statement about all pairs of plans that differ below it", "anchors": ["src/parser/structural.rs:500-697", "src/parser/relations.rs:290-1384", "src/parser/extensions.rs:398-447"]}
{"id": "C82", "title": "Different declaration and reference errors have different messages", "statement": "Two different errors about declarations (a repeated anchor, a missing URN, a wrong name, ...) or about references have different messages, so the message says what is wrong; the same for the line number and line that a parse error shows. (False for declaration errors with spaces in a name or URN: a repeated anchor with and without a missing URN can have the same message, and so can two pairs of names. Kind and anchor can always be told.)", "quantifier": "for every two errors, with names and URNs of any text", "why_tests_cant": "a collision needs two particular errors at once; a test compares one error with one expected text", "anchors": ["src/extensions/simple.rs:34-86", "src/extensions/simple.rs:383-396", "src/textify/foundation.rs:278-287", "src/parser/errors.rs:23-27"]}
{"id": "C83", "title": "Every rule of the grammar accepts exactly what the grammar file says", "statement": "For every rule of the grammar file and every text, reading by that rule matches, stops where it stops and fails exactly as the rule does under the meaning of parsing expression grammars: ordered choice, greedy repetition, no backtracking into a finished part. Running any rule on any text ends with exactly one outcome. A line of the plan section is understood exactly when its rule matches a beginning of it, a declaration has a syntax error exactly when its rule fails, and panics when its rule matches only a beginning.", "quantifier": "for every rule and every text", "why_tests_cant": "the printer writes only a small part of what the grammar accepts; spellings nobody writes (capitals, empty parameter lists, optional prefixes, trailing commas, spaces) are infinitely many and rarely in a test", "anchors": ["src/parser/expression_grammar.pest:whole file", "src/parser/structural.rs:97-164", "src/parser/extensions.rs:184-264", "src/parser/common.rs:parse"]}
{"id": "C84", "title": "Conversion yields exactly what the syntax means", "statement": "There is a relation that says for every piece of syntax what it stands for: a type, a literal, an expression, an argument, a line with its addenda and inputs, a tree of lines. It is stated without saying how the value is computed, in terms of the declarations in force (a name without anchor stands for the one thing of that name, an anchor for what is declared under it), number ranges, dates and columns. Conversion yields a value exactly if the piece of syntax means that value; what means nothing is rejected, and nothing means two things. In particular no value is made up, rounded or taken from another place, no argument is dropped, and no piece of syntax that means something is refused.", "quantifier": "for every set of declarations, registry and syntax tree of any size", "why_tests_cant": "a test fixes the value of one text; that no piece of syntax gets a value it should not have, or is refused although it means something, ranges over all of them", "anchors": ["src/parser/types.rs:whole file", "src/parser/expressions.rs:whole file", "src/parser/extensions.rs:266-575", "src/parser/relations.rs:whole file", "src/parser/structural.rs:303-778"]}
{"id": "C85", "title": "Exactly which texts are accepted, and as what", "statement": "A text is read as a given plan exactly if it consists of blank lines, an optional version section, an optional extensions section and an optional plan section whose lines, each with the continuation lines below it, are the listing of a forest; its declarations are sound; each tree of the forest means the corresponding relation of the plan; and the plan has the version of the text and, in the order of anchors, its declarations and no others. So no text of the documented form is refused, and none of another form is accepted.", "quantifier": "for every registry, text and plan", "why_tests_cant": "the set of accepted texts is infinite in both directions; tests show members and non-members, never that nothing else is in it", "anchors": ["src/parser/structural.rs:whole file", "src/parser/chunks.rs:whole file", "src/parser/extensions.rs:88-264", "src/lib.rs:86-93"]}
{"id": "C86", "title": "Exactly which texts make the parser panic", "statement": "Parsing a text ends in a panic (an unwrap, an expect, a panic!, an unimplemented!, or the drop check of a pair iterator that still has unread pairs) if and only if one of these holds: a declaration line matches its grammar rule only in part or carries an anchor that is no 32-bit number, everything before it being well-formed and sound; or all sections are well-formed, and a tree of relations contains, at a place that is reached, one of the listed constructs (an integer or reference too large, a type the conversion does not know, a parameter that is no type, an argument named twice, or a piece without meaning while its siblings are still unread). Together with the exact description of the accepted texts, this settles for every text whether the outcome is a plan, an error or a panic.", "quantifier": "all texts, all registries; all types, expressions and trees of syntax over all stores", "why_tests_cant": "Panics depend on what stands before the offending piece and on which siblings have not been read yet; the tests contain only a handful of such inputs and none distinguishes the error from the panic systematically.", "anchors": ["src/parser/common.rs", "src/parser/expressions.rs", "src/parser/types.rs", "src/parser/relations.rs", "src/parser/extensions.rs", "src/parser/structural.rs"]}
{"id": "C87", "title": "The payloads of the shipped extensions survive their wire format", "statement": "Each of the three shipped messages (PartitionHint, PlanHint, BlobStoreRead) is decoded from the bytes it is encoded to, exactly if its numbers fit their fields; bytes are read as the protobuf wire format prescribes: exactly the varints of at most 64 bits are numbers, later scalar fields replace earlier ones and strategies accumulate, fields the message does not have are skipped whatever their wire type, and whatever is decoded has numbers in range. Hence plans with these payloads survive as text without any assumption about the encoding.", "quantifier": "all messages, all byte strings, all unknown fields nested up to 100 deep", "why_tests_cant": "Tests encode a few small messages; negative and large numbers, repeated and unknown fields, over-long varints and nested groups are not tried.", "anchors": ["src/extensions/examples.rs", "src/extensions/any.rs", "src/extensions/registry.rs"]}
{"id": "C88", "title": "Exactly which lines of reads, filters, projects, sorts, fetches, joins, sets and crosses survive", "statement": "A read of a named or virtual table, filter, project, sort, fetch, join, set operation or cross product over inputs of any widths is read back from its own line, as a relation that means the same, if and only if: it has as many inputs as its kind needs, it carries no hints, it puts out only columns it has (reads aside), its expressions, for a project those it puts out, are among those that survive as text (C20), and its enumeration values are ones with a spelling; for a project, expressions that are plain references refer to columns of its input; for a fetch limit and offset are numbers from 0 to 2^63 - 1 written without a type, or expressions that are not numbers; for a join in addition, if it lists as many columns in order as both inputs have together, these are its own columns; for a set operation all inputs have the same width; for a sort there is at least one field; for a read the schema lists as many types as names, not nullable, with names and types that survive, a named table has one or more names that survive, no filter, and lists columns within 32 bits, and a virtual table lists no columns.", "quantifier": "all relations of the eight kinds without addenda, over all stores; for named reads all options, for virtual reads all options with an indentation of two spaces, for the others all options with show_emit off and all widths up to 2^31 columns in total", "why_tests_cant": "Tests show some lines that survive; which ones do not is never tested, and depends on combinations of widths, mappings, expressions and enumeration values.", "anchors": ["src/textify/rels.rs", "src/parser/relations.rs"]}
{"id": "C89", "title": "Exactly which trees of relations survive", "statement": "A tree of reads of named and virtual tables, filters, projects, sorts, fetches, joins, set operations and cross products, of any depth and with inputs missing or too many, is read back from its lines as a tree that means the same if and only if no input is missing and the line of every relation in it survives (C88) over the widths its inputs put out. One line that is lost loses the whole tree. Whenever a tree is read back, parser and printer agree on its width. At the top of a plan, a tree below a Root line survives if and only if it survives by itself and every name of the root survives being quoted; a root without input never does.", "quantifier": "all trees of relations of the eight kinds without addenda, over all stores, all options with show_emit off and an indentation of two spaces, all widths up to 2^31 columns", "why_tests_cant": "The width of an input decides what the references of the line above mean, so lines that survive alone could be misread together; tests have a few shapes of trees, not all of them.", "anchors": ["src/textify/rels.rs", "src/parser/structural.rs", "src/parser/relations.rs"]}
{"id": "C90", "title": "Exactly which plans survive as text", "statement": "The text of a plan of reads of named and virtual tables, filters, projects, sorts, fetches, joins, set operations and cross products, virtual tables on one line or with a line for each row, is read as a plan that means the same if and only if every relation survives: no input is missing, each line survives over the widths of its inputs (C88, C89), and so do the names of roots. In particular a plan survives exactly if each of its relations survives in a plan of its own with the same declarations.", "quantifier": "all plans of any size and depth made of such relations, with inputs missing or too many, any expressions, types and names; all options with show_emit off and an indentation of two spaces; all sound declarations and writable versions; no line end in texts that are copied", "why_tests_cant": "That a text is not read as the plan it came from is a claim about every reading of it, and that surviving lines survive together is one about all shapes of plans; the tests format and parse a few plans that survive.", "anchors": ["src/textify/plan.rs", "src/textify/rels.rs", "src/parser/structural.rs", "src/parser/relations.rs"]}
{"id": "C91", "title": "What is reported is lost, with two exceptions", "statement": "If the text of a plan is read as a plan that means the same, then formatting it reported no error, except for declarations that are not accepted, types whose nullability is not given and intervals that are too long or have a second or more in their fraction. So any other error means that the text does not give the plan back. The exceptions are needed: a column type without nullability is reported although it is read back. The converse fails: the filter of a table read is lost and nothing is reported.", "quantifier": "all plans of any size and depth of reads of named and virtual tables, filters, projects, sorts, fetches, joins, set operations and cross products, with inputs missing or too many, any expressions, types and names; all options with show_emit off and an indentation of two spaces; all sound declarations and writable versions; no line end in texts that are copied", "why_tests_cant": "It relates the list of errors to every possible reading of the text, for all plans; a test sees one plan whose errors and text are both as expected.", "anchors": ["src/textify/foundation.rs", "src/textify/plan.rs", "src/textify/rels.rs", "src/textify/types.rs", "src/textify/expressions.rs", "src/parser/structural.rs"]}
{"id": "C92", "title": "The default options lose the least", "statement": "A plan that is read back, as a plan that means the same, from the text written under some options is read back from the text written under the default options as well, unless the options show all anchors and a declared type is named list, map or struct in some case. Whether it is read back depends on how anchors and literal types are shown and on no other option: the layout of virtual tables and the display of binary values make no difference. Showing all anchors can save more: a user-defined type named List with one parameter is told apart from the built-in list by its anchor only, and by default the anchor is not shown.", "quantifier": "all pairs of options with show_emit off and an indentation of two spaces; all plans of any size and depth of reads of named and virtual tables, filters, projects, sorts, fetches, joins, set operations and cross products, with any expressions, types and names; all sound declarations and writable versions; no line end in texts that are copied", "why_tests_cant": "It compares the readings of two texts of the same plan, for all plans and all pairs of options; the tests read texts back under one set of options, on plans that survive.", "anchors": ["src/textify/foundation.rs", "src/textify/expressions.rs", "src/textify/types.rs", "src/textify/rels.rs", "src/parser/types.rs", "src/parser/expressions.rs"]}
{"id": "C93", "title": "Further declarations do no harm", "statement": "If a plan is read back from its text as a plan that means the same, then so is every plan with the same relations and further declarations, whatever their names and anchors, provided the declarations are sound: under the options that show anchors where needed or always, no added extension can make a name in the text ambiguous. If anchors are never shown this fails: a second type of the same name loses a plan that was read back before. Taking declarations away can do harm even if nothing refers to them: of two types named List the one in use is shown with its anchor; when the other is gone the anchor is left out, and the type is read as the built-in list.", "quantifier": "all pairs of plans with the same relations, of any size and depth, where one declares all that the other does; all options with show_emit off, an indentation of two spaces and anchors not hidden; all sound declarations and writable versions; no line end in texts that are copied", "why_tests_cant": "It compares the readings of the texts of two plans for all possible sets of added declarations; the tests use a fixed set of declarations per plan.", "anchors": ["src/textify/foundation.rs", "src/textify/types.rs", "src/textify/expressions.rs", "src/extensions/simple.rs", "src/parser/expressions.rs", "src/parser/types.rs"]}
{"id": "C94", "title": "Parts of plans that survive survive, and can be replaced", "statement": "If a plan is read back from its text as a plan that means the same, then so is every part of it, any input of any relation at any depth, taken as a plan of its own with the same declarations. And in such a plan a part may be replaced by any other with as many columns: the plan with the replacement is read back exactly if the replacement is by itself. The number of columns has to be the same: a table with fewer columns that is read back by itself loses the plan in which it takes the place of another table.", "quantifier": "all plans of any size and depth of reads of named and virtual tables, filters, projects, sorts, fetches, joins, set operations and cross products; all parts and replacements at any depth, below a root or not; all options with show_emit off and an indentation of two spaces; all sound declarations and writable versions; no line end in texts that are copied", "why_tests_cant": "It relates the reading of a plan to that of each of its parts and of every plan that arises by replacing one, at any depth; a test reads one plan.", "anchors": ["src/textify/rels.rs", "src/textify/plan.rs", "src/parser/structural.rs", "src/parser/relations.rs"]}
