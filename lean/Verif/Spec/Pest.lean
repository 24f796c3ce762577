import Verif.Model.Base
/-!
# The grammar file and what pest makes of it

The rules of `src/parser/expression_grammar.pest`, transcribed one by one, and the meaning of a
parsing expression grammar.  Nothing here mentions the recognisers of the model.
-/

namespace Verif
namespace PestSpec

set_option autoImplicit false

/-- The rules of the grammar file, under their own names. -/
inductive R where
  | whitespace | sp | identifier | integer | float | boolean | null | string_literal | quoted_name | name
  | short_arg_name | short_arg_type | argument_signature | function_signature | reference
  | expression_literal | anchor | urn_anchor | parameter | parameters | nullability | simple_type_name
  | simple_type | list_type | map_type | struct_type | precision_timestamp_tz_type
  | precision_timestamp_type | precision_time_type | interval_day_type | compound_type
  | user_defined_type | type | argument_list | function_reference | function_call | if_clause | if_then
  | enum_value | cast_failure_behavior | cast_expression | expression | urn | extension_urn_declaration
  | simple_extension_name | simple_extension | table_name | named_column | named_column_list | output
  | implicit_output | direct_output | emit_suffix | planNode | top_level_relation | root_relation
  | root_name_list | read_relation | extension_read_relation | relation_line_cont | relation_open
  | relation_comma | relation_arrow | virtual_read_relation | relation_end | virtual_read_rows
  | virtual_read_filter | virtual_row_list | virtual_row | filter_relation | reference_list
  | project_relation | project_argument_list | project_argument | aggregate_relation
  | aggregate_group_by | grouping_set_list | grouping_set | expression_list | aggregate_output | empty
  | sort_relation | sort_field_list | sort_field | sort_direction | fetch_arg_name | fetch_value
  | fetch_named_arg | fetch_named_arg_list | fetch_args | fetch_relation | join_type
  | join_post_join_filter | join_relation | set_op | set_relation | cross_relation | extension_relation
  | extension_name | extension_type | extension_args | extension_arguments | parameter_literal | tuple
  | extension_argument | extension_named_arguments | extension_named_argument | extension_columns
  | extension_column | addendum | addendum_type | interval_day_duration | duration_days
  | duration_seconds | duration_subseconds | subsecond_unit

/-- Parsing expressions: what the right-hand side of a rule is made of. -/
inductive G where
  /-- `"..."` -/
  | lit (k : Str)
  /-- `^"..."` -/
  | litI (k : Str)
  /-- `ANY` -/
  | any
  /-- `'a'..'b'`, of which the built-in character classes are made -/
  | range (a b : Char)
  /-- `EOI` -/
  | eoi
  /-- `a ~ b`; the file defines no `WHITESPACE`, so nothing is skipped in between -/
  | seq (a b : G)
  /-- `a | b` -/
  | alt (a b : G)
  /-- `a*` -/
  | star (a : G)
  /-- `a?` -/
  | opt (a : G)
  /-- `!a` -/
  | no (a : G)
  | rule (r : R)

instance : Coe R G := ⟨.rule⟩

@[inherit_doc] scoped infixr:67 " ~~ " => G.seq
@[inherit_doc] scoped infixr:64 " /// " => G.alt

/-- `a+`. -/
abbrev G.plus (a : G) : G := a ~~ .star a

/-- pest's `ASCII_DIGIT`. -/
abbrev G.digit : G := .range '0' '9'
/-- pest's `ASCII_ALPHA`. -/
abbrev G.alpha : G := .range 'a' 'z' /// .range 'A' 'Z'
/-- pest's `ASCII_ALPHANUMERIC`. -/
abbrev G.alnum : G := .range '0' '9' /// .range 'a' 'z' /// .range 'A' 'Z'
/-- pest's `NEWLINE`. -/
abbrev G.newline : G := .lit cs!"\n" /// .lit cs!"\r\n" /// .lit cs!"\r"
/-- pest's `SOI`, of the one rule that is always run from the start of its text. -/
abbrev G.soi : G := .lit []

open R in
/-- expression_grammar.pest L1-446, rule by rule. -/
def grammar : R → G
  | whitespace => .lit cs!" "
  | sp => .star whitespace
  | identifier => .alpha ~~ .star (.alnum /// .lit cs!"_")
  | integer => .opt (.lit cs!"-") ~~ .plus .digit
  | float => .opt (.lit cs!"-") ~~ .plus .digit ~~ .lit cs!"." ~~ .plus .digit
  | boolean => .lit cs!"true" /// .lit cs!"false"
  | null => .lit cs!"null"
  | string_literal =>
    .lit cs!"'" ~~ .star ((.lit cs!"\\" ~~ .any) /// (.no (.lit cs!"'") ~~ .any)) ~~ .lit cs!"'"
  | quoted_name =>
    .lit cs!"\"" ~~ .star ((.lit cs!"\\" ~~ .any) /// (.no (.lit cs!"\"") ~~ .any)) ~~ .lit cs!"\""
  | name => identifier /// quoted_name
  | short_arg_name => .alpha ~~ .star .alnum
  | short_arg_type => .lit cs!"u!" ~~ short_arg_name /// short_arg_name
  | argument_signature => short_arg_type ~~ .star (.lit cs!"_" ~~ short_arg_type)
  | function_signature => identifier ~~ .opt (.lit cs!":" ~~ .opt argument_signature)
  | reference => .lit cs!"$" ~~ integer
  | expression_literal =>
    (float /// integer /// boolean /// string_literal /// null) ~~ .opt (.lit cs!":" ~~ sp ~~ type)
  | anchor => .lit cs!"#" ~~ sp ~~ integer
  | urn_anchor => .lit cs!"@" ~~ sp ~~ integer
  | parameter => type /// integer /// name
  | parameters =>
    .lit cs!"<" ~~ .opt (parameter ~~ .star (.lit cs!"," ~~ sp ~~ parameter)) ~~ .lit cs!">"
  | nullability => .opt (.lit cs!"?" /// .lit cs!"⁉")
  | simple_type_name =>
    .lit cs!"boolean" /// .lit cs!"i8" /// .lit cs!"i16" /// .lit cs!"i32" /// .lit cs!"i64" ///
    .lit cs!"u8" /// .lit cs!"u16" /// .lit cs!"u32" /// .lit cs!"u64" /// .lit cs!"fp32" ///
    .lit cs!"fp64" /// .lit cs!"string" /// .lit cs!"binary" /// .lit cs!"timestamp_tz" ///
    .lit cs!"timestamp" /// .lit cs!"date" /// .lit cs!"time" /// .lit cs!"interval_year" ///
    .lit cs!"uuid"
  | simple_type => simple_type_name ~~ nullability
  | list_type => .litI cs!"list" ~~ nullability ~~ .lit cs!"<" ~~ type ~~ .lit cs!">"
  | map_type =>
    .litI cs!"map" ~~ nullability ~~ .lit cs!"<" ~~ type ~~ .lit cs!"," ~~ sp ~~ type ~~ .lit cs!">"
  | struct_type => .litI cs!"struct" ~~ nullability ~~ parameters
  | precision_timestamp_tz_type =>
    .litI cs!"precisiontimestamptz" ~~ nullability ~~ .lit cs!"<" ~~ integer ~~ .lit cs!">"
  | precision_timestamp_type =>
    .litI cs!"precisiontimestamp" ~~ nullability ~~ .lit cs!"<" ~~ integer ~~ .lit cs!">"
  | precision_time_type =>
    .litI cs!"precisiontime" ~~ nullability ~~ .lit cs!"<" ~~ integer ~~ .lit cs!">"
  | interval_day_type => .litI cs!"interval_day" ~~ nullability ~~ .lit cs!"<" ~~ integer ~~ .lit cs!">"
  | compound_type =>
    list_type /// map_type /// struct_type /// precision_timestamp_tz_type ///
    precision_timestamp_type /// precision_time_type /// interval_day_type
  | user_defined_type =>
    .opt (.lit cs!"u!") ~~ identifier ~~ .opt anchor ~~ .opt urn_anchor ~~ nullability ~~ .opt parameters
  | type => simple_type /// compound_type /// user_defined_type
  | argument_list =>
    .lit cs!"(" ~~ .opt (expression ~~ .star (sp ~~ .lit cs!"," ~~ sp ~~ expression)) ~~ .lit cs!")"
  | function_reference => function_signature ~~ sp ~~ .opt anchor ~~ sp ~~ .opt urn_anchor
  | function_call => function_reference ~~ sp ~~ argument_list ~~ .lit cs!":" ~~ sp ~~ type
  | if_clause => expression ~~ sp ~~ .lit cs!"->" ~~ sp ~~ expression
  | if_then =>
    .lit cs!"if_then(" ~~ sp ~~ .plus (if_clause ~~ sp ~~ .lit cs!"," ~~ sp) ~~ sp ~~ .lit cs!"_" ~~ sp ~~
      .lit cs!"->" ~~ sp ~~ expression ~~ .lit cs!")"
  | enum_value => .lit cs!"&" ~~ identifier
  | cast_failure_behavior => .lit cs!"?" /// .lit cs!"!"
  | cast_expression =>
    .lit cs!"(" ~~ sp ~~ expression ~~ sp ~~ .lit cs!")" ~~ sp ~~ .lit cs!"::" ~~ sp ~~
      .opt cast_failure_behavior ~~ sp ~~ type
  | expression => if_then /// cast_expression /// function_call /// reference /// expression_literal
  | urn => .plus (.no whitespace ~~ .any)
  | extension_urn_declaration => urn_anchor ~~ .lit cs!":" ~~ sp ~~ urn
  | simple_extension_name =>
    .opt (.lit cs!"u!") ~~ identifier ~~ .opt (.lit cs!":" ~~ .opt argument_signature)
  | simple_extension => anchor ~~ sp ~~ urn_anchor ~~ sp ~~ .lit cs!":" ~~ sp ~~ simple_extension_name
  | table_name => name ~~ .star (.lit cs!"." ~~ name)
  | named_column => name ~~ .lit cs!":" ~~ type
  | named_column_list => .opt (named_column ~~ .star (.lit cs!"," ~~ sp ~~ named_column))
  | output => implicit_output /// direct_output
  | implicit_output => .lit cs!"=>" ~~ sp ~~ named_column_list
  | direct_output => .lit cs!"+>" ~~ sp ~~ named_column_list ~~ emit_suffix
  | emit_suffix => .opt (sp ~~ .lit cs!"|>" ~~ sp ~~ reference_list)
  | planNode =>
    extension_read_relation /// virtual_read_relation /// read_relation /// filter_relation ///
    project_relation /// aggregate_relation /// sort_relation /// fetch_relation /// join_relation ///
    set_relation /// cross_relation /// extension_relation /// addendum
  | top_level_relation => root_relation /// planNode
  | root_relation => .lit cs!"Root" ~~ .lit cs!"[" ~~ root_name_list ~~ .lit cs!"]"
  | root_name_list => .opt (name ~~ .star (sp ~~ .lit cs!"," ~~ sp ~~ name))
  | read_relation => .lit cs!"Read" ~~ .lit cs!"[" ~~ table_name ~~ sp ~~ output ~~ .lit cs!"]"
  | extension_read_relation => .lit cs!"Read:Extension" ~~ .lit cs!"[" ~~ named_column_list ~~ .lit cs!"]"
  | relation_line_cont => sp ~~ .newline ~~ sp ~~ .lit cs!"- " ~~ sp
  | relation_open => .lit cs!"[" ~~ .opt relation_line_cont
  | relation_comma => sp ~~ .lit cs!"," ~~ (relation_line_cont /// sp)
  | relation_arrow => (relation_line_cont /// sp) ~~ .lit cs!"=>" ~~ sp
  | virtual_read_relation =>
    .lit cs!"Read:Virtual" ~~ relation_open ~~ virtual_read_rows ~~
      .opt (relation_comma ~~ virtual_read_filter) ~~ relation_arrow ~~ named_column_list ~~
      .lit cs!"]" ~~ relation_end
  | relation_end => sp ~~ .eoi
  | virtual_read_rows => virtual_row_list /// empty
  | virtual_read_filter => .lit cs!"filter" ~~ sp ~~ .lit cs!"=" ~~ sp ~~ expression
  | virtual_row_list => virtual_row ~~ .star (relation_comma ~~ virtual_row)
  | virtual_row => .lit cs!"(" ~~ sp ~~ .opt expression_list ~~ sp ~~ .lit cs!")"
  | filter_relation =>
    .lit cs!"Filter" ~~ .lit cs!"[" ~~ expression ~~ sp ~~ .lit cs!"=>" ~~ sp ~~ reference_list ~~ .lit cs!"]"
  | reference_list => .opt (reference ~~ .star (sp ~~ .lit cs!"," ~~ sp ~~ reference))
  | project_relation => .lit cs!"Project" ~~ .lit cs!"[" ~~ project_argument_list ~~ .lit cs!"]"
  | project_argument_list =>
    .opt (project_argument ~~ .star (sp ~~ .lit cs!"," ~~ sp ~~ project_argument))
  | project_argument => reference /// expression
  | aggregate_relation =>
    .lit cs!"Aggregate" ~~ .lit cs!"[" ~~ aggregate_group_by ~~ sp ~~ .lit cs!"=>" ~~ sp ~~
      aggregate_output ~~ .lit cs!"]"
  | aggregate_group_by => grouping_set_list /// expression_list
  | grouping_set_list => grouping_set ~~ sp ~~ .star (.lit cs!"," ~~ sp ~~ grouping_set)
  | grouping_set => (.lit cs!"(" ~~ sp ~~ expression_list ~~ sp ~~ .lit cs!")") /// empty
  | expression_list => expression ~~ sp ~~ .star (.lit cs!"," ~~ sp ~~ expression)
  | aggregate_output => .opt (expression ~~ .star (sp ~~ .lit cs!"," ~~ sp ~~ expression))
  | empty => .lit cs!"_"
  | sort_relation =>
    .lit cs!"Sort" ~~ .lit cs!"[" ~~ sort_field_list ~~ sp ~~ .lit cs!"=>" ~~ sp ~~ reference_list ~~ .lit cs!"]"
  | sort_field_list => .opt (sort_field ~~ .star (sp ~~ .lit cs!"," ~~ sp ~~ sort_field))
  | sort_field =>
    .lit cs!"(" ~~ sp ~~ expression ~~ sp ~~ .lit cs!"," ~~ sp ~~ sort_direction ~~ sp ~~ .lit cs!")"
  | sort_direction =>
    .lit cs!"&AscNullsFirst" /// .lit cs!"&AscNullsLast" /// .lit cs!"&DescNullsFirst" ///
    .lit cs!"&DescNullsLast"
  | fetch_arg_name => .lit cs!"limit" /// .lit cs!"offset"
  | fetch_value => integer /// expression
  | fetch_named_arg => fetch_arg_name ~~ sp ~~ .lit cs!"=" ~~ sp ~~ fetch_value
  | fetch_named_arg_list => fetch_named_arg ~~ .star (sp ~~ .lit cs!"," ~~ sp ~~ fetch_named_arg)
  | fetch_args => fetch_named_arg_list /// empty
  | fetch_relation =>
    .lit cs!"Fetch" ~~ .lit cs!"[" ~~ fetch_args ~~ sp ~~ .lit cs!"=>" ~~ sp ~~ reference_list ~~ .lit cs!"]"
  | join_type =>
    .lit cs!"&Inner" /// .lit cs!"&LeftSemi" /// .lit cs!"&LeftAnti" /// .lit cs!"&LeftSingle" ///
    .lit cs!"&LeftMark" /// .lit cs!"&Left" /// .lit cs!"&RightSemi" /// .lit cs!"&RightAnti" ///
    .lit cs!"&RightSingle" /// .lit cs!"&RightMark" /// .lit cs!"&Right" /// .lit cs!"&Outer"
  | join_post_join_filter => .lit cs!"post_filter" ~~ sp ~~ .lit cs!"=" ~~ sp ~~ expression
  | join_relation =>
    .lit cs!"Join" ~~ .lit cs!"[" ~~ join_type ~~ sp ~~ .lit cs!"," ~~ sp ~~ expression ~~
      .opt (sp ~~ .lit cs!"," ~~ sp ~~ join_post_join_filter) ~~ sp ~~ .lit cs!"=>" ~~ sp ~~
      reference_list ~~ .lit cs!"]"
  | set_op =>
    .lit cs!"&IntersectionMultisetAll" /// .lit cs!"&IntersectionMultiset" ///
    .lit cs!"&IntersectionPrimary" /// .lit cs!"&MinusPrimaryAll" /// .lit cs!"&MinusPrimary" ///
    .lit cs!"&MinusMultiset" /// .lit cs!"&UnionAll" /// .lit cs!"&UnionDistinct"
  | set_relation =>
    .lit cs!"Set" ~~ .lit cs!"[" ~~ set_op ~~ sp ~~ .lit cs!"=>" ~~ sp ~~ reference_list ~~ .lit cs!"]"
  | cross_relation => .lit cs!"Cross" ~~ .lit cs!"[" ~~ reference_list ~~ .lit cs!"]"
  | extension_relation =>
    extension_name ~~ .lit cs!"[" ~~ sp ~~ extension_args ~~
      .opt (sp ~~ .lit cs!"=>" ~~ sp ~~ extension_columns) ~~ .lit cs!"]"
  | extension_name => extension_type ~~ .lit cs!":" ~~ name
  | extension_type => .lit cs!"ExtensionLeaf" /// .lit cs!"ExtensionSingle" /// .lit cs!"ExtensionMulti"
  | extension_args =>
    .opt (empty ///
      (extension_arguments ~~ .opt (sp ~~ .lit cs!"," ~~ sp ~~ extension_named_arguments)) ///
      extension_named_arguments)
  | extension_arguments => extension_argument ~~ .star (sp ~~ .lit cs!"," ~~ sp ~~ extension_argument)
  | parameter_literal =>
    (float /// integer /// boolean /// string_literal /// null) ~~ .no (.lit cs!":")
  | tuple =>
    (.lit cs!"(" ~~ sp ~~ .lit cs!")") ///
    (.lit cs!"(" ~~ sp ~~ extension_argument ~~ sp ~~ .lit cs!"," ~~ sp ~~ .lit cs!")") ///
    (.lit cs!"(" ~~ sp ~~ extension_argument ~~ .plus (sp ~~ .lit cs!"," ~~ sp ~~ extension_argument) ~~
      .opt (sp ~~ .lit cs!",") ~~ sp ~~ .lit cs!")")
  | extension_argument => enum_value /// parameter_literal /// reference /// expression /// tuple
  | extension_named_arguments =>
    extension_named_argument ~~ .star (sp ~~ .lit cs!"," ~~ sp ~~ extension_named_argument)
  | extension_named_argument => name ~~ sp ~~ .lit cs!"=" ~~ sp ~~ extension_argument
  | extension_columns => .opt (extension_column ~~ .star (sp ~~ .lit cs!"," ~~ sp ~~ extension_column))
  | extension_column => named_column /// reference /// expression
  | addendum =>
    .lit cs!"+" ~~ sp ~~ addendum_type ~~ .lit cs!":" ~~ name ~~ .lit cs!"[" ~~ extension_args ~~ .lit cs!"]"
  | addendum_type => .lit cs!"Enh" /// .lit cs!"Opt" /// .lit cs!"Ext"
  | interval_day_duration =>
    .soi ~~
      ((duration_days ~~ .opt (whitespace ~~ duration_seconds) ~~ .opt (whitespace ~~ duration_subseconds)) ///
       (duration_seconds ~~ .opt (whitespace ~~ duration_subseconds)) ///
       duration_subseconds) ~~
      .eoi
  | duration_days => integer ~~ .lit cs!"d"
  | duration_seconds => integer ~~ .lit cs!"s"
  | duration_subseconds => integer ~~ subsecond_unit
  | subsecond_unit => .lit cs!"ms" /// .lit cs!"us" /// .lit cs!"ns" /// .lit cs!"ps"

/-- `Peg g s (some r)`: run at the start of `s`, the expression `g` matches and leaves `r`.
`Peg g s none`: it fails.  Ordered choice, greedy repetition, no second thoughts. -/
inductive Peg : G → Str → Option Str → Prop where
  | lit (k r : Str) : Peg (.lit k) (k ++ r) (some r)
  | litFail {k s : Str} : (¬ ∃ r, s = k ++ r) → Peg (.lit k) s none
  | litI {k x : Str} (r : Str) : x.map Char.toLower = k.map Char.toLower → Peg (.litI k) (x ++ r) (some r)
  | litIFail {k s : Str} : (¬ ∃ x r, s = x ++ r ∧ x.map Char.toLower = k.map Char.toLower) → Peg (.litI k) s none
  | any (c : Char) (s : Str) : Peg .any (c :: s) (some s)
  | anyFail : Peg .any [] none
  | range {a b c : Char} (s : Str) : a ≤ c → c ≤ b → Peg (.range a b) (c :: s) (some s)
  | rangeFail {a b : Char} {s : Str} : (¬ ∃ c r, s = c :: r ∧ a ≤ c ∧ c ≤ b) → Peg (.range a b) s none
  | eoi : Peg .eoi [] (some [])
  | eoiFail (c : Char) (s : Str) : Peg .eoi (c :: s) none
  | seq {a b : G} {s t : Str} {o : Option Str} : Peg a s (some t) → Peg b t o → Peg (a ~~ b) s o
  | seqFail {a b : G} {s : Str} : Peg a s none → Peg (a ~~ b) s none
  | altFirst {a b : G} {s t : Str} : Peg a s (some t) → Peg (a /// b) s (some t)
  | altNext {a b : G} {s : Str} {o : Option Str} : Peg a s none → Peg b s o → Peg (a /// b) s o
  | starStop {a : G} {s : Str} : Peg a s none → Peg (.star a) s (some s)
  | starMore {a : G} {s t : Str} {o : Option Str} : Peg a s (some t) → Peg (.star a) t o → Peg (.star a) s o
  | optSome {a : G} {s t : Str} : Peg a s (some t) → Peg (.opt a) s (some t)
  | optNone {a : G} {s : Str} : Peg a s none → Peg (.opt a) s (some s)
  | no {a : G} {s : Str} : Peg a s none → Peg (.no a) s (some s)
  | noFail {a : G} {s t : Str} : Peg a s (some t) → Peg (.no a) s none
  | rule {r : R} {s : Str} {o : Option Str} : Peg (grammar r) s o → Peg (.rule r) s o

end PestSpec
end Verif
