import Verif.Proofs.PestLines
/-!
# C83: the recognisers are the grammar file

`PestSpec.grammar` is `src/parser/expression_grammar.pest` rule by rule and `PestSpec.Peg` is what a
parsing expression grammar means.  The model's recognisers were written by hand; they match exactly
what the grammar file matches, stop exactly where it stops, and fail exactly where it fails.
-/

namespace Verif

set_option autoImplicit false

open PestSpec

/-- For every rule of the grammar file, what the model's recogniser leaves of a text.  Rules that
the model reads in one go with their surroundings are given by the same pieces. -/
def leaves : R → Str → Option Str
  | .whitespace, s => lit cs!" " s
  | .sp, s => some (skipSp s)
  | .identifier, s => ext (pIdent s)
  | .integer, s => ext (pInteger s)
  | .float, s => ext (pFloat s)
  | .boolean, s => ext (pBoolean s)
  | .null, s => pNull s
  | .string_literal, s => ext (pString s)
  | .quoted_name, s => ext (pQuotedName s)
  | .name, s => ext (pName s)
  | .short_arg_name, s => ext (pShortName s)
  | .short_arg_type, s => ext (pShortArg s)
  | .argument_signature, s => ext (pArgSig s)
  | .function_signature, s => ext (pFunSig s)
  | .reference, s => ext (pRef s)
  | .expression_literal, s => ext (pLiteral s)
  | .anchor, s => ext (pAnchor s)
  | .urn_anchor, s => ext (pUrnAnchor s)
  | .parameter, s => ext (pParamWith pType s)
  | .parameters, s => ext (pParamsWith pType s)
  | .nullability, s => some (pNullability s).2
  | .simple_type_name, s => ext (pFirst simpleNames s)
  | .simple_type, s => ext (pSimpleType s)
  | .list_type, s => ext (pListWith pType s)
  | .map_type, s => ext (pMapWith pType s)
  | .struct_type, s => ext (pStructWith pType s)
  | .precision_timestamp_tz_type, s => ext (pIntType cs!"precisiontimestamptz" (.prec .timestampTz) s)
  | .precision_timestamp_type, s => ext (pIntType cs!"precisiontimestamp" (.prec .timestamp) s)
  | .precision_time_type, s => ext (pIntType cs!"precisiontime" (.prec .time) s)
  | .interval_day_type, s => ext (pIntType cs!"interval_day" .intervalDay s)
  | .compound_type, s => ext (pCompoundWith pType s)
  | .user_defined_type, s => ext (pUserWith pType s)
  | .type, s => ext (pType s)
  | .argument_list, s => ext (pArgsWith pExpr s)
  | .function_reference, s =>
    (pFunSig s).map fun x => (pOpt pUrnAnchor (skipSp (pOpt pAnchor (skipSp x.2)).2)).2
  | .function_call, s => ext (pCallWith pExpr s)
  | .if_clause, s => ext (pClauseWith pExpr s)
  | .if_then, s => ext (pIfThenWith pExpr s)
  | .enum_value, s => ext (pEnumValue s)
  | .cast_failure_behavior, s => ext (pFirst [cs!"?", cs!"!"] s)
  | .cast_expression, s => ext (pCastWith pExpr s)
  | .expression, s => ext (pExpr s)
  | .urn, s => if (s.takeWhile (· != ' ')).isEmpty then none else some (s.dropWhile (· != ' '))
  | .extension_urn_declaration, s => ext (pUrnDecl s)
  | .simple_extension_name, s => ext (pExtName s)
  | .simple_extension, s => ext (pDecl s)
  | .table_name, s => ext (pSep1 pDot pName s)
  | .named_column, s => ext (pNamedColumn s)
  | .named_column_list, s => some (pColumns s).2
  | .output, s => ext (pOutput s)
  | .implicit_output, s => ext (pImplicit s)
  | .direct_output, s => ext (pDirect s)
  | .emit_suffix, s => some (pOpt pSuffix s).2
  | .planNode, s => ext (pNode s)
  | .top_level_relation, s => ext (pTop s)
  | .root_relation, s => ext (pRoot s)
  | .root_name_list, s => some (pSep spCommaSp pName s).2
  | .read_relation, s => ext (pRead s)
  | .extension_read_relation, s => ext (pReadExt s)
  | .relation_line_cont, s => pCont s
  | .relation_open, s => relOpen s
  | .relation_comma, s => relComma s
  | .relation_arrow, s => relArrow s
  | .virtual_read_relation, s => ext (pReadVirtual s)
  | .relation_end, s => relEnd s
  | .virtual_read_rows, s => ext (pRows s)
  | .virtual_read_filter, s => ext (pVFilter s)
  | .virtual_row_list, s => ext (pSep1 relComma pRow s)
  | .virtual_row, s => ext (pRow s)
  | .filter_relation, s => ext (pFilter s)
  | .reference_list, s => some (pRefs s).2
  | .project_relation, s => ext (pProject s)
  | .project_argument_list, s => some (pSep spCommaSp pProjArg s).2
  | .project_argument, s => ext (pProjArg s)
  | .aggregate_relation, s => ext (pAggregate s)
  | .aggregate_group_by, s => ext (pGroupBy s)
  | .grouping_set_list, s => ext (pGroupingSets s)
  | .grouping_set, s => ext (pGroupingSet s)
  | .expression_list, s => ext (pExprList s)
  | .aggregate_output, s => some (pSep spCommaSp pExpr s).2
  | .empty, s => lit cs!"_" s
  | .sort_relation, s => ext (pSort s)
  | .sort_field_list, s => some (pSep spCommaSp pSortField s).2
  | .sort_field, s => ext (pSortField s)
  | .sort_direction, s => ext (pFirst sortNames s)
  | .fetch_arg_name, s => ext (pFirst [cs!"limit", cs!"offset"] s)
  | .fetch_value, s => ext (pFetchValue s)
  | .fetch_named_arg, s => ext (pFetchArg s)
  | .fetch_named_arg_list, s => ext (pSep1 spCommaSp pFetchArg s)
  | .fetch_args, s => ext (pFetchArgs s)
  | .fetch_relation, s => ext (pFetch s)
  | .join_type, s => ext (pFirst joinNames s)
  | .join_post_join_filter, s => ext (pPost s)
  | .join_relation, s => ext (pJoin s)
  | .set_op, s => ext (pFirst setNames s)
  | .set_relation, s => ext (pSet s)
  | .cross_relation, s => ext (pCross s)
  | .extension_relation, s => ext (pExtRel s)
  | .extension_name, s => ext (pExtHead s)
  | .extension_type, s => ext (pExtKind s)
  | .extension_args, s => some (pExtArgs s).2
  | .extension_arguments, s => ext (pSep1 spCommaSp pArg s)
  | .parameter_literal, s => ext (pParamLit s)
  | .tuple, s => ext (pTupleWith pArg s)
  | .extension_argument, s => ext (pArg s)
  | .extension_named_arguments, s => ext (pSep1 spCommaSp pNamedArg s)
  | .extension_named_argument, s => ext (pNamedArg s)
  | .extension_columns, s => some (pSep spCommaSp pExtColumn s).2
  | .extension_column, s => ext (pExtColumn s)
  | .addendum, s => ext (pAddendum s)
  | .addendum_type, s => ext (pAddKind s)
  | .interval_day_duration, s => (pDuration s).map fun _ => []
  | .duration_days, s => ext (pTerm cs!"d" s)
  | .duration_seconds, s => ext (pTerm cs!"s" s)
  | .duration_subseconds, s => ext (pSub s)
  | .subsecond_unit, s => ext (pFirst [cs!"ms", cs!"us", cs!"ns", cs!"ps"] s)

theorem peg_leaves (r : R) (s : Str) : Peg (.rule r) s (leaves r s) := by
  have ht : ∀ t : Str, t.length < s.length + 1 → Peg R.type t (ext (pType t)) := fun t _ => peg_type t
  have he : ∀ t : Str, t.length < s.length + 1 → Peg R.expression t (ext (pExpr t)) := fun t _ => peg_expression t
  have ha : ∀ t : Str, t.length < s.length + 1 → Peg R.extension_argument t (ext (pArg t)) :=
    fun t _ => peg_extension_argument t
  cases r with
  | whitespace => exact peg_whitespace s
  | sp => exact peg_sp s
  | identifier => exact peg_identifier s
  | integer => exact peg_integer s
  | float => exact peg_float s
  | boolean => exact peg_boolean s
  | null => exact peg_null s
  | string_literal => exact peg_string s
  | quoted_name => exact peg_quoted_name s
  | name => exact peg_name s
  | short_arg_name => exact peg_short_arg_name s
  | short_arg_type => exact peg_short_arg_type s
  | argument_signature => exact peg_argument_signature s
  | function_signature => exact peg_function_signature s
  | reference => exact peg_reference s
  | expression_literal => exact peg_expression_literal s
  | anchor => exact peg_anchor s
  | urn_anchor => exact peg_urn_anchor s
  | parameter => exact peg_parameter ht s (Nat.lt_succ_self _)
  | parameters => exact peg_parameters ht s (Nat.le_succ _)
  | nullability => exact peg_nullability s
  | simple_type_name => exact peg_simple_type_name s
  | simple_type => exact peg_simple_type s
  | list_type => exact peg_list_type s (Nat.le_succ _) ht
  | map_type => exact peg_map_type s (Nat.le_succ _) ht
  | struct_type => exact peg_struct_type s (Nat.le_succ _) ht
  | precision_timestamp_tz_type => exact .rule (peg_int_type (by decide) _ s)
  | precision_timestamp_type => exact .rule (peg_int_type (by decide) _ s)
  | precision_time_type => exact .rule (peg_int_type (by decide) _ s)
  | interval_day_type => exact .rule (peg_int_type (by decide) _ s)
  | compound_type => exact peg_compound_type s (Nat.le_succ _) ht
  | user_defined_type => exact peg_user_defined_type s (Nat.le_succ _) ht
  | type => exact peg_type s
  | argument_list => exact peg_argument_list s (Nat.le_succ _) he
  | function_reference =>
    have h := peg_function_signature s
    show Peg _ s ((pFunSig s).map _)
    cases e : pFunSig s with
    | none => rw [e] at h; exact .rule (.seqFail h)
    | some x =>
      rw [e] at h
      exact .rule (.seq h (.sp_ (.seq (.opt_ (peg_anchor _)) (.sp_ (.opt_ (peg_urn_anchor _))))))
  | function_call => exact peg_function_call s (Nat.le_succ _) he
  | if_clause => exact peg_if_clause he s (Nat.lt_succ_self _)
  | if_then => exact peg_if_then s (Nat.le_succ _) he
  | enum_value => exact peg_enum_value s
  | cast_failure_behavior => exact .rule (peg_first cs!"?" [cs!"!"] s)
  | cast_expression => exact peg_cast_expression s (Nat.le_succ _) he
  | expression => exact peg_expression s
  | urn => exact peg_urn s
  | extension_urn_declaration => exact peg_extension_urn_declaration s
  | simple_extension_name => exact peg_simple_extension_name s
  | simple_extension => exact peg_simple_extension s
  | table_name => exact peg_table_name s
  | named_column => exact peg_named_column s
  | named_column_list => exact peg_named_column_list s
  | output => exact peg_output s
  | implicit_output => exact peg_implicit_output s
  | direct_output => exact peg_direct_output s
  | emit_suffix => exact peg_emit_suffix s
  | planNode => exact peg_planNode s
  | top_level_relation => exact peg_top_level_relation s
  | root_relation => exact peg_root_relation s
  | root_name_list => exact peg_root_name_list s
  | read_relation => exact peg_read_relation s
  | extension_read_relation => exact peg_extension_read_relation s
  | relation_line_cont => exact peg_relation_line_cont s
  | relation_open => exact peg_relation_open s
  | relation_comma => exact peg_relation_comma s
  | relation_arrow => exact peg_relation_arrow s
  | virtual_read_relation => exact peg_virtual_read_relation s
  | relation_end => exact peg_relation_end s
  | virtual_read_rows => exact peg_virtual_read_rows s
  | virtual_read_filter => exact peg_virtual_read_filter s
  | virtual_row_list => exact peg_virtual_row_list s
  | virtual_row => exact peg_virtual_row s
  | filter_relation => exact peg_filter_relation s
  | reference_list => exact peg_reference_list s
  | project_relation => exact peg_project_relation s
  | project_argument_list => exact peg_project_argument_list s
  | project_argument => exact peg_project_argument s
  | aggregate_relation => exact peg_aggregate_relation s
  | aggregate_group_by => exact peg_aggregate_group_by s
  | grouping_set_list => exact peg_grouping_set_list s
  | grouping_set => exact peg_grouping_set s
  | expression_list => exact peg_expression_list s
  | aggregate_output => exact peg_aggregate_output s
  | empty => exact peg_empty s
  | sort_relation => exact peg_sort_relation s
  | sort_field_list => exact peg_sort_field_list s
  | sort_field => exact peg_sort_field s
  | sort_direction => exact peg_sort_direction s
  | fetch_arg_name => exact peg_fetch_arg_name s
  | fetch_value => exact peg_fetch_value s
  | fetch_named_arg => exact peg_fetch_named_arg s
  | fetch_named_arg_list => exact peg_fetch_named_arg_list s
  | fetch_args => exact peg_fetch_args s
  | fetch_relation => exact peg_fetch_relation s
  | join_type => exact peg_join_type s
  | join_post_join_filter => exact peg_join_post_join_filter s
  | join_relation => exact peg_join_relation s
  | set_op => exact peg_set_op s
  | set_relation => exact peg_set_relation s
  | cross_relation => exact peg_cross_relation s
  | extension_relation => exact peg_extension_relation s
  | extension_name => exact peg_extension_name s
  | extension_type => exact peg_extension_type s
  | extension_args => exact peg_extension_args s
  | extension_arguments => exact peg_extension_arguments s
  | parameter_literal => exact peg_parameter_literal s
  | tuple => exact peg_tuple s (Nat.le_succ _) ha
  | extension_argument => exact peg_extension_argument s
  | extension_named_arguments => exact peg_extension_named_arguments s
  | extension_named_argument => exact peg_extension_named_argument s
  | extension_columns => exact peg_extension_columns s
  | extension_column => exact peg_extension_column s
  | addendum => exact peg_addendum s
  | addendum_type => exact peg_addendum_type s
  | interval_day_duration => exact peg_interval_day_duration s
  | duration_days => exact peg_duration_days s
  | duration_seconds => exact peg_duration_seconds s
  | duration_subseconds => exact peg_duration_subseconds s
  | subsecond_unit => exact peg_subsecond_unit s

/-- Every rule of the grammar file, on every text: the model's recogniser matches when pest matches,
leaves what pest leaves, and fails when pest fails. -/
theorem C83_rules (r : R) (s : Str) (o : Option Str) : Peg (.rule r) s o ↔ o = leaves r s :=
  ⟨fun h => h.det (peg_leaves r s), fun h => h ▸ peg_leaves r s⟩

/-- A capitalised list of a user type written every way the printer never writes it. -/
example : Peg R.type cs!"LIST?<u!point#8@ 2<>>, x" (some cs!", x") := (C83_rules _ _ _).2 (by decide +kernel)
/-- An integer type has no parameters and no prefix. -/
example : Peg R.type cs!"i64<>" (some cs!"<>") := (C83_rules _ _ _).2 (by decide +kernel)
example : Peg R.tuple cs!"( 1 , 2, )" (some []) := (C83_rules _ _ _).2 (by decide +kernel)
example : Peg R.expression cs!"count:()" none := (C83_rules _ _ _).2 (by decide +kernel)
example : Peg R.expression cs!"count:( ):i64" none := (C83_rules _ _ _).2 (by decide +kernel)
example : Peg R.expression cs!"count: # 1 @ 2 ():i64 " (some cs!" ") := (C83_rules _ _ _).2 (by decide +kernel)

/-- On every text every rule has exactly one outcome: running the grammar ends, and it never has a
choice. -/
theorem C83_ends (r : R) (s : Str) : ∃ o, Peg (.rule r) s o ∧ ∀ o', Peg (.rule r) s o' → o' = o :=
  ⟨_, peg_leaves r s, fun _ h => h.det (peg_leaves r s)⟩

/-- A line of the plan section is understood exactly when the rule for it matches a beginning of it. -/
theorem C83_lines (s : Str) :
    ((nodeLine s).isSome ↔ ∃ r, Peg R.planNode s (some r)) ∧
    ((topLine s).isSome ↔ ∃ r, Peg R.top_level_relation s (some r)) := by
  constructor
  · rw [nodeLine_node]
    have h := C83_rules .planNode s
    constructor
    · intro hs
      cases e : pNode s with
      | none => rw [e] at hs; cases hs
      | some x => exact ⟨x.2, (h _).2 (by simp [leaves, ext, e])⟩
    · rintro ⟨r, hr⟩
      have := (h _).1 hr
      cases e : pNode s with
      | none => simp [leaves, ext, e] at this
      | some x => rfl
  · rw [topLine_top]
    have h := C83_rules .top_level_relation s
    constructor
    · intro hs
      cases e : pTop s with
      | none => rw [e] at hs; cases hs
      | some x => exact ⟨x.2, (h _).2 (by simp [leaves, ext, e])⟩
    · rintro ⟨r, hr⟩
      have := (h _).1 hr
      cases e : pTop s with
      | none => simp [leaves, ext, e] at this
      | some x => rfl

/-- The first line of a plan may be a root; an inner line may not. -/
example : (topLine cs!"Root[a , \"b\"] and more").isSome ∧ nodeLine cs!"Root[a]" = none := by decide +kernel

/-- A declaration line: the syntax error is exactly the failure of the rule, and a line of which the rule matches
only a beginning panics. -/
theorem C83_declarations (st : ExtState) (k : Kind) (s : Str) :
    (st.decl k s = .err .syntax ↔ Peg R.simple_extension s none) ∧
    (st.urn s = .err .syntax ↔ Peg R.extension_urn_declaration s none) ∧
    (∀ c r, Peg R.simple_extension s (some (c :: r)) → st.decl k s = .panic) ∧
    (∀ c r, Peg R.extension_urn_declaration s (some (c :: r)) → st.urn s = .panic) := by
  have ins : ∀ x, st.inserted x ≠ .err .syntax := by
    rintro ⟨_, _ | _⟩ h <;> cases h
  refine ⟨?_, ?_, fun c r h => ?_, fun c r h => ?_⟩
  · rw [C83_rules]
    unfold ExtState.decl leaves
    cases e : pDecl s with
    | none => simp [ext, e]
    | some x =>
      obtain ⟨⟨a, u, n⟩, r⟩ := x
      refine ⟨fun h => ?_, fun h => by simp [ext, e] at h⟩
      dsimp only at h
      repeat' split at h
      all_goals first | (exact absurd h (ins _)) | cases h
  · rw [C83_rules]
    unfold ExtState.urn leaves
    cases e : pUrnDecl s with
    | none => simp [ext, e]
    | some x =>
      obtain ⟨⟨a, u⟩, r⟩ := x
      refine ⟨fun h => ?_, fun h => by simp [ext, e] at h⟩
      dsimp only at h
      repeat' split at h
      all_goals first | (exact absurd h (ins _)) | cases h
  · rw [C83_rules] at h
    unfold ExtState.decl
    cases e : pDecl s with
    | none => simp [leaves, ext, e] at h
    | some x =>
      obtain ⟨⟨a, u, n⟩, r'⟩ := x
      simp only [leaves, ext, e, Option.map_some, Option.some.injEq] at h
      subst h
      simp
  · rw [C83_rules] at h
    unfold ExtState.urn
    cases e : pUrnDecl s with
    | none => simp [leaves, ext, e] at h
    | some x =>
      obtain ⟨⟨a, u⟩, r'⟩ := x
      simp only [leaves, ext, e, Option.map_some, Option.some.injEq] at h
      subst h
      simp

/-- Spaces are allowed after the signs and around the colon, and a signature may be empty. -/
example : Peg R.simple_extension cs!"# 1  @ 2 :  u!count:" (some []) := (C83_rules _ _ _).2 (by decide +kernel)
example : Peg R.simple_extension cs!"#1@2: a b" (some cs!" b") := (C83_rules _ _ _).2 (by decide +kernel)
example : Peg R.extension_urn_declaration cs!"@1 : a" none := (C83_rules _ _ _).2 (by decide +kernel)

/-- The text of a day interval is understood exactly when the rule for it matches all of it. -/
theorem C83_durations (s : Str) : (pDuration s).isSome ↔ Peg R.interval_day_duration s (some []) := by
  rw [C83_rules]
  unfold leaves
  cases e : pDuration s <;> simp [e]

example : (pDuration cs!"-5d 3s 100ns").isSome ∧ pDuration cs!"5d  3s" = none ∧ pDuration cs!"3s 5d" = none :=
  by decide +kernel

end Verif
