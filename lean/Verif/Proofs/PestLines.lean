import Verif.Proofs.PestExprs
/-!
# The recognisers are the grammar file: declarations, relations, durations
-/

namespace Verif
namespace PestSpec

set_option autoImplicit false

variable {α β : Type}

/-! ## Declarations -/

theorem isClass_noSpace : IsClass (.no R.whitespace ~~ .any) (· != ' ') := by
  refine ⟨.seq (.no (peg_whitespace [])) .anyFail, fun c s => ?_⟩
  have := (isClass_rule (r := .whitespace) (isClass_lit ' ')).2 c s
  by_cases h : c = ' '
  · rw [if_pos (by simpa using h)] at this
    rw [if_neg (by simpa using h)]
    exact .seqFail (.noFail this)
  · rw [if_neg (by simpa using h)] at this
    rw [if_pos (by simpa using h)]
    exact .seq (.no this) (.any c s)

theorem peg_urn (s : Str) : Peg R.urn s
    (if (s.takeWhile (· != ' ')).isEmpty then none else some (s.dropWhile (· != ' '))) :=
  .rule (isClass_noSpace.plus s)

theorem peg_extension_urn_declaration (s : Str) : Peg R.extension_urn_declaration s (ext (pUrnDecl s)) := by
  refine .rule (.bindPair (peg_urn_anchor s) fun _ _ _ _ => .bindStr (peg_lit _ _) fun r _ _ => .sp_ ?_)
  have := peg_urn (skipSp r)
  dsimp only
  split at this
  · rename_i h; rw [if_pos h]; exact this
  · rename_i h; rw [if_neg h]; exact this

theorem peg_simple_extension_name (s : Str) : Peg R.simple_extension_name s (ext (pExtName s)) := by
  have h : ∀ r, Peg (R.identifier ~~ .opt (.lit cs!":" ~~ .opt R.argument_signature)) r (ext (pFunSig r)) := by
    intro r
    have := peg_function_signature r
    generalize ext (pFunSig r) = o at this
    cases this with
    | rule h => exact h
  have h1 := peg_lit cs!"u!" s
  refine .rule ?_
  unfold pExtName
  cases e : lit cs!"u!" s with
  | none => rw [e] at h1; exact .seq (.optNone h1) (h s)
  | some r => rw [e] at h1; exact .seq (.optSome h1) (.mapFst_ (h r))

theorem peg_simple_extension (s : Str) : Peg R.simple_extension s (ext (pDecl s)) :=
  .rule (.bindPair (peg_anchor s) fun _ _ _ _ => .sp_ (.bindPair (peg_urn_anchor _) fun _ _ _ _ =>
    .sp_ (.bindStr (peg_lit _ _) fun _ _ _ => .sp_ (.lastPair (fun _ => rfl) (peg_simple_extension_name _)))))

/-! ## Parts of relations -/

theorem arrow_then {b : G} {s : Str} {f : Str → Option (α × Str)} (h : ∀ r, Peg b r (ext (f r))) :
    Peg (R.sp ~~ .lit cs!"=>" ~~ R.sp ~~ b) s (ext (pArrow s >>= f)) := by
  refine .sp_ ?_
  have h1 := peg_lit cs!"=>" (skipSp s)
  unfold pArrow
  cases e : lit cs!"=>" (skipSp s) with
  | none => rw [e] at h1; exact .seqFail h1
  | some r => rw [e] at h1; exact .seq h1 (.sp_ (h _))

theorem peg_table_name (s : Str) : Peg R.table_name s (ext (pSep1 pDot pName s)) :=
  .rule (peg_sep1 (N := s.length + 1) (fun t _ => peg_name t) (round_lit (by decide) fun t _ => peg_name t)
    (lit_lt (by decide)) s (Nat.lt_succ_self _))

theorem peg_named_column_list (s : Str) : Peg R.named_column_list s (some (pColumns s).2) :=
  .rule (sep_comma peg_named_column s)

theorem peg_reference_list (s : Str) : Peg R.reference_list s (some (pRefs s).2) :=
  .rule (sep_spComma peg_reference s)

theorem peg_suffix (s : Str) : Peg (R.sp ~~ .lit cs!"|>" ~~ R.sp ~~ R.reference_list) s (ext (pSuffix s)) :=
  .sp_ (.bindStr (peg_lit _ _) fun _ _ _ => .sp_ (peg_reference_list _))

theorem peg_emit_suffix (s : Str) : Peg R.emit_suffix s (some (pOpt pSuffix s).2) := .rule (.opt_ (peg_suffix s))

theorem peg_implicit_output (s : Str) : Peg R.implicit_output s (ext (pImplicit s)) :=
  .rule (.bindStr (peg_lit _ s) fun _ _ _ => .sp_ (peg_named_column_list _))

theorem peg_direct_output (s : Str) : Peg R.direct_output s (ext (pDirect s)) :=
  .rule (.bindStr (peg_lit _ s) fun _ _ _ => .sp_ (.seq (peg_named_column_list _) (peg_emit_suffix _)))

theorem peg_output (s : Str) : Peg R.output s (ext (pOutput s)) :=
  .rule (.alt (peg_implicit_output s) (peg_direct_output s))

theorem star_comma {g : G} {p : Str → Option (α × Str)} (hg : ∀ s, Peg g s (ext (p s))) (s : Str) :
    Peg (.star (.lit cs!"," ~~ R.sp ~~ g)) s (some (pStarN commaSp p s.length s).2) := by
  refine peg_star (N := s.length + 1) (round_commaSp fun s _ => hg s) ?_ _ s (Nat.le_refl _) (Nat.lt_succ_self _)
  intro s t a u _ h1 h2
  have h3 := commaSp_lt s t h1
  have h4 := hg t
  rw [h2] at h4
  have : u.length ≤ t.length := h4.le
  omega

theorem peg_expression_list (s : Str) : Peg R.expression_list s (ext (pExprList s)) :=
  .rule (.bindPair (peg_expression s) fun _ _ _ _ => .sp_ (star_comma peg_expression _))

/-! ## Continuation lines -/

theorem peg_newline (s : Str) : Peg .newline s (pNewline s) := by
  have h1 := peg_lit cs!"\n" s
  have h2 := peg_lit cs!"\r\n" s
  have h3 := peg_lit cs!"\r" s
  unfold pNewline
  cases e1 : lit cs!"\n" s with
  | some r => rw [e1] at h1; exact .altFirst h1
  | none =>
    rw [e1] at h1
    refine .altNext h1 ?_
    cases e2 : lit cs!"\r\n" s with
    | some r => rw [e2] at h2; exact .altFirst h2
    | none => rw [e2] at h2; exact .altNext h2 h3

theorem peg_relation_line_cont (s : Str) : Peg R.relation_line_cont s (pCont s) := by
  refine .rule (.sp_ ?_)
  have h1 := peg_newline (skipSp s)
  unfold pCont
  cases e1 : pNewline (skipSp s) with
  | none => rw [e1] at h1; exact .seqFail h1
  | some r =>
    rw [e1] at h1
    refine .seq h1 (.sp_ ?_)
    have h2 := peg_lit cs!"- " (skipSp r)
    show Peg _ _ (lit cs!"- " (skipSp r) >>= fun s => some (skipSp s))
    cases e2 : lit cs!"- " (skipSp r) with
    | none => rw [e2] at h2; exact .seqFail h2
    | some t => rw [e2] at h2; exact .seq h2 (peg_sp t)

theorem peg_contOrSp (s : Str) : Peg (R.relation_line_cont /// R.sp) s (some (contOrSp s)) := by
  have h := peg_relation_line_cont s
  unfold contOrSp
  cases e : pCont s with
  | none => rw [e] at h; exact .altNext h (peg_sp s)
  | some r => rw [e] at h; exact .altFirst h

theorem peg_relation_open (s : Str) : Peg R.relation_open s (relOpen s) := by
  refine .rule ?_
  have h := peg_lit cs!"[" s
  unfold relOpen
  cases e : lit cs!"[" s with
  | none => rw [e] at h; exact .seqFail h
  | some r =>
    rw [e] at h
    refine .seq h ?_
    have h2 := peg_relation_line_cont r
    show Peg _ _ (some ((pCont r).getD r))
    cases e2 : pCont r with
    | none => rw [e2] at h2; exact .optNone h2
    | some t => rw [e2] at h2; exact .optSome h2

theorem peg_relation_comma (s : Str) : Peg R.relation_comma s (relComma s) := by
  refine .rule (.sp_ ?_)
  have h := peg_lit cs!"," (skipSp s)
  unfold relComma
  cases e : lit cs!"," (skipSp s) with
  | none => rw [e] at h; exact .seqFail h
  | some r => rw [e] at h; exact .seq h (peg_contOrSp r)

theorem peg_relation_arrow (s : Str) : Peg R.relation_arrow s (relArrow s) := by
  refine .rule (.seq (peg_contOrSp s) ?_)
  have h := peg_lit cs!"=>" (contOrSp s)
  unfold relArrow
  cases e : lit cs!"=>" (contOrSp s) with
  | none => rw [e] at h; exact .seqFail h
  | some r => rw [e] at h; exact .seq h (peg_sp r)

theorem peg_relation_end (s : Str) : Peg R.relation_end s (relEnd s) := by
  refine .rule (.sp_ ?_)
  unfold relEnd
  cases e : skipSp s with
  | nil => exact .eoi
  | cons c t => exact .eoiFail c t

theorem relComma_lt (s t : Str) (h : relComma s = some t) : t.length < s.length := by
  unfold relComma at h
  cases e : lit cs!"," (skipSp s) with
  | none => rw [e] at h; cases h
  | some u =>
    rw [e] at h; cases h
    have := lit_lt (by decide) _ _ e
    have := (peg_contOrSp u).le
    have := skipSp_le' s
    omega

theorem peg_virtual_row (s : Str) : Peg R.virtual_row s (ext (pRow s)) :=
  .rule (.bindStr (peg_lit _ s) fun _ _ _ => .sp_ (.seq (.opt_ (peg_expression_list _)) (.sp_ (.last (peg_lit _ _)))))

theorem peg_virtual_row_list (s : Str) : Peg R.virtual_row_list s (ext (pSep1 relComma pRow s)) := by
  refine .rule (peg_sep1 (N := s.length + 1) (fun t _ => peg_virtual_row t) ?_ relComma_lt s (Nat.lt_succ_self _))
  intro t _
  have h := peg_relation_comma t
  cases e : relComma t with
  | none => rw [e] at h; exact .seqFail h
  | some r => rw [e] at h; exact .seq h (peg_virtual_row r)

theorem peg_virtual_read_rows (s : Str) : Peg R.virtual_read_rows s (ext (pRows s)) :=
  .rule (.alt (peg_virtual_row_list s) (.tag (peg_empty s)))

theorem peg_virtual_read_filter (s : Str) : Peg R.virtual_read_filter s (ext (pVFilter s)) :=
  .rule (.bindStr (peg_lit _ s) fun _ _ _ => .sp_ (.bindStr (peg_lit _ _) fun _ _ _ => .sp_ (peg_expression _)))

theorem peg_commaFilter (s : Str) : Peg (R.relation_comma ~~ R.virtual_read_filter) s (ext (pCommaFilter s)) :=
  .bindStr (peg_relation_comma s) fun r _ _ => peg_virtual_read_filter r

theorem peg_virtual_read_relation (s : Str) : Peg R.virtual_read_relation s (ext (pReadVirtual s)) :=
  .rule (.bindStr (peg_lit _ s) fun _ _ _ => .bindStr (peg_relation_open _) fun _ _ _ =>
    .bindPair (peg_virtual_read_rows _) fun _ _ _ _ => .seq (.opt_ (peg_commaFilter _))
      (.bindStr (peg_relation_arrow _) fun _ _ _ => .seq (peg_named_column_list _)
        (.bindStr (peg_lit _ _) fun _ _ _ => .last (peg_relation_end _))))

/-! ## Relations -/

theorem peg_root_name_list (s : Str) : Peg R.root_name_list s (some (pSep spCommaSp pName s).2) :=
  .rule (sep_spComma peg_name s)

theorem peg_root_relation (s : Str) : Peg R.root_relation s (ext (pRoot s)) :=
  .rule (peg_lit2 cs!"Root" cs!"[" s (.bindStr (peg_lit _ s) fun _ _ _ =>
    .seq (peg_root_name_list _) (.last (peg_lit _ _))))

theorem peg_read_relation (s : Str) : Peg R.read_relation s (ext (pRead s)) :=
  .rule (peg_lit2 cs!"Read" cs!"[" s (.bindStr (peg_lit _ s) fun _ _ _ =>
    .bindPair (peg_table_name _) fun _ _ _ _ => .sp_ (.bindPair (peg_output _) fun _ _ _ _ => .last (peg_lit _ _))))

theorem peg_extension_read_relation (s : Str) : Peg R.extension_read_relation s (ext (pReadExt s)) :=
  .rule (peg_lit2 cs!"Read:Extension" cs!"[" s (.bindStr (peg_lit _ s) fun _ _ _ =>
    .seq (peg_named_column_list _) (.last (peg_lit _ _))))

theorem peg_refsClose (s : Str) : Peg (R.reference_list ~~ .lit cs!"]") s (ext (pRefsClose s)) :=
  .seq (peg_reference_list s) (.last (peg_lit _ _))

theorem peg_filter_relation (s : Str) : Peg R.filter_relation s (ext (pFilter s)) :=
  .rule (peg_lit2 cs!"Filter" cs!"[" s (.bindStr (peg_lit _ s) fun _ _ _ =>
    .bindPair (peg_expression _) fun _ _ _ _ => arrow_then fun _ => .lastPair (fun _ => rfl) (peg_refsClose _)))

theorem peg_project_argument (s : Str) : Peg R.project_argument s (ext (pProjArg s)) :=
  .rule (.alt (.mapFst_ (peg_reference s)) (.mapFst_ (peg_expression s)))

theorem peg_project_argument_list (s : Str) : Peg R.project_argument_list s (some (pSep spCommaSp pProjArg s).2) :=
  .rule (sep_spComma peg_project_argument s)

theorem peg_project_relation (s : Str) : Peg R.project_relation s (ext (pProject s)) :=
  .rule (peg_lit2 cs!"Project" cs!"[" s (.bindStr (peg_lit _ s) fun _ _ _ =>
    .seq (peg_project_argument_list _) (.last (peg_lit _ _))))

theorem peg_grouping_set (s : Str) : Peg R.grouping_set s (ext (pGroupingSet s)) :=
  .rule (.alt (.bindStr (peg_lit _ s) fun _ _ _ => .sp_ (.bindPair (peg_expression_list _) fun _ _ _ _ =>
    .sp_ (.last (peg_lit _ _)))) (.tag (peg_empty s)))

theorem peg_grouping_set_list (s : Str) : Peg R.grouping_set_list s (ext (pGroupingSets s)) :=
  .rule (.bindPair (peg_grouping_set s) fun _ _ _ _ => .sp_ (star_comma peg_grouping_set _))

theorem peg_aggregate_group_by (s : Str) : Peg R.aggregate_group_by s (ext (pGroupBy s)) :=
  .rule (.alt (.mapFst_ (peg_grouping_set_list s)) (.mapFst_ (peg_expression_list s)))

theorem peg_aggregate_output (s : Str) : Peg R.aggregate_output s (some (pSep spCommaSp pExpr s).2) :=
  .rule (sep_spComma peg_expression s)

theorem peg_aggregate_relation (s : Str) : Peg R.aggregate_relation s (ext (pAggregate s)) :=
  .rule (peg_lit2 cs!"Aggregate" cs!"[" s (.bindStr (peg_lit _ s) fun _ _ _ =>
    .bindPair (peg_aggregate_group_by _) fun _ _ _ _ => arrow_then fun _ =>
      .seq (peg_aggregate_output _) (.last (peg_lit _ _))))

theorem peg_sort_direction (s : Str) : Peg R.sort_direction s (ext (pFirst sortNames s)) :=
  .rule (peg_first cs!"&AscNullsFirst" sortNames.tail s)

theorem peg_sort_field (s : Str) : Peg R.sort_field s (ext (pSortField s)) :=
  .rule (.bindStr (peg_lit _ s) fun _ _ _ => .sp_ (.bindPair (peg_expression _) fun _ _ _ _ =>
    .sp_ (.bindStr (peg_lit _ _) fun _ _ _ => .sp_ (.bindPair (peg_sort_direction _) fun _ _ _ _ =>
      .sp_ (.last (peg_lit _ _))))))

theorem peg_sort_field_list (s : Str) : Peg R.sort_field_list s (some (pSep spCommaSp pSortField s).2) :=
  .rule (sep_spComma peg_sort_field s)

theorem peg_sort_relation (s : Str) : Peg R.sort_relation s (ext (pSort s)) :=
  .rule (peg_lit2 cs!"Sort" cs!"[" s (.bindStr (peg_lit _ s) fun _ _ _ =>
    .seq (peg_sort_field_list _) (arrow_then fun _ => .lastPair (fun _ => rfl) (peg_refsClose _))))

theorem peg_fetch_arg_name (s : Str) : Peg R.fetch_arg_name s (ext (pFirst [cs!"limit", cs!"offset"] s)) :=
  .rule (peg_first cs!"limit" [cs!"offset"] s)

theorem peg_fetch_value (s : Str) : Peg R.fetch_value s (ext (pFetchValue s)) :=
  .rule (.alt (.mapFst_ (peg_integer s)) (.mapFst_ (peg_expression s)))

theorem peg_fetch_named_arg (s : Str) : Peg R.fetch_named_arg s (ext (pFetchArg s)) :=
  .rule (.bindPair (peg_fetch_arg_name s) fun _ _ _ _ => .sp_ (.bindStr (peg_lit _ _) fun _ _ _ =>
    .sp_ (.lastPair (fun _ => rfl) (peg_fetch_value _))))

theorem peg_fetch_named_arg_list (s : Str) : Peg R.fetch_named_arg_list s (ext (pSep1 spCommaSp pFetchArg s)) :=
  .rule (sep1_spComma peg_fetch_named_arg s)

theorem peg_fetch_args (s : Str) : Peg R.fetch_args s (ext (pFetchArgs s)) :=
  .rule (.alt (peg_fetch_named_arg_list s) (.tag (peg_empty s)))

theorem peg_fetch_relation (s : Str) : Peg R.fetch_relation s (ext (pFetch s)) :=
  .rule (peg_lit2 cs!"Fetch" cs!"[" s (.bindStr (peg_lit _ s) fun _ _ _ =>
    .bindPair (peg_fetch_args _) fun _ _ _ _ => arrow_then fun _ => .lastPair (fun _ => rfl) (peg_refsClose _)))

theorem peg_join_type (s : Str) : Peg R.join_type s (ext (pFirst joinNames s)) :=
  .rule (peg_first cs!"&Inner" joinNames.tail s)

/-- `join_post_join_filter`, which the model reads together with the comma before it. -/
def pPost (s : Str) : Option (SExpr × Str) := do
  let s ← lit cs!"post_filter" s
  let s ← lit cs!"=" (skipSp s)
  pExpr (skipSp s)

theorem peg_join_post_join_filter (s : Str) : Peg R.join_post_join_filter s (ext (pPost s)) :=
  .rule (.bindStr (peg_lit _ s) fun _ _ _ => .sp_ (.bindStr (peg_lit _ _) fun _ _ _ => .sp_ (peg_expression _)))

theorem peg_postFilter (s : Str) :
    Peg (R.sp ~~ .lit cs!"," ~~ R.sp ~~ R.join_post_join_filter) s (ext (pPostFilter s)) :=
  spComma_then peg_join_post_join_filter

theorem peg_join_relation (s : Str) : Peg R.join_relation s (ext (pJoin s)) :=
  .rule (peg_lit2 cs!"Join" cs!"[" s (.bindStr (peg_lit _ s) fun _ _ _ =>
    .bindPair (peg_join_type _) fun _ _ _ _ => spComma_then fun _ => .bindPair (peg_expression _) fun _ _ _ _ =>
      .seq (.opt_ (peg_postFilter _)) (arrow_then fun _ => .lastPair (fun _ => rfl) (peg_refsClose _))))

theorem peg_set_op (s : Str) : Peg R.set_op s (ext (pFirst setNames s)) :=
  .rule (peg_first cs!"&IntersectionMultisetAll" setNames.tail s)

theorem peg_set_relation (s : Str) : Peg R.set_relation s (ext (pSet s)) :=
  .rule (peg_lit2 cs!"Set" cs!"[" s (.bindStr (peg_lit _ s) fun _ _ _ =>
    .bindPair (peg_set_op _) fun _ _ _ _ => arrow_then fun _ => .lastPair (fun _ => rfl) (peg_refsClose _)))

theorem peg_cross_relation (s : Str) : Peg R.cross_relation s (ext (pCross s)) :=
  .rule (peg_lit2 cs!"Cross" cs!"[" s (.bindStr (peg_lit _ s) fun _ _ _ => .lastPair (fun _ => rfl) (peg_refsClose _)))

theorem peg_extension_type (s : Str) : Peg R.extension_type s (ext (pExtKind s)) := by
  unfold pExtKind
  rw [Option.or_assoc]
  exact .rule (.alt (.tag (peg_lit _ s)) (.alt (.tag (peg_lit _ s)) (.tag (peg_lit _ s))))

theorem peg_rawName (s : Str) : Peg R.name s (ext (pRawName s)) := by
  have := peg_name s
  unfold pRawName
  cases e : pName s <;> rw [e] at this <;> exact this

/-- `extension_name`. -/
def pExtHead (s : Str) : Option ((ExtKind × Str) × Str) := do
  let (k, s) ← pExtKind s
  let s ← lit cs!":" s
  let (name, s) ← pRawName s
  some ((k, name), s)

theorem peg_extension_name (s : Str) : Peg R.extension_name s (ext (pExtHead s)) :=
  .rule (.bindPair (peg_extension_type s) fun _ _ _ _ => .bindStr (peg_lit _ _) fun _ _ _ =>
    .lastPair (fun _ => rfl) (peg_rawName _))

theorem peg_extension_columns (s : Str) : Peg R.extension_columns s (some (pSep spCommaSp pExtColumn s).2) :=
  .rule (sep_spComma peg_extension_column s)

theorem peg_extColumns (s : Str) :
    Peg (R.sp ~~ .lit cs!"=>" ~~ R.sp ~~ R.extension_columns) s (ext (pExtColumns s)) :=
  arrow_then fun r => peg_extension_columns r

theorem pExtRel_head (s : Str) : pExtRel s = (pExtHead s >>= fun x => lit cs!"[" x.2 >>= fun s =>
    lit cs!"]" (pOpt pExtColumns (pExtArgs (skipSp s)).2).2 >>= fun r =>
      some (.ext x.1.1 x.1.2 (pExtArgs (skipSp s)).1 ((pOpt pExtColumns (pExtArgs (skipSp s)).2).1.getD []), r)) := by
  unfold pExtRel pExtHead
  cases pExtKind s with
  | none => rfl
  | some x =>
    show (lit cs!":" x.2 >>= _) = ((lit cs!":" x.2 >>= _) >>= _)
    cases lit cs!":" x.2 with
    | none => rfl
    | some t =>
      show (pRawName t >>= _) = ((pRawName t >>= _) >>= _)
      cases pRawName t <;> rfl

theorem peg_extension_relation (s : Str) : Peg R.extension_relation s (ext (pExtRel s)) := by
  rw [pExtRel_head]
  exact .rule (.bindPair (peg_extension_name s) fun _ _ _ _ => .bindStr (peg_lit _ _) fun _ _ _ =>
    .sp_ (.seq (peg_extension_args _) (.seq (.opt_ (peg_extColumns _)) (.last (peg_lit _ _)))))

theorem peg_addendum_type (s : Str) : Peg R.addendum_type s (ext (pAddKind s)) := by
  unfold pAddKind
  rw [Option.or_assoc]
  exact .rule (.alt (.tag (peg_lit _ s)) (.alt (.tag (peg_lit _ s)) (.tag (peg_lit _ s))))

theorem peg_addendum (s : Str) : Peg R.addendum s (ext (pAddendum s)) :=
  .rule (.bindStr (peg_lit _ s) fun _ _ _ => .sp_ (.bindPair (peg_addendum_type _) fun _ _ _ _ =>
    .bindStr (peg_lit _ _) fun _ _ _ => .bindPair (peg_name _) fun _ _ _ _ => .bindStr (peg_lit _ _) fun _ _ _ =>
      .seq (peg_extension_args _) (.last (peg_lit _ _))))

/-- `planNode` as one recogniser. -/
def pNode (s : Str) : Option (LineNode SLine SAddendum × Str) :=
  (mapFst .relation (pRelLine s)).or (mapFst .addendum (pAddendum s))

theorem peg_planNode (s : Str) : Peg R.planNode s (ext (pNode s)) := by
  have h : Peg R.planNode s (ext ((pRelLine s).map (fun x => ((), x.2)) |>.or ((pAddendum s).map fun x => ((), x.2)))) := by
    have hm : ∀ {γ : Type} {g : G} {o : Option (γ × Str)}, Peg g s (ext o) → Peg g s (ext (o.map fun x => ((), x.2))) := by
      intro γ g o h
      cases o <;> exact h
    have ho : ∀ (a b : Option (SLine × Str)), (a.or b).map (fun x => ((), x.2)) =
        (a.map fun x => ((), x.2)).or (b.map fun x => ((), x.2)) := by
      intro a b; cases a <;> rfl
    unfold pRelLine
    simp only [ho, Option.or_assoc]
    exact .rule (.alt (hm (peg_extension_read_relation s)) (.alt (hm (peg_virtual_read_relation s))
      (.alt (hm (peg_read_relation s)) (.alt (hm (peg_filter_relation s)) (.alt (hm (peg_project_relation s))
        (.alt (hm (peg_aggregate_relation s)) (.alt (hm (peg_sort_relation s)) (.alt (hm (peg_fetch_relation s))
          (.alt (hm (peg_join_relation s)) (.alt (hm (peg_set_relation s)) (.alt (hm (peg_cross_relation s))
            (.alt (hm (peg_extension_relation s)) (hm (peg_addendum s))))))))))))))
  unfold pNode
  cases e1 : pRelLine s <;> cases e2 : pAddendum s <;> rw [e1, e2] at h <;> exact h

/-- `top_level_relation` as one recogniser. -/
def pTop (s : Str) : Option (LineNode SLine SAddendum × Str) := (mapFst .relation (pRoot s)).or (pNode s)

theorem peg_top_level_relation (s : Str) : Peg R.top_level_relation s (ext (pTop s)) :=
  .rule (.alt (.mapFst_ (peg_root_relation s)) (peg_planNode s))

theorem nodeLine_node (s : Str) : nodeLine s = (pNode s).map (·.1) := by
  unfold nodeLine pNode
  cases pRelLine s with
  | none => cases pAddendum s <;> rfl
  | some x => rfl

theorem topLine_top (s : Str) : topLine s = (pTop s).map (·.1) := by
  unfold topLine pTop
  cases pRoot s with
  | none => rw [nodeLine_node]; cases pNode s <;> rfl
  | some x => rfl

/-! ## Durations -/

theorem peg_subsecond_unit (s : Str) : Peg R.subsecond_unit s (ext (pFirst [cs!"ms", cs!"us", cs!"ns", cs!"ps"] s)) :=
  .rule (peg_first cs!"ms" [cs!"us", cs!"ns", cs!"ps"] s)

theorem peg_duration_days (s : Str) : Peg R.duration_days s (ext (pTerm cs!"d" s)) :=
  .rule (.bindPair (peg_integer s) fun _ _ _ _ => .last (peg_lit _ _))

theorem peg_duration_seconds (s : Str) : Peg R.duration_seconds s (ext (pTerm cs!"s" s)) :=
  .rule (.bindPair (peg_integer s) fun _ _ _ _ => .last (peg_lit _ _))

theorem peg_duration_subseconds (s : Str) : Peg R.duration_subseconds s (ext (pSub s)) :=
  .rule (.bindPair (peg_integer s) fun _ _ _ _ => .lastPair (fun _ => rfl) (peg_subsecond_unit _))

theorem peg_spThen {g : G} {p : Str → Option (α × Str)} (h : ∀ s, Peg g s (ext (p s))) (s : Str) :
    Peg (R.whitespace ~~ g) s (ext (spThen p s)) :=
  .bindStr (peg_whitespace s) fun r _ _ => h r

theorem peg_durBody (s : Str) : Peg
    ((R.duration_days ~~ .opt (R.whitespace ~~ R.duration_seconds) ~~ .opt (R.whitespace ~~ R.duration_subseconds)) ///
     (R.duration_seconds ~~ .opt (R.whitespace ~~ R.duration_subseconds)) /// R.duration_subseconds) s
    (ext (pDurBody s)) := by
  have h1 := peg_duration_days s
  have h2 := peg_duration_seconds s
  unfold pDurBody
  cases e1 : pTerm cs!"d" s with
  | some x =>
    rw [e1] at h1
    exact .altFirst (.seq h1 (.seq (.opt_ (peg_spThen peg_duration_seconds _)) (.opt_ (peg_spThen peg_duration_subseconds _))))
  | none =>
    rw [e1] at h1
    refine .altNext (.seqFail h1) ?_
    dsimp only
    cases e2 : pTerm cs!"s" s with
    | some x =>
      rw [e2] at h2
      exact .altFirst (.seq h2 (.opt_ (peg_spThen peg_duration_subseconds _)))
    | none =>
      rw [e2] at h2
      exact .altNext (.seqFail h2) (.mapFst_ (peg_duration_subseconds s))

theorem peg_interval_day_duration (s : Str) : Peg R.interval_day_duration s ((pDuration s).map fun _ => []) := by
  refine .rule (.seq (.lit [] s) ?_)
  have h := peg_durBody s
  unfold pDuration
  cases e : pDurBody s with
  | none => rw [e] at h; exact .seqFail h
  | some x =>
    obtain ⟨x, r⟩ := x
    rw [e] at h
    refine .seq h ?_
    cases r with
    | nil => exact .eoi
    | cons c t => exact .eoiFail c t

end PestSpec
end Verif
