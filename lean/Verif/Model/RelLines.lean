import Verif.Model.Rels
import Verif.Model.Tree
/-!
# Relation lines

The relation rules of `src/parser/expression_grammar.pest` L231-418: what pest returns for one line
(for `Read:Virtual`, one chunk of lines) of the plan section.
-/

namespace Verif

set_option autoImplicit false

/-- Parse tree of `named_column`. -/
abbrev SColumn := Str × STy

/-- Parse tree of `output` (L240). -/
inductive SOutput where
  | implicit (cols : List SColumn)
  /-- `suffix` is `none` when `emit_suffix` matched nothing -/
  | direct (cols : List SColumn) (suffix : Option (List IntTok))

/-- Parse tree of `project_argument` (L314). -/
inductive SProj where
  | ref (i : IntTok)
  | expr (e : SExpr)

/-- Parse tree of `fetch_value` (L344). -/
inductive SFetch where
  | int (i : IntTok)
  | expr (e : SExpr)

/-- Parse tree of `aggregate_group_by` (L325): one list of expressions, or sets, `[]` for `_`. -/
inductive SGroup where
  | exprs (l : List SExpr)
  | sets (l : List (List SExpr))

/-- Parse tree of a relation line. -/
inductive SLine where
  | root (names : List Str)
  | read (table : List Str) (out : SOutput)
  | readVirtual (rows : List (List SExpr)) (filter : Option SExpr) (cols : List SColumn)
  | readExt (cols : List SColumn)
  | filter (cond : SExpr) (refs : List IntTok)
  | project (args : List SProj)
  | aggregate (group : SGroup) (outs : List SExpr)
  | sort (fields : List (SExpr × Str)) (refs : List IntTok)
  /-- `[]` for `_` -/
  | fetch (args : List (Str × SFetch)) (refs : List IntTok)
  | join (ty : Str) (cond : SExpr) (post : Option SExpr) (refs : List IntTok)
  | set (op : Str) (refs : List IntTok)
  | cross (refs : List IntTok)
  | ext (kind : ExtKind) (name : Str) (args : SArgs) (cols : List SCol)

/-- Parse tree of `addendum` (L417). -/
structure SAddendum where
  kind : AddKind
  name : Str
  args : SArgs

/-! ## Parts -/

/-- `sp ~ "=>" ~ sp`. -/
def pArrow (s : Str) : Option Str := (lit cs!"=>" (skipSp s)).map skipSp

/-- `"." ~ name`, the separator. -/
def pDot (s : Str) : Option Str := lit cs!"." s

/-- `named_column_list` (L234). -/
def pColumns (s : Str) : List SColumn × Str := pSep commaSp pNamedColumn s

/-- `reference_list` (L310). -/
def pRefs (s : Str) : List IntTok × Str := pSep spCommaSp pRef s

/-- What `emit_suffix` (L243) has inside. -/
def pSuffix (s : Str) : Option (List IntTok × Str) := do
  let s ← lit cs!"|>" (skipSp s)
  some (pRefs (skipSp s))

/-- `implicit_output` (L241). -/
def pImplicit (s : Str) : Option (SOutput × Str) := do
  let s ← lit cs!"=>" s
  let (cols, s) := pColumns (skipSp s)
  some (.implicit cols, s)

/-- `direct_output` (L242). -/
def pDirect (s : Str) : Option (SOutput × Str) := do
  let s ← lit cs!"+>" s
  let (cols, s) := pColumns (skipSp s)
  let (suffix, s) := pOpt pSuffix s
  some (.direct cols suffix, s)

/-- `output` (L240). -/
def pOutput (s : Str) : Option (SOutput × Str) := (pImplicit s).or (pDirect s)

/-- `expression_list` (L328): spaces are allowed only before the first comma. -/
def pExprList (s : Str) : Option (List SExpr × Str) := do
  let (e, s) ← pExpr s
  let r := pStarN commaSp pExpr (skipSp s).length (skipSp s)
  some (e :: r.1, r.2)

/-! ## `Read` -/

/-- `read_relation` (L273). -/
def pRead (s : Str) : Option (SLine × Str) := do
  let s ← lit cs!"Read[" s
  let (table, s) ← pSep1 pDot pName s
  let (out, s) ← pOutput (skipSp s)
  let s ← lit cs!"]" s
  some (.read table out, s)

/-- `extension_read_relation` (L276). -/
def pReadExt (s : Str) : Option (SLine × Str) := do
  let s ← lit cs!"Read:Extension[" s
  let (cols, s) := pColumns s
  let s ← lit cs!"]" s
  some (.readExt cols, s)

/-- pest `NEWLINE`. -/
def pNewline (s : Str) : Option Str :=
  ((lit cs!"\n" s).or (lit cs!"\r\n" s)).or (lit cs!"\r" s)

/-- `relation_line_cont` (L284). -/
def pCont (s : Str) : Option Str := do
  let s ← pNewline (skipSp s)
  let s ← lit cs!"- " (skipSp s)
  some (skipSp s)

/-- `relation_line_cont | sp`. -/
def contOrSp (s : Str) : Str := (pCont s).getD (skipSp s)

/-- `relation_open` (L287). -/
def relOpen (s : Str) : Option Str := (lit cs!"[" s).map fun s => (pCont s).getD s

/-- `relation_comma` (L288). -/
def relComma (s : Str) : Option Str := (lit cs!"," (skipSp s)).map contOrSp

/-- `relation_arrow` (L289). -/
def relArrow (s : Str) : Option Str := (lit cs!"=>" (contOrSp s)).map skipSp

/-- `relation_end` (L303). -/
def relEnd (s : Str) : Option Str := if skipSp s = [] then some [] else none

/-- `virtual_row` (L307). -/
def pRow (s : Str) : Option (List SExpr × Str) := do
  let s ← lit cs!"(" s
  let (l, s) := pOpt pExprList (skipSp s)
  let s ← lit cs!")" (skipSp s)
  some (l.getD [], s)

/-- `virtual_read_rows` (L304). -/
def pRows (s : Str) : Option (List (List SExpr) × Str) :=
  (pSep1 relComma pRow s).or ((lit cs!"_" s).map fun r => ([], r))

/-- `virtual_read_filter` (L305). -/
def pVFilter (s : Str) : Option (SExpr × Str) := do
  let s ← lit cs!"filter" s
  let s ← lit cs!"=" (skipSp s)
  pExpr (skipSp s)

/-- `relation_comma ~ virtual_read_filter`. -/
def pCommaFilter (s : Str) : Option (SExpr × Str) := do pVFilter (← relComma s)

/-- `virtual_read_relation` (L302). -/
def pReadVirtual (s : Str) : Option (SLine × Str) := do
  let s ← lit cs!"Read:Virtual" s
  let s ← relOpen s
  let (rows, s) ← pRows s
  let (filter, s) := pOpt pCommaFilter s
  let s ← relArrow s
  let (cols, s) := pColumns s
  let s ← lit cs!"]" s
  let s ← relEnd s
  some (.readVirtual rows filter cols, s)

/-! ## Other relations -/

/-- `reference_list ~ "]"`. -/
def pRefsClose (s : Str) : Option (List IntTok × Str) := do
  let (refs, s) := pRefs s
  let s ← lit cs!"]" s
  some (refs, s)

/-- `filter_relation` (L309). -/
def pFilter (s : Str) : Option (SLine × Str) := do
  let s ← lit cs!"Filter[" s
  let (e, s) ← pExpr s
  let s ← pArrow s
  let (refs, s) ← pRefsClose s
  some (.filter e refs, s)

/-- `project_argument` (L314). -/
def pProjArg (s : Str) : Option (SProj × Str) := (mapFst .ref (pRef s)).or (mapFst .expr (pExpr s))

/-- `project_relation` (L312). -/
def pProject (s : Str) : Option (SLine × Str) := do
  let s ← lit cs!"Project[" s
  let (args, s) := pSep spCommaSp pProjArg s
  let s ← lit cs!"]" s
  some (.project args, s)

/-- First alternative of `grouping_set` (L327). -/
def pParenSet (s : Str) : Option (List SExpr × Str) := do
  let s ← lit cs!"(" s
  let (l, s) ← pExprList (skipSp s)
  let s ← lit cs!")" (skipSp s)
  some (l, s)

/-- `grouping_set` (L327). -/
def pGroupingSet (s : Str) : Option (List SExpr × Str) :=
  (pParenSet s).or ((lit cs!"_" s).map fun r => ([], r))

/-- `grouping_set_list` (L326): spaces are allowed only before the first comma. -/
def pGroupingSets (s : Str) : Option (List (List SExpr) × Str) := do
  let (g, s) ← pGroupingSet s
  let r := pStarN commaSp pGroupingSet (skipSp s).length (skipSp s)
  some (g :: r.1, r.2)

/-- `aggregate_group_by` (L325). -/
def pGroupBy (s : Str) : Option (SGroup × Str) :=
  (mapFst .sets (pGroupingSets s)).or (mapFst .exprs (pExprList s))

/-- `aggregate_relation` (L323). -/
def pAggregate (s : Str) : Option (SLine × Str) := do
  let s ← lit cs!"Aggregate[" s
  let (g, s) ← pGroupBy s
  let s ← pArrow s
  let (outs, s) := pSep spCommaSp pExpr s
  let s ← lit cs!"]" s
  some (.aggregate g outs, s)

/-- `sort_direction` (L340), in order. -/
def sortNames : List Str := [cs!"&AscNullsFirst", cs!"&AscNullsLast", cs!"&DescNullsFirst", cs!"&DescNullsLast"]

/-- `sort_field` (L339). -/
def pSortField (s : Str) : Option ((SExpr × Str) × Str) := do
  let s ← lit cs!"(" s
  let (e, s) ← pExpr (skipSp s)
  let s ← lit cs!"," (skipSp s)
  let (d, s) ← pFirst sortNames (skipSp s)
  let s ← lit cs!")" (skipSp s)
  some ((e, d), s)

/-- `sort_relation` (L337). -/
def pSort (s : Str) : Option (SLine × Str) := do
  let s ← lit cs!"Sort[" s
  let (fields, s) := pSep spCommaSp pSortField s
  let s ← pArrow s
  let (refs, s) ← pRefsClose s
  some (.sort fields refs, s)

/-- `fetch_value` (L344). -/
def pFetchValue (s : Str) : Option (SFetch × Str) := (mapFst .int (pInteger s)).or (mapFst .expr (pExpr s))

/-- `fetch_named_arg` (L345) with `fetch_arg_name` (L343). -/
def pFetchArg (s : Str) : Option ((Str × SFetch) × Str) := do
  let (n, s) ← pFirst [cs!"limit", cs!"offset"] s
  let s ← lit cs!"=" (skipSp s)
  let (v, s) ← pFetchValue (skipSp s)
  some ((n, v), s)

/-- `fetch_args` (L347). -/
def pFetchArgs (s : Str) : Option (List (Str × SFetch) × Str) :=
  (pSep1 spCommaSp pFetchArg s).or ((lit cs!"_" s).map fun r => ([], r))

/-- `fetch_relation` (L348). -/
def pFetch (s : Str) : Option (SLine × Str) := do
  let s ← lit cs!"Fetch[" s
  let (args, s) ← pFetchArgs s
  let s ← pArrow s
  let (refs, s) ← pRefsClose s
  some (.fetch args refs, s)

/-- `join_type` (L353), in order. -/
def joinNames : List Str :=
  [cs!"&Inner", cs!"&LeftSemi", cs!"&LeftAnti", cs!"&LeftSingle", cs!"&LeftMark", cs!"&Left",
   cs!"&RightSemi", cs!"&RightAnti", cs!"&RightSingle", cs!"&RightMark", cs!"&Right", cs!"&Outer"]

/-- `sp ~ "," ~ sp ~ join_post_join_filter` (L354-355). -/
def pPostFilter (s : Str) : Option (SExpr × Str) := do
  let s ← spCommaSp s
  let s ← lit cs!"post_filter" s
  let s ← lit cs!"=" (skipSp s)
  pExpr (skipSp s)

/-- `join_relation` (L355). -/
def pJoin (s : Str) : Option (SLine × Str) := do
  let s ← lit cs!"Join[" s
  let (t, s) ← pFirst joinNames s
  let s ← spCommaSp s
  let (e, s) ← pExpr s
  let (post, s) := pOpt pPostFilter s
  let s ← pArrow s
  let (refs, s) ← pRefsClose s
  some (.join t e post refs, s)

/-- `set_op` (L360), in order. -/
def setNames : List Str :=
  [cs!"&IntersectionMultisetAll", cs!"&IntersectionMultiset", cs!"&IntersectionPrimary",
   cs!"&MinusPrimaryAll", cs!"&MinusPrimary", cs!"&MinusMultiset", cs!"&UnionAll", cs!"&UnionDistinct"]

/-- `set_relation` (L361). -/
def pSet (s : Str) : Option (SLine × Str) := do
  let s ← lit cs!"Set[" s
  let (t, s) ← pFirst setNames s
  let s ← pArrow s
  let (refs, s) ← pRefsClose s
  some (.set t refs, s)

/-- `cross_relation` (L364). -/
def pCross (s : Str) : Option (SLine × Str) := do
  let s ← lit cs!"Cross[" s
  let (refs, s) ← pRefsClose s
  some (.cross refs, s)

/-- `extension_type` (L377), in order. -/
def pExtKind (s : Str) : Option (ExtKind × Str) :=
  (((lit cs!"ExtensionLeaf" s).map fun r => (ExtKind.leaf, r)).or
    ((lit cs!"ExtensionSingle" s).map fun r => (ExtKind.single, r))).or
      ((lit cs!"ExtensionMulti" s).map fun r => (ExtKind.multi, r))

/-- The text that `name` matched. -/
def pRawName (s : Str) : Option (Str × Str) :=
  (pName s).map fun r => (s.take (s.length - r.2.length), r.2)

/-- `sp ~ "=>" ~ sp ~ extension_columns` (L373). -/
def pExtColumns (s : Str) : Option (List SCol × Str) := do
  let s ← pArrow s
  some (pSep spCommaSp pExtColumn s)

/-- `extension_relation` (L373) and the name taken from it (parser/extensions.rs L476-489). -/
def pExtRel (s : Str) : Option (SLine × Str) := do
  let (k, s) ← pExtKind s
  let s ← lit cs!":" s
  let (name, s) ← pRawName s
  let s ← lit cs!"[" s
  let (args, s) := pExtArgs (skipSp s)
  let (cols, s) := pOpt pExtColumns s
  let s ← lit cs!"]" s
  some (.ext k name args (cols.getD []), s)

/-- `addendum_type` (L418). -/
def pAddKind (s : Str) : Option (AddKind × Str) :=
  (((lit cs!"Enh" s).map fun r => (AddKind.enh, r)).or ((lit cs!"Opt" s).map fun r => (AddKind.opt, r))).or
    ((lit cs!"Ext" s).map fun r => (AddKind.ext, r))

/-- `addendum` (L417). -/
def pAddendum (s : Str) : Option (SAddendum × Str) := do
  let s ← lit cs!"+" s
  let (k, s) ← pAddKind (skipSp s)
  let s ← lit cs!":" s
  let (name, s) ← pName s
  let s ← lit cs!"[" s
  let (args, s) := pExtArgs s
  let s ← lit cs!"]" s
  some (⟨k, name, args⟩, s)

/-- `root_relation` (L270). -/
def pRoot (s : Str) : Option (SLine × Str) := do
  let s ← lit cs!"Root[" s
  let (names, s) := pSep spCommaSp pName s
  let s ← lit cs!"]" s
  some (.root names, s)

/-- The relations of `planNode` (L245-262), in order. -/
def pRelLine (s : Str) : Option (SLine × Str) :=
  (((((((((((pReadExt s).or (pReadVirtual s)).or (pRead s)).or (pFilter s)).or (pProject s)).or
    (pAggregate s)).or (pSort s)).or (pFetch s)).or (pJoin s)).or (pSet s)).or (pCross s)).or (pExtRel s)

/-- structural.rs L97-125: parse of `planNode` (L245-262).  What follows the match is ignored. -/
def nodeLine (s : Str) : Option (LineNode SLine SAddendum) :=
  match pRelLine s with
  | some r => some (.relation r.1)
  | none => (pAddendum s).map fun r => .addendum r.1

/-- structural.rs L128-164: parse of `top_level_relation` (L265-268). -/
def topLine (s : Str) : Option (LineNode SLine SAddendum) :=
  match pRoot s with
  | some r => some (.relation r.1)
  | none => nodeLine s

end Verif
