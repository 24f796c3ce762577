import Verif.Model.RelLines
import Verif.Model.Tree
/-!
# Conversion of relation lines

`src/parser/relations.rs` and the conversion half of `src/parser/structural.rs` L303-778.

Several functions there return an error while a `RuleIter` with unread pairs is alive; its `Drop`
(parser/common.rs L303-313) then panics.  `dropPanics` marks these places.
-/

namespace Verif

set_option autoImplicit false

/-- Reasons to reject a parsed relation tree. -/
inductive RErr where
  /-- an expression, type or argument does not convert -/
  | conv (e : Err)
  /-- wrong number of inputs -/
  | arity
  /-- a leaf whose inputs have columns -/
  | inputFields
  /-- `Set` inputs of different widths -/
  | widths
  | badInteger
  | negative
  | notGrouping
  | doubleEnhancement
  | misplacedExt
  /-- not exactly one `+ Ext` under `Read:Extension` -/
  | extCount
  /-- addenda under an extension relation -/
  | noAddenda
  | unregistered (name : Str)
  | detail (e : ExtErr)
  | rootAddenda
  | rootChildren

/-- `?` on a conversion, nothing being dropped. -/
def plain {α : Type} : Res Err α → Res RErr α
  | .ok a => .ok a
  | .err e => .err (.conv e)
  | .panic => .panic

/-- `?` on a conversion while a `RuleIter` still has pairs: the error becomes a panic. -/
def dropPanics {α : Type} : Res Err α → Res RErr α
  | .ok a => .ok a
  | .err _ => .panic
  | .panic => .panic

/-! ## Output mappings -/

/-- relations.rs L210-215 `parse_output_mapping`. -/
def convRefs : List IntTok → Res RErr (List Int)
  | [] => .ok []
  | i :: l => (plain (convIndex i)).bind fun i => (convRefs l).bind fun l => .ok (i :: l)

/-- relations.rs L221-224: the values are `k, k+1, ...`. -/
def countsFrom (k : Nat) : List Int → Bool
  | [] => true
  | v :: l => decide (v = wrap32 k) && countsFrom (k + 1) l

/-- relations.rs L219-230 `make_emit`. -/
def makeEmit (m : List Int) (n : Nat) : Emit :=
  if m.length = n ∧ countsFrom 0 m then .direct else .emit m

/-- The `RelCommon` built around an emit. -/
def mkCommon (e : Emit) : Option Common := some ⟨some e, 0⟩

/-! ## Reads -/

/-- relations.rs L165-181 `NamedColumnList`. -/
def convColumns (st : Store) : List SColumn → Res Err (List (Str × Ty))
  | [] => .ok []
  | (n, t) :: l => (convTy st t).bind fun t => (convColumns st l).bind fun l => .ok ((n, t) :: l)

/-- relations.rs L482-492 `build_named_struct`. -/
def buildStruct (cols : List (Str × Ty)) : NamedStruct :=
  ⟨cols.map (·.1), some ⟨cols.map (·.2), 0, .required⟩⟩

/-- relations.rs L248-288 `parse_output`, `parse_emit_suffix`. -/
def convOutput (st : Store) : SOutput → Res RErr (List (Str × Ty) × Emit × Nat)
  | .implicit cols => (plain (convColumns st cols)).bind fun cols => .ok (cols, .direct, cols.length)
  | .direct cols suffix =>
    (dropPanics (convColumns st cols)).bind fun cols =>
      match suffix with
      | none => .ok (cols, .direct, cols.length)
      | some refs => (convRefs refs).bind fun m => .ok (cols, .emit m, m.length)

/-- relations.rs L833-841 `parse_expression_list`. -/
def convExprs [FTab] (st : Store) : List SExpr → Res Err (List Expr)
  | [] => .ok []
  | e :: l => (convExpr st e).bind fun e => (convExprs st l).bind fun l => .ok (e :: l)

/-- relations.rs L495-529 and L789-831: a list of lists. -/
def convExprLists [FTab] (st : Store) : List (List SExpr) → Res Err (List (List Expr))
  | [] => .ok []
  | e :: l => (convExprs st e).bind fun e => (convExprLists st l).bind fun l => .ok (e :: l)

/-- `Option::map` and `transpose`. -/
def convOpt {α β : Type} (f : α → Res Err β) : Option α → Res Err (Option β)
  | none => .ok none
  | some a => (f a).bind fun b => .ok (some b)

/-! ## Project -/

/-- relations.rs L605-624: the expressions and the mapping; `n` input columns, `k` expressions so
far. -/
def convProj [FTab] (st : Store) (n k : Nat) : List SProj → Res RErr (List Expr × List Int)
  | [] => .ok ([], [])
  | .ref i :: l =>
    (plain (convIndex i)).bind fun i => (convProj st n k l).bind fun r => .ok (r.1, i :: r.2)
  | .expr e :: l =>
    (plain (convExpr st e)).bind fun e =>
      (convProj st n (k + 1) l).bind fun r => .ok (e :: r.1, ((n + k : Nat) : Int) :: r.2)

/-! ## Aggregate -/

/-- Where an expression is in a list, if it is there. -/
def posOf (e : Expr) : List Expr → Option Nat
  | [] => none
  | d :: l => if d = e then some 0 else (posOf e l).map (· + 1)

/-- relations.rs L853-862: the references of one set and the expressions afterwards. -/
def internSet (exprs : List Expr) : List Expr → List Nat × List Expr
  | [] => ([], exprs)
  | e :: l =>
    match posOf e exprs with
    | some i => let r := internSet exprs l; (i :: r.1, r.2)
    | none => let r := internSet (exprs ++ [e]) l; (exprs.length :: r.1, r.2)

/-- relations.rs L846-873 `build_grouping_fields`, starting from some expressions. -/
def internSets (exprs : List Expr) : List (List Expr) → List Grouping × List Expr
  | [] => ([], exprs)
  | s :: l => let r := internSet exprs s; let q := internSets r.2 l; (⟨r.1, []⟩ :: q.1, q.2)

/-- parser/expressions.rs L1065-1085 `Measure`, of the converted call. -/
def toMeasure : Expr → Measure
  | .call f args opts out => ⟨some ⟨f, args, opts, out, 0⟩, 0⟩
  | _ => ⟨none, 0⟩

/-- Whether a parsed expression is a `function_call`. -/
def SExpr.isCall : SExpr → Bool
  | .call .. => true
  | _ => false

/-- relations.rs L721-779 `parse_aggregate_output`; `k` measures so far. -/
def convOuts [FTab] (st : Store) (gexprs : List Expr) (k : Nat) :
    List SExpr → Res RErr (List Measure × List Int)
  | [] => .ok ([], [])
  | s :: l =>
    (plain (convExpr st s)).bind fun e =>
      match posOf e gexprs with
      | some i => (convOuts st gexprs k l).bind fun r => .ok (r.1, (i : Int) :: r.2)
      | none =>
        if s.isCall then
          (convOuts st gexprs (k + 1) l).bind fun r =>
            .ok (toMeasure e :: r.1, ((gexprs.length + k : Nat) : Int) :: r.2)
        else .err .notGrouping

/-- relations.rs L789-807 `parse_grouping_sets`. -/
def convGroup [FTab] (st : Store) : SGroup → Res Err (List (List Expr))
  | .exprs l => (convExprs st l).bind fun l => .ok [l]
  | .sets l => convExprLists st l

/-! ## Sort, Fetch, Join, Set -/

/-- `trim_start_matches('&')`. -/
def trimAmp (s : Str) : Str := s.dropWhile (· == '&')

/-- parser/common.rs L371-386 `sort_direction_from_str`. -/
def SortDir.ofName (s : Str) : Option SortDir :=
  if s = cs!"AscNullsFirst" then some .ascNullsFirst
  else if s = cs!"AscNullsLast" then some .ascNullsLast
  else if s = cs!"DescNullsFirst" then some .descNullsFirst
  else if s = cs!"DescNullsLast" then some .descNullsLast
  else none

/-- relations.rs L875-904 `SortField`.  An unknown direction would be an error; the grammar rules it
out. -/
def convSortField [FTab] (st : Store) (f : SExpr × Str) : Res RErr SortField :=
  (dropPanics (convExpr st f.1)).bind fun e =>
    match SortDir.ofName (trimAmp f.2) with
    | some d => .ok ⟨some e, some (.direction (.known d))⟩
    | none => .err (.conv (.invalid cs!"SortDirection"))

/-- relations.rs L934-938. -/
def convSortFields [FTab] (st : Store) : List (SExpr × Str) → Res RErr (List SortField)
  | [] => .ok []
  | f :: l => (convSortField st f).bind fun f => (convSortFields st l).bind fun l => .ok (f :: l)

/-- relations.rs L1005-1013 `i64_literal_expr`. -/
def i64Expr (i : Int) : Expr := .literal ⟨some (.int .i64 i), false, 0⟩

/-- relations.rs L956-1003, L1015-1062 `CountMode`, `OffsetMode`. -/
def convFetchValue [FTab] (st : Store) : SFetch → Res RErr Count
  | .int i =>
    match i.toI64 with
    | none => .err .badInteger
    | some i => if i < 0 then .err .negative else .ok (.expr (i64Expr i))
  | .expr e => (plain (convExpr st e)).bind fun e => .ok (.expr e)

/-- parser/common.rs L322-341: whether a name is given twice. -/
def hasDup : List Str → Bool
  | [] => false
  | n :: l => decide (n ∈ l) || hasDup l

/-- parser/common.rs L344-349: the value of an argument. -/
def fetchArg (args : List (Str × SFetch)) (n : Str) : Option SFetch :=
  match args with
  | [] => none
  | (k, v) :: l => if k = n then some v else fetchArg l n

/-- `Option::map` and `transpose` with an error of relations. -/
def convOptR {α β : Type} (f : α → Res RErr β) : Option α → Res RErr (Option β)
  | none => .ok none
  | some a => (f a).bind fun b => .ok (some b)

/-- relations.rs L1135-1163; another name is the `panic!` of L1160. -/
def JoinType.ofName (s : Str) : Option JoinType :=
  if s = cs!"Inner" then some .inner
  else if s = cs!"Left" then some .left
  else if s = cs!"Right" then some .right
  else if s = cs!"Outer" then some .outer
  else if s = cs!"LeftSemi" then some .leftSemi
  else if s = cs!"RightSemi" then some .rightSemi
  else if s = cs!"LeftAnti" then some .leftAnti
  else if s = cs!"RightAnti" then some .rightAnti
  else if s = cs!"LeftSingle" then some .leftSingle
  else if s = cs!"RightSingle" then some .rightSingle
  else if s = cs!"LeftMark" then some .leftMark
  else if s = cs!"RightMark" then some .rightMark
  else none

/-- relations.rs L1302-1326; another name is the `panic!` of L1323. -/
def SetOp.ofName (s : Str) : Option SetOp :=
  if s = cs!"MinusPrimary" then some .minusPrimary
  else if s = cs!"MinusPrimaryAll" then some .minusPrimaryAll
  else if s = cs!"MinusMultiset" then some .minusMultiset
  else if s = cs!"IntersectionPrimary" then some .intersectionPrimary
  else if s = cs!"IntersectionMultiset" then some .intersectionMultiset
  else if s = cs!"IntersectionMultisetAll" then some .intersectionMultisetAll
  else if s = cs!"UnionDistinct" then some .unionDistinct
  else if s = cs!"UnionAll" then some .unionAll
  else none

/-- `unwrap` of a variant the grammar guarantees. -/
def grammarName {α : Type} : Option α → Res RErr α
  | some a => .ok a
  | none => .panic

/-! ## One relation -/

/-- relations.rs L188-206 `expect_one_child`. -/
def oneChild (kids : List Rel) : Res RErr Rel :=
  match kids with
  | [r] => .ok r
  | _ => .err .arity

/-- relations.rs L241-246 `parse_emit`, as a `RelCommon` and the output width. -/
def convEmit (refs : List IntTok) (n : Nat) : Res RErr (Option Common × Nat) :=
  (convRefs refs).bind fun m => .ok (mkCommon (makeEmit m n), m.length)

/-- The `parse_pair_with_context` of each relation (relations.rs L290-1300), with `into_rel`; `kids`
are the inputs and `n` the sum of their widths.  `Set`, `Read:Extension`, extension relations and
`Root` go another way (structural.rs L505-530). -/
def convBody [FTab] (st : Store) (adv : Option AdvExt) (kids : List Rel) (n : Nat) :
    SLine → Res RErr (Rel × Nat)
  | .read table out =>
    if kids ≠ [] then .err .arity
    else if n ≠ 0 then .err .inputFields
    else (convOutput st out).bind fun r =>
      .ok (.node (.read (mkCommon r.2.1) (some (buildStruct r.1)) none (.named table 0) adv 0) [], r.2.2)
  | .readVirtual rows filter cols =>
    if kids ≠ [] then .err .arity
    else
      (dropPanics (convOpt (convExpr st) filter)).bind fun f =>
        (plain (convExprLists st rows)).bind fun rows =>
          (plain (convColumns st cols)).bind fun cols =>
            .ok (.node (.read (mkCommon .direct) (some (buildStruct cols)) f (.virtual rows 0) adv 0) [],
              cols.length)
  | .filter cond refs =>
    (oneChild kids).bind fun r =>
      (dropPanics (convExpr st cond)).bind fun e =>
        (convEmit refs n).bind fun c => .ok (.node (.filter c.1 (some e) adv) [some r], c.2)
  | .project args =>
    (oneChild kids).bind fun r =>
      (convProj st n 0 args).bind fun p =>
        .ok (.node (.project (mkCommon (makeEmit p.2 (n + p.1.length))) p.1 adv) [some r], p.2.length)
  | .aggregate group outs =>
    (oneChild kids).bind fun r =>
      (plain (convGroup st group)).bind fun sets =>
        let g := internSets [] sets
        (convOuts st g.2 0 outs).bind fun p =>
          .ok (.node (.aggregate (mkCommon (makeEmit p.2 (g.2.length + p.1.length))) g.2 g.1 p.1 adv)
            [some r], p.2.length)
  | .sort fields refs =>
    (oneChild kids).bind fun r =>
      (convSortFields st fields).bind fun fs =>
        (convEmit refs n).bind fun c => .ok (.node (.sort c.1 fs adv) [some r], c.2)
  | .fetch args refs =>
    (oneChild kids).bind fun r =>
      if hasDup (args.map (·.1)) then .panic
      else
        (convEmit refs n).bind fun c =>
          (convOptR (convFetchValue st) (fetchArg args cs!"limit")).bind fun l =>
            (convOptR (convFetchValue st) (fetchArg args cs!"offset")).bind fun o =>
              .ok (.node (.fetch c.1 l o adv) [some r], c.2)
  | .join ty cond post refs =>
    match kids with
    | [l, r] =>
      (grammarName (JoinType.ofName (trimAmp ty))).bind fun t =>
        (dropPanics (convExpr st cond)).bind fun e =>
          (dropPanics (convOpt (convExpr st) post)).bind fun p =>
            (convEmit refs n).bind fun c =>
              .ok (.node (.join c.1 (.known t) (some e) p adv) [some l, some r], c.2)
    | _ => .err .arity
  | .cross refs =>
    match kids with
    | [l, r] => (convEmit refs n).bind fun c => .ok (.node (.cross c.1 adv) [some l, some r], c.2)
    | _ => .err .arity
  | _ => .panic

/-- relations.rs L1330-1384 `parse_set_relation_pair`. -/
def convSet (adv : Option AdvExt) (kids : List Rel) (ws : List Nat) (op : Str) (refs : List IntTok) :
    Res RErr (Rel × Nat) :=
  if kids.length < 2 then .err .arity
  else
    match ws with
    | [] => .panic
    | w :: l =>
      if l.all (· = w) then
        (grammarName (SetOp.ofName (trimAmp op))).bind fun o =>
          (convEmit refs w).bind fun c => .ok (.node (.set c.1 (.known o) adv) (kids.map some), c.2)
      else .err .widths

/-! ## Addenda -/

/-- parser/extensions.rs L526-575 `AddendumInvocation`. -/
structure Addendum where
  kind : AddKind
  name : Str
  args : ExtArgs

/-- structural.rs L387-396 `Addenda::parse`. -/
def convAddenda [FTab] (st : Store) : List SAddendum → Res RErr (List Addendum)
  | [] => .ok []
  | a :: l =>
    (plain (convExtArgs st a.args [])).bind fun args =>
      (convAddenda st l).bind fun l => .ok (⟨a.kind, a.name, args⟩ :: l)

/-- relations.rs L49-57, L74-82: the two kinds of errors. -/
def resolved (name : Str) : Except ExtErr AnyMsg → Res RErr AnyMsg
  | .ok d => .ok d
  | .error (.notFound _) => .err (.unregistered name)
  | .error e => .err (.detail e)

/-- relations.rs L62-83 `resolve_addendum_detail`. -/
def resolveAddendum (reg : Registry ExtArgs (List Nat)) (a : Addendum) : Res RErr AnyMsg :=
  resolved a.name (reg.parse a.kind.ns a.name a.args)

/-- structural.rs L412-449, the loop. -/
def standardLoop (reg : Registry ExtArgs (List Nat)) (enh : Option AnyMsg) (opts : List AnyMsg) :
    List Addendum → Res RErr (Option AnyMsg × List AnyMsg)
  | [] => .ok (enh, opts)
  | a :: l =>
    match a.kind with
    | .enh =>
      if enh.isSome then .err .doubleEnhancement
      else (resolveAddendum reg a).bind fun d => standardLoop reg (some d) opts l
    | .opt => (resolveAddendum reg a).bind fun d => standardLoop reg enh (opts ++ [d]) l
    | .ext => .err .misplacedExt

/-- structural.rs L412-449 `into_standard_advanced_extension`. -/
def standardAdv (reg : Registry ExtArgs (List Nat)) (as : List Addendum) : Res RErr (Option AdvExt) :=
  (standardLoop reg none [] as).bind fun r =>
    if r.1 = none ∧ r.2 = [] then .ok none else .ok (some ⟨r.1, r.2⟩)

/-- structural.rs L451-491 `into_extension_read_parts`. -/
def extReadParts (reg : Registry ExtArgs (List Nat)) (as : List Addendum) :
    Res RErr (AnyMsg × Option AdvExt) :=
  match as.filter fun a => decide (a.kind = .ext) with
  | [a] =>
    (resolveAddendum reg a).bind fun d =>
      (standardAdv reg (as.filter fun a => decide (a.kind ≠ .ext))).bind fun adv => .ok (d, adv)
  | _ => .err .extCount

/-- relations.rs L426-479 `parse_pair_with_detail`. -/
def convReadExt (st : Store) (kids : List Rel) (n : Nat) (detail : AnyMsg) (adv : Option AdvExt)
    (cols : List SColumn) : Res RErr (Rel × Nat) :=
  if kids ≠ [] then .err .arity
  else if n ≠ 0 then .err .inputFields
  else (plain (convColumns st cols)).bind fun cols =>
    .ok (.node (.read (mkCommon .direct) (some (buildStruct cols)) none (.extension (some detail)) adv 0) [],
      cols.length)

/-- parser/extensions.rs L398-415 `validate_child_count`. -/
def ExtKind.arityOk : ExtKind → Nat → Bool
  | .leaf, n => n = 0
  | .single, n => n = 1
  | .multi, _ => true

/-- structural.rs L598-641 `parse_extension_relation`, with `create_rel`
(parser/extensions.rs L417-447). -/
def convExtRel [FTab] (st : Store) (reg : Registry ExtArgs (List Nat)) (as : List Addendum)
    (kids : List Rel) (kind : ExtKind) (name : Str) (args : SArgs) (cols : List SCol) :
    Res RErr (Rel × Nat) :=
  if as ≠ [] then .err .noAddenda
  else
    (plain (convExtArgs st args cols)).bind fun a =>
      if kind.arityOk kids.length then
        (resolved name (reg.parse .relation name a)).bind fun d =>
          .ok (.node (.ext kind (mkCommon .direct) (some d)) (kids.map some), a.columns.length)
      else .err .arity

/-- structural.rs L505-593, L645-667: `parse_relation`, `parse_rel`, `parse_set_relation`,
`parse_extension_read_relation`; `kids` are the inputs with their widths. -/
def convLine [FTab] (st : Store) (reg : Registry ExtArgs (List Nat)) (as : List Addendum)
    (kids : List (Rel × Nat)) : SLine → Res RErr (Rel × Nat)
  | .set op refs =>
    (standardAdv reg as).bind fun adv => convSet adv (kids.map (·.1)) (kids.map (·.2)) op refs
  | .readExt cols =>
    (extReadParts reg as).bind fun p =>
      convReadExt st (kids.map (·.1)) (kids.map (·.2)).sum p.1 p.2 cols
  | .ext kind name args cols => convExtRel st reg as (kids.map (·.1)) kind name args cols
  | line => (standardAdv reg as).bind fun adv =>
      convBody st adv (kids.map (·.1)) (kids.map (·.2)).sum line

mutual
/-- structural.rs L673-697 `build_rel`. -/
def convNode [FTab] (st : Store) (reg : Registry ExtArgs (List Nat)) :
    RNode SLine SAddendum → Res RErr (Rel × Nat)
  | .mk line as kids =>
    (convKids st reg kids).bind fun kids =>
      (convAddenda st as).bind fun as => convLine st reg as kids line
/-- structural.rs L679-683. -/
def convKids [FTab] (st : Store) (reg : Registry ExtArgs (List Nat)) :
    List (RNode SLine SAddendum) → Res RErr (List (Rel × Nat))
  | [] => .ok []
  | k :: l => (convNode st reg k).bind fun k => (convKids st reg l).bind fun l => .ok (k :: l)
end

/-! ## Top level -/

/-- `proto::plan_rel::RelType`. -/
inductive PlanRel where
  | rel (r : Rel)
  | root (names : List Str) (input : Option Rel)
  /-- `rel_type: None` -/
  | missing

/-- structural.rs L700-765 `build_plan_rel`. -/
def convPlanRel [FTab] (st : Store) (reg : Registry ExtArgs (List Nat)) (t : RNode SLine SAddendum) :
    Res RErr PlanRel :=
  match t with
  | .mk (.root names) as kids =>
    if as ≠ [] then .err .rootAddenda
    else
      match kids with
      | [k] => (convNode st reg k).bind fun r => .ok (.root names (some r.1))
      | _ => .err .rootChildren
  | t => (convNode st reg t).bind fun r => .ok (.rel r.1)

/-- structural.rs L768-778 `build`. -/
def convPlanRels [FTab] (st : Store) (reg : Registry ExtArgs (List Nat)) :
    List (RNode SLine SAddendum) → Res RErr (List PlanRel)
  | [] => .ok []
  | t :: l => (convPlanRel st reg t).bind fun r => (convPlanRels st reg l).bind fun l => .ok (r :: l)

/-- textify/rels.rs L832-879 `RelRoot`, `PlanRelType`, `PlanRel`. -/
def textPlanRel [UTab] [FTab] (env : Env) : PlanRel → Out
  | .rel r => textRel env 0 r
  | .root names input =>
    .s (cs!"Root[" ++ joinS cs!", " (names.map showName) ++ cs!"]") ++
      (match input with
        | some r => .s cs!"\n" ++ textRel env 1 r
        | none => .s [])
  | .missing => .fail cs!"PlanRelType"

end Verif
