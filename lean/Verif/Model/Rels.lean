import Verif.Model.ExtArgs
import Verif.Model.ExprEq
/-!
# Relations and their printing

`substrait::proto::Rel` as far as the textifier looks at it, and `src/textify/rels.rs`,
`src/textify/values.rs`, `src/textify/addenda.rs`.

Content that neither side looks at (hints, the filters and orders of measures, ...) is kept as an
opaque number `rest`, `0` for the default.  The protobuf message of one relation has its inputs in
fields of its own; here they are the children of one uniform tree, and `Spec/Rels.lean` says which
trees are messages.
-/

namespace Verif

set_option autoImplicit false

/-- `proto::rel_common::EmitKind`. -/
inductive Emit where
  | direct
  | emit (mapping : List Int)
  deriving DecidableEq

/-- `proto::RelCommon`. -/
structure Common where
  emit : Option Emit
  rest : Nat := 0
  deriving DecidableEq

/-- `proto::extensions::AdvancedExtension`. -/
structure AdvExt where
  enhancement : Option AnyMsg
  optimization : List AnyMsg
  deriving DecidableEq

/-- An enum field: the generated `TryFrom<i32>` gives a variant or fails. -/
inductive EnumVal (α : Type) where
  | known (a : α)
  | unknown (i : Int)
  deriving DecidableEq

/-- `proto::join_rel::JoinType`. -/
inductive JoinType where
  | unspecified | inner | outer | left | right | leftSemi | leftAnti | leftSingle | rightSemi
  | rightAnti | rightSingle | leftMark | rightMark
  deriving DecidableEq

/-- `proto::set_rel::SetOp`. -/
inductive SetOp where
  | unspecified | minusPrimary | minusPrimaryAll | minusMultiset | intersectionPrimary
  | intersectionMultiset | intersectionMultisetAll | unionDistinct | unionAll
  deriving DecidableEq

/-- `proto::sort_field::SortDirection`. -/
inductive SortDir where
  | unspecified | ascNullsFirst | ascNullsLast | descNullsFirst | descNullsLast | clustered
  deriving DecidableEq

/-- `proto::sort_field::SortKind`. -/
inductive SortKind where
  | direction (d : EnumVal SortDir)
  | function (f : Nat)
  deriving DecidableEq

/-- `proto::SortField`. -/
structure SortField where
  expr : Option Expr
  kind : Option SortKind

/-- `proto::fetch_rel::CountMode` and `OffsetMode`. -/
inductive Count where
  | deprecated (i : Int)
  | expr (e : Expr)

/-- `proto::aggregate_rel::Grouping`; `exprs` is the deprecated field. -/
structure Grouping where
  refs : List Nat
  exprs : List Expr := []

/-- `proto::AggregateFunction`; `rest` stands for phase, invocation, sorts and the deprecated
`args`. -/
structure AggFn where
  f : Nat
  args : List Arg
  opts : List FOption
  out : Option Ty
  rest : Nat := 0

/-- `proto::aggregate_rel::Measure`; `rest` stands for the filter. -/
structure Measure where
  fn : Option AggFn
  rest : Nat := 0

/-- `proto::read_rel::ReadType`; `other` stands for no or another read type. -/
inductive ReadType where
  | named (names : List Str) (rest : Nat)
  | virtual (rows : List (List Expr)) (rest : Nat)
  | extension (detail : Option AnyMsg)
  | other

/-- Which of the three extension relations. -/
inductive ExtKind where
  | leaf
  | single
  | multi
  deriving DecidableEq

/-- One relation message without its inputs. -/
inductive RelOp where
  | read (common : Option Common) (schema : Option NamedStruct) (filter : Option Expr) (ty : ReadType)
      (adv : Option AdvExt) (rest : Nat)
  | filter (common : Option Common) (cond : Option Expr) (adv : Option AdvExt)
  | project (common : Option Common) (exprs : List Expr) (adv : Option AdvExt)
  | aggregate (common : Option Common) (gexprs : List Expr) (groupings : List Grouping)
      (measures : List Measure) (adv : Option AdvExt)
  | sort (common : Option Common) (sorts : List SortField) (adv : Option AdvExt)
  | fetch (common : Option Common) (count offset : Option Count) (adv : Option AdvExt)
  | join (common : Option Common) (ty : EnumVal JoinType) (cond post : Option Expr)
      (adv : Option AdvExt)
  | set (common : Option Common) (op : EnumVal SetOp) (adv : Option AdvExt)
  | cross (common : Option Common) (adv : Option AdvExt)
  | ext (kind : ExtKind) (common : Option Common) (detail : Option AnyMsg)
  /-- every other relation type, or none (textify/rels.rs L592-608) -/
  | other (rest : Nat)

/-- `proto::Rel`. -/
inductive Rel where
  | node (op : RelOp) (inputs : List (Option Rel))

/-! ## Values -/

/-- What the printer works with: declarations, options and registry. -/
structure Env where
  st : Store
  o : Opts
  reg : Registry ExtArgs (List Nat)

/-- values.rs L230-255. -/
def JoinType.spell : JoinType → Option Str
  | .unspecified => none
  | .inner => some cs!"Inner"
  | .outer => some cs!"Outer"
  | .left => some cs!"Left"
  | .right => some cs!"Right"
  | .leftSemi => some cs!"LeftSemi"
  | .rightSemi => some cs!"RightSemi"
  | .leftAnti => some cs!"LeftAnti"
  | .rightAnti => some cs!"RightAnti"
  | .leftSingle => some cs!"LeftSingle"
  | .rightSingle => some cs!"RightSingle"
  | .leftMark => some cs!"LeftMark"
  | .rightMark => some cs!"RightMark"

/-- values.rs L257-278. -/
def SetOp.spell : SetOp → Option Str
  | .unspecified => none
  | .minusPrimary => some cs!"MinusPrimary"
  | .minusPrimaryAll => some cs!"MinusPrimaryAll"
  | .minusMultiset => some cs!"MinusMultiset"
  | .intersectionPrimary => some cs!"IntersectionPrimary"
  | .intersectionMultiset => some cs!"IntersectionMultiset"
  | .intersectionMultisetAll => some cs!"IntersectionMultisetAll"
  | .unionDistinct => some cs!"UnionDistinct"
  | .unionAll => some cs!"UnionAll"

/-- values.rs L214-226. -/
def SortDir.spell : SortDir → Option Str
  | .unspecified => none
  | .ascNullsFirst => some cs!"AscNullsFirst"
  | .ascNullsLast => some cs!"AscNullsLast"
  | .descNullsFirst => some cs!"DescNullsFirst"
  | .descNullsLast => some cs!"DescNullsLast"
  | .clustered => some cs!"Clustered"

/-- values.rs L86-87, L153-158: a spelled variant or a failure. -/
def textVariant (fail : Str) : Option Str → Out
  | some s => .s (cs!"&" ++ s)
  | none => .fail fail

/-- textify/rels.rs L1017-1035. -/
def textJoinType : EnumVal JoinType → Out
  | .known t => textVariant cs!"JoinType" t.spell
  | .unknown _ => .fail cs!"JoinRel"

/-- values.rs L170-185 for `SetRel.op`. -/
def textSetOp : EnumVal SetOp → Out
  | .known t => textVariant cs!"SetOp" t.spell
  | .unknown _ => .fail cs!"SetRel"

/-- values.rs L193-228. -/
def textSortKind : SortKind → Out
  | .direction (.known d) => textVariant cs!"SortKind" d.spell
  | .direction (.unknown _) => .fail cs!"SortKind"
  | .function _ => .fail cs!"SortKind"

/-- values.rs L80 `Value::Tuple`. -/
def textTuple (vs : List Out) : Out := .s cs!"(" ++ Out.sep cs!", " vs ++ .s cs!")"

/-- values.rs L128-148. -/
def textSortField [UTab] [FTab] (st : Store) (o : Opts) (f : SortField) : Out :=
  textTuple [.expect cs!"SortField" (f.expr.map (textExpr st o)),
    .expect cs!"SortKind" (f.kind.map textSortKind)]

/-- values.rs L77-79 `Value::Field`. -/
def textField [UTab] (st : Store) (o : Opts) (name : Option Str) (ty : Option Ty) : Out :=
  .expect cs!"Name" (name.map fun n => .s (showName n)) ++ .s cs!":" ++ textTyReq st o ty

/-- textify/rels.rs L83-93: names and types are paired as long as there are any. -/
def zipFields : List Str → List Ty → List (Option Str × Option Ty)
  | [], ts => ts.map fun t => (none, some t)
  | n :: ns, [] => (some n, none) :: zipFields ns []
  | n :: ns, t :: ts => (some n, some t) :: zipFields ns ts

/-- textify/rels.rs L72-96. -/
def schemaValues [UTab] (st : Store) (o : Opts) (s : NamedStruct) : List Out :=
  (zipFields s.names (match s.struct with | some t => t.types | none => [])).map fun f =>
    textField st o f.1 f.2

/-- textify/rels.rs L489-498. -/
def readColumns [UTab] (st : Store) (o : Opts) : Option NamedStruct → List Out
  | some s => schemaValues st o s
  | none => [.fail cs!"ReadRel"]

/-- `(0..n).map(|i| Value::Reference(i as i32))`. -/
def references (n : Nat) : List Out := (List.range n).map fun (i : Nat) => textRef (wrap32 i)

/-- textify/expressions.rs L914-928. -/
def textAggFn [UTab] [FTab] (st : Store) (o : Opts) (a : AggFn) : Out :=
  textInvocation st o a.f (textArgs st o a.args) (a.opts.map textOption) ++ textOutType st o a.out

/-- values.rs L308-311, for values already printed. -/
def textNamedArg (name : Str) (v : Out) : Out := .s (name ++ cs!"=") ++ v

/-- textify/rels.rs L911-940. -/
def textCount [UTab] [FTab] (st : Store) (o : Opts) : Count → Out
  | .deprecated i => .s (decInt i)
  | .expr e => textExpr st o e

/-! ## Addenda -/

/-- extensions/args.rs L46-62 `AddendumKind`. -/
inductive AddKind where
  | enh
  | opt
  | ext
  deriving DecidableEq

/-- extensions/args.rs L55-61 `prefix`. -/
def AddKind.spell : AddKind → Str
  | .enh => cs!"Enh"
  | .opt => cs!"Opt"
  | .ext => cs!"Ext"

/-- The namespace of the registry for an addendum. -/
def AddKind.ns : AddKind → Ns
  | .enh => .enhancement
  | .opt => .optimization
  | .ext => .extensionTable

/-- addenda.rs L129-172, without the indentation. -/
def textAddendum [UTab] [FTab] (st : Store) (o : Opts) (k : AddKind)
    (d : Except ExtErr (Str × ExtArgs)) : Out :=
  match d with
  | .error _ => .s (cs!"+ " ++ k.spell ++ cs!"[") ++ .fail cs!"extension" ++ .s cs!"]"
  | .ok (name, args) =>
    if args.columns = [] then
      .s (cs!"+ " ++ k.spell ++ cs!":" ++ name ++ cs!"[") ++ textExtArgs st o args ++ .s cs!"]"
    else .s (cs!"+ " ++ k.spell ++ cs!"[") ++ .fail cs!"addendum" ++ .s cs!"]"

/-- addenda.rs L53-70. -/
def advAddenda [UTab] [FTab] (env : Env) : Option AdvExt → List Out
  | none => []
  | some a =>
    (a.enhancement.toList.map fun d =>
      textAddendum env.st env.o .enh (env.reg.decode .enhancement d [])) ++
    a.optimization.map fun d => textAddendum env.st env.o .opt (env.reg.decode .optimization d [])

/-- textify/rels.rs L445-448. -/
def decodeTable (reg : Registry ExtArgs (List Nat)) : Option AnyMsg → Except ExtErr (Str × ExtArgs)
  | some d => reg.decode .extensionTable d []
  | none => .error (.other 0)

/-! ## Headers -/

/-- textify/rels.rs L218-230 `RelationArgs`, of values already printed. -/
inductive HeadArgs where
  | none
  | inline (positional named : List Out)
  | rows (rows named : List Out)

/-- textify/rels.rs L246-275 `Relation` without its children. -/
structure Head where
  name : Out
  args : HeadArgs
  columns : List Out
  emit : Option Emit
  explicit : Bool := false
  addenda : List Out := []

/-- textify/rels.rs L363-370 `emitted`. -/
def Head.emitted (h : Head) : Nat :=
  match h.emit with
  | some (.emit m) => m.length
  | some .direct => h.columns.length
  | none => h.columns.length

/-- `values.get(index as usize)`: a negative index is larger than any length. -/
def getCol (cols : List Out) (i : Int) : Option Out := if i < 0 then none else cols[i.toNat]?

/-- textify/rels.rs L158-188 `write_implicit_columns`. -/
def implicitCols (o : Opts) (cols : List Out) (e : Option Emit) : List Out :=
  if o.showEmit then cols
  else
    match e with
    | some (.emit m) => m.map fun i => .expect cs!"Emitted" (getCol cols i)
    | some .direct => cols
    | none => cols

/-- textify/rels.rs L190-201 `write_emit_suffix`. -/
def textEmitSuffix : Option Emit → Out
  | some (.emit m) => .s cs!" |> " ++ Out.sep cs!", " (m.map textRef)
  | _ => .s []

/-- textify/rels.rs L135-152 `write_output_clause`. -/
def textOutput (o : Opts) (h : Head) : Out :=
  if h.explicit then .s cs!"+> " ++ Out.sep cs!", " h.columns ++ textEmitSuffix h.emit
  else .s cs!"=> " ++ Out.sep cs!", " (implicitCols o h.columns h.emit)

/-- foundation.rs `indent`: the indent string, `lvl` times. -/
def indentAt (o : Opts) (lvl : Nat) : Str := (List.replicate lvl o.indent).flatten

/-- textify/rels.rs L322-338: one line per value; commas up to the last value, and after it when
something follows. -/
def textRows (pre : Str) (more : Bool) : List Out → Out
  | [] => .s []
  | [r] => .s (pre ++ cs!"- ") ++ r ++ .s (if more then cs!",\n" else cs!"\n")
  | r :: s :: l => .s (pre ++ cs!"- ") ++ r ++ .s cs!",\n" ++ textRows pre more (s :: l)

/-- textify/rels.rs L306-349 `write_header`. -/
def textHeader (o : Opts) (lvl : Nat) (h : Head) : Out :=
  let pre := indentAt o lvl
  let sub := indentAt o (lvl + 1)
  match h.args with
  | .none => .s pre ++ h.name ++ .s cs!"[" ++ Out.sep cs!", " (implicitCols o h.columns h.emit) ++ .s cs!"]"
  | .inline pos named =>
    .s pre ++ h.name ++ .s cs!"[" ++ textArgList pos named ++ .s cs!" " ++ textOutput o h ++ .s cs!"]"
  | .rows rows named =>
    .s pre ++ h.name ++ .s cs!"[\n" ++ textRows sub (named ≠ []) rows ++ textRows sub false named ++
      .s (sub ++ cs!"- ") ++ textOutput o h ++ .s cs!"]"

/-- textify/rels.rs L504-506 `get_emit`. -/
def getEmit (c : Option Common) : Option Emit := c.bind (·.emit)

/-! ## Each relation -/

/-- textify/rels.rs L374-487 `from_read`. -/
def headRead [UTab] [FTab] (env : Env) (common : Option Common) (schema : Option NamedStruct)
    (filter : Option Expr) (ty : ReadType) (adv : Option AdvExt) : Head :=
  let cols := readColumns env.st env.o schema
  let emit := getEmit common
  match ty with
  | .named names _ =>
    { name := .s cs!"Read", args := .inline [Out.sep cs!"." (names.map fun n => .s (showName n))] [],
      columns := cols, emit,
      explicit := match emit with | some (.emit _) => true | _ => false,
      addenda := advAddenda env adv }
  | .virtual rows _ =>
    let named := filter.toList.map fun e => textNamedArg cs!"filter" (textExpr env.st env.o e)
    let pos := rows.map fun r => textTuple (r.map (textExpr env.st env.o))
    let pos := if pos = [] ∧ named ≠ [] then [.s cs!"_"] else pos
    { name := .s cs!"Read:Virtual",
      args := if 0 < rows.length ∧ env.o.vthreshold ≤ rows.length then .rows pos named else .inline pos named,
      columns := cols, emit, addenda := advAddenda env adv }
  | .extension detail =>
    { name := .s cs!"Read:Extension", args := .none, columns := cols, emit,
      addenda := textAddendum env.st env.o .ext (decodeTable env.reg detail) :: advAddenda env adv }
  | .other =>
    { name := .s cs!"Read", args := .inline [.fail cs!"ReadRel"] [], columns := cols, emit,
      addenda := advAddenda env adv }

/-- textify/rels.rs L805-829 `get_grouping_sets`: first occurrences of the deprecated expressions. -/
def firstSeen (seen : List Expr) : List Expr → List Expr
  | [] => []
  | e :: l => if e ∈ seen then firstSeen seen l else e :: firstSeen (seen ++ [e]) l

/-- textify/rels.rs L730-734. -/
def usesDeprecated (gexprs : List Expr) (groupings : List Grouping) : Bool :=
  match gexprs, groupings with
  | [], g :: _ => g.exprs ≠ []
  | _, _ => false

/-- textify/rels.rs L727-768: the grouping expressions and the sets, printed. -/
def groupingValues [UTab] [FTab] (st : Store) (o : Opts) (gexprs : List Expr)
    (groupings : List Grouping) : List Out × List (List Out) :=
  if usesDeprecated gexprs groupings then
    ((firstSeen [] (groupings.map (·.exprs)).flatten).map (textExpr st o),
      groupings.map fun g => g.exprs.map (textExpr st o))
  else
    (gexprs.map (textExpr st o),
      if groupings = [] then [[]]
      else groupings.map fun g =>
        g.refs.map fun i => .expect cs!"AggregateRel" (gexprs[i]?.map (textExpr st o)))

/-- textify/rels.rs L770-781. -/
def groupingArgs (sets : List (List Out)) : List Out :=
  match sets with
  | [g] => if g = [] then [.s cs!"_"] else g
  | _ => sets.map fun g => if g = [] then .s cs!"_" else textTuple g

/-- textify/rels.rs L722-803 `from_aggregate`. -/
def headAggregate [UTab] [FTab] (env : Env) (common : Option Common) (gexprs : List Expr)
    (groupings : List Grouping) (measures : List Measure) (adv : Option AdvExt) : Head :=
  let (list, sets) := groupingValues env.st env.o gexprs groupings
  { name := .s cs!"Aggregate", args := .inline (groupingArgs sets) [],
    columns := list ++ measures.filterMap fun m => m.fn.map (textAggFn env.st env.o),
    emit := getEmit common, addenda := advAddenda env adv }

/-- textify/rels.rs L960-994 `join_output_columns`. -/
def joinWidth (t : JoinType) (l r : Nat) : Nat :=
  match t with
  | .inner | .left | .right | .outer => l + r
  | .leftSemi | .leftAnti => l
  | .rightSemi | .rightAnti => r
  | .leftSingle => l
  | .rightSingle => r
  | .leftMark => l + 1
  | .rightMark => r + 1
  | .unspecified => l + r

/-- textify/rels.rs L1017-1035: what an unknown type counts as. -/
def EnumVal.joinType : EnumVal JoinType → JoinType
  | .known t => t
  | .unknown _ => .unspecified

/-- The name of an extension relation (textify/rels.rs L612-641). -/
def ExtKind.spell : ExtKind → Str
  | .leaf => cs!"ExtensionLeaf"
  | .single => cs!"ExtensionSingle"
  | .multi => cs!"ExtensionMulti"

/-- textify/rels.rs L664-669. -/
def decodeRel (reg : Registry ExtArgs (List Nat)) (ws : List Nat) :
    Option AnyMsg → Except ExtErr (Str × ExtArgs)
  | some d => reg.decode .relation d ws
  | none => .error (.other 0)

/-- textify/rels.rs L643-711 `from_extension`. -/
def headExt [UTab] [FTab] (env : Env) (kind : ExtKind) (detail : Option AnyMsg) (ws : List Nat) : Head :=
  match decodeRel env.reg ws detail with
  | .ok (name, args) =>
    { name := .s (kind.spell ++ cs!":" ++ name),
      args := .inline (textExtValues env.st env.o args.positional)
        (args.named.map (textNamed env.st env.o)),
      columns := args.columns.map (textExtColumn env.st env.o), emit := none }
  | .error _ =>
    { name := .s kind.spell, args := .none, columns := [.fail cs!"extension"], emit := none }

/-- textify/rels.rs L511-526: the sum of the widths of the inputs that are there. -/
def totalWidth (ws : List (Option Nat)) : Nat := (ws.filterMap id).sum

/-- The width of the input at a place, `0` if it is missing (textify/rels.rs L1008-1015). -/
def widthAt (ws : List (Option Nat)) (i : Nat) : Nat := ((ws[i]?).bind id).getD 0

/-- textify/rels.rs L578-610 `from_rel`, for one relation whose inputs have the widths `ws`. -/
def relHead [UTab] [FTab] (env : Env) (ws : List (Option Nat)) : RelOp → Head
  | .read common schema filter ty adv _ => headRead env common schema filter ty adv
  | .filter common cond adv =>
    { name := .s cs!"Filter", args := .inline [.expect cs!"FilterRel" (cond.map (textExpr env.st env.o))] [],
      columns := references (totalWidth ws), emit := getEmit common, addenda := advAddenda env adv }
  | .project common exprs adv =>
    { name := .s cs!"Project", args := .none,
      columns := references (totalWidth ws) ++ exprs.map (textExpr env.st env.o),
      emit := getEmit common, addenda := advAddenda env adv }
  | .aggregate common gexprs groupings measures adv =>
    headAggregate env common gexprs groupings measures adv
  | .sort common sorts adv =>
    { name := .s cs!"Sort", args := .inline (sorts.map (textSortField env.st env.o)) [],
      columns := references (totalWidth ws), emit := getEmit common, addenda := advAddenda env adv }
  | .fetch common count offset adv =>
    { name := .s cs!"Fetch",
      args := .inline [] ((count.toList.map fun c => textNamedArg cs!"limit" (textCount env.st env.o c)) ++
        (offset.toList.map fun c => textNamedArg cs!"offset" (textCount env.st env.o c))),
      columns := references (totalWidth ws), emit := getEmit common, addenda := advAddenda env adv }
  | .join common ty cond post adv =>
    { name := .s cs!"Join",
      args := .inline [textJoinType ty, .expect cs!"JoinRel" (cond.map (textExpr env.st env.o))]
        (post.toList.map fun e => textNamedArg cs!"post_filter" (textExpr env.st env.o e)),
      columns := references (joinWidth ty.joinType (widthAt ws 0) (widthAt ws 1)),
      emit := getEmit common, addenda := advAddenda env adv }
  | .set common op adv =>
    { name := .s cs!"Set", args := .inline [textSetOp op] [],
      columns := references (if ws = [] then 0 else totalWidth ws / ws.length),
      emit := getEmit common, addenda := advAddenda env adv }
  | .cross common adv =>
    { name := .s cs!"Cross", args := .none, columns := references (totalWidth ws),
      emit := getEmit common, addenda := advAddenda env adv }
  | .ext kind _ detail => headExt env kind detail (ws.filterMap id)
  | .other _ => { name := .fail cs!"Rel", args := .none, columns := [], emit := none }

mutual
/-- textify/rels.rs L363-370 of `from_rel`: how many columns a relation emits. -/
def relWidth [UTab] [FTab] (env : Env) : Rel → Nat
  | .node op ins => (relHead env (inputWidths env ins) op).emitted
/-- The widths of the inputs. -/
def inputWidths [UTab] [FTab] (env : Env) : List (Option Rel) → List (Option Nat)
  | [] => []
  | none :: l => none :: inputWidths env l
  | some r :: l => some (relWidth env r) :: inputWidths env l
end

/-- Whether `from_rel` keeps the inputs: reads have none, other relations are not looked into
(textify/rels.rs L606). -/
def RelOp.keepsInputs : RelOp → Bool
  | .read .. => false
  | .other _ => false
  | _ => true

/-- addenda.rs L78-84. -/
def textAddenda (pre : Str) (l : List Out) : Out :=
  match l with
  | [] => .s []
  | a :: l => .s (cs!"\n" ++ pre) ++ a ++ textAddenda pre l

mutual
/-- textify/rels.rs L277-289, L353-360. -/
def textRel [UTab] [FTab] (env : Env) (lvl : Nat) : Rel → Out
  | .node op ins =>
    let h := relHead env (inputWidths env ins) op
    textHeader env.o lvl h ++ textAddenda (indentAt env.o (lvl + 1)) h.addenda ++
      (if op.keepsInputs then textInputs env (lvl + 1) ins else .s [])
/-- textify/rels.rs L353-360. -/
def textInputs [UTab] [FTab] (env : Env) (lvl : Nat) : List (Option Rel) → Out
  | [] => .s []
  | none :: l => textInputs env lvl l
  | some r :: l => .s cs!"\n" ++ textRel env lvl r ++ textInputs env lvl l
end

end Verif
