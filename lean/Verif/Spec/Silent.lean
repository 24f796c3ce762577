import Verif.Model.Plan
/-!
# Specification: what formatting leaves out without an error

`kept` takes out of a plan everything that has no influence on its text, and brings what has two
encodings with the same text into one of them.
-/

namespace Verif.SilentSpec

set_option autoImplicit false

/-- Intervals: deprecated and missing precisions count microseconds. -/
def keptInterval (i : Interval) : Interval :=
  match i.mode with
  | .precision _ => i
  | .microseconds us => ⟨i.days, i.secs, us, .precision 6⟩
  | .unset => ⟨i.days, i.secs, i.sub, .precision 6⟩

/-- Literals: no type variation; a null is not said to be nullable. -/
def keptLiteral (l : Literal) : Literal :=
  match l.value with
  | some (.null t) => ⟨some (.null t), false, 0⟩
  | some (.interval i) => ⟨some (.interval (keptInterval i)), l.nullable, 0⟩
  | v => ⟨v, l.nullable, 0⟩

/-- References: only the field of the input, no field within it. -/
def keptRef : FieldRef → FieldRef
  | .field i _ => .field i none
  | f => f

mutual
/-- Expressions. -/
def keptExpr : Expr → Expr
  | .literal l => .literal (keptLiteral l)
  | .selection f => .selection (keptRef f)
  | .call f args opts out => .call f (keptArgs args) opts out
  | .cast e t fb => .cast (keptExprOpt e) t fb
  | .ifThen ifs els => .ifThen (keptClauses ifs) (keptExprOpt els)
  | .missing => .missing
  | .other => .other
/-- Expressions that may be missing. -/
def keptExprOpt : Option Expr → Option Expr
  | some e => some (keptExpr e)
  | none => none
/-- The arguments of a call. -/
def keptArgs : List Arg → List Arg
  | [] => []
  | .value e :: l => .value (keptExpr e) :: keptArgs l
  | .missing :: l => .missing :: keptArgs l
  | .ty t :: l => .ty t :: keptArgs l
  | .enum s :: l => .enum s :: keptArgs l
/-- The clauses of a conditional. -/
def keptClauses : List Clause → List Clause
  | [] => []
  | .mk c t :: l => .mk (keptExprOpt c) (keptExprOpt t) :: keptClauses l
end

/-- `RelCommon`: only the output mapping. -/
def keptCommon (c : Option Common) : Option Common := c.map fun c => ⟨c.emit, 0⟩

/-- `RelCommon` of an extension relation: not even the mapping. -/
def keptExtCommon (c : Option Common) : Option Common :=
  c.map fun c => ⟨match c.emit with | some (.emit _) => none | e => e, 0⟩

/-- Schemas: names and types, not the variation and the nullability of the row. -/
def keptSchema (s : NamedStruct) : NamedStruct :=
  match s.struct with
  | some t => ⟨s.names, some ⟨t.types, 0, .required⟩⟩
  | none => s

/-- What is read. -/
def keptRead : ReadType → ReadType
  | .named names _ => .named names 0
  | .virtual rows _ => .virtual (rows.map (·.map keptExpr)) 0
  | t => t

/-- The filter of a read: only virtual tables are written with theirs. -/
def keptFilter (f : Option Expr) : ReadType → Option Expr
  | .virtual .. => f.map keptExpr
  | _ => none

/-- Measures: only the call; a measure without one is not written. -/
def keptMeasure (m : Measure) : Option Measure :=
  m.fn.map fun f => ⟨some ⟨f.f, keptArgs f.args, f.opts, f.out, 0⟩, 0⟩

/-- The place of an expression in a list. -/
def place (e : Expr) : List Expr → Nat
  | [] => 0
  | x :: l => if x = e then 0 else place e l + 1

/-- Grouping sets. Deprecated ones hold their expressions; they count if the first set does and there is no
list of grouping expressions. That list then has each expression once. -/
def keptGrouping (gexprs : List Expr) (gs : List Grouping) : List Expr × List Grouping :=
  if gexprs = [] ∧ ∃ g ∈ gs.head?, g.exprs ≠ [] then
    let all := (gs.flatMap (·.exprs)).eraseDups
    (all.map keptExpr, gs.map fun g => ⟨g.exprs.map fun e => place e all, []⟩)
  else (gexprs.map keptExpr, gs.map fun g => ⟨g.refs, []⟩)

/-- Limits. -/
def keptCount : Count → Count
  | .deprecated i => .deprecated i
  | .expr e => .expr (keptExpr e)

/-- One relation without its inputs. -/
def keptOp : RelOp → RelOp
  | .read c s f t a _ => .read (keptCommon c) (s.map keptSchema) (keptFilter f t) (keptRead t) a 0
  | .filter c e a => .filter (keptCommon c) (e.map keptExpr) a
  | .project c es a => .project (keptCommon c) (es.map keptExpr) a
  | .aggregate c g gs ms a =>
    .aggregate (keptCommon c) (keptGrouping g gs).1 (keptGrouping g gs).2 (ms.filterMap keptMeasure) a
  | .sort c fs a => .sort (keptCommon c) (fs.map fun f => ⟨f.expr.map keptExpr, f.kind⟩) a
  | .fetch c n m a => .fetch (keptCommon c) (n.map keptCount) (m.map keptCount) a
  | .join c t e p a => .join (keptCommon c) t (e.map keptExpr) (p.map keptExpr) a
  | .set c op a => .set (keptCommon c) op a
  | .cross c a => .cross (keptCommon c) a
  | .ext k c d => .ext k (keptExtCommon c) d
  | .other _ => .other 0

mutual
/-- Relation trees. -/
def keptRel : Rel → Rel
  | .node op ins => .node (keptOp op) (keptInputs ins)
/-- The inputs of a relation. -/
def keptInputs : List (Option Rel) → List (Option Rel)
  | [] => []
  | none :: l => none :: keptInputs l
  | some r :: l => some (keptRel r) :: keptInputs l
end

/-- Relations at the top. -/
def keptTop : PlanRel → PlanRel
  | .rel r => .rel (keptRel r)
  | .root names r => .root names (r.map keptRel)
  | .missing => .missing

/-- Plans. -/
def kept (p : Plan) : Plan := { p with rels := p.rels.map keptTop }

end Verif.SilentSpec
