import Verif.Spec.Unrelated
import Verif.Model.Plan
/-!
# Specification: the same plan with other anchors

Anchors are the numbers by which the relations of a plan refer to its declarations. A renumbering replaces them
everywhere: in the declarations, in types, expressions and relations, and in the messages of extensions.
-/

namespace Verif.RenumSpec

set_option autoImplicit false

open StoreSpec

/-- New numbers for the anchors of each kind and for those of URNs, and the messages that say with the new numbers
what a message says with the old ones. -/
structure Renum where
  on : Kind → Nat → Nat
  urn : Nat → Nat
  msg : AnyMsg → AnyMsg

namespace Renum
variable (r : Renum)

/-- A variation of a type. -/
def tvar (v : Nat) : Nat := r.on .typeVariation v

mutual
def ty : Ty → Ty
  | .missing => .missing
  | .simple k n v => .simple k n (r.tvar v)
  | .intervalDay p n v => .intervalDay p n (r.tvar v)
  | .intervalCompound p n v => .intervalCompound p n (r.tvar v)
  | .len k l n v => .len k l n (r.tvar v)
  | .decimal p s n v => .decimal p s n (r.tvar v)
  | .prec k p n v => .prec k p n (r.tvar v)
  | .struct ts n v => .struct (tys ts) n (r.tvar v)
  | .list t n v => .list (tyOpt t) n (r.tvar v)
  | .map a b n v => .map (tyOpt a) (tyOpt b) n (r.tvar v)
  | .user ref ps n v => .user (r.on .type ref) (params ps) n (r.tvar v)
  | .userRef ref => .userRef (r.on .type ref)
  | .func => .func
  | .alias => .alias
def tyOpt : Option Ty → Option Ty
  | none => none
  | some t => some (ty t)
def tys : List Ty → List Ty
  | [] => []
  | t :: l => ty t :: tys l
def param : Param → Param
  | .missing => .missing
  | .null => .null
  | .bool b => .bool b
  | .int i => .int i
  | .enum s => .enum s
  | .str s => .str s
  | .ty t => .ty (ty t)
def params : List Param → List Param
  | [] => []
  | p :: l => param p :: params l
end

def lit : Lit → Lit
  | .null t => .null (r.ty t)
  | .bool b => .bool b
  | .int w i => .int w i
  | .fp32 b => .fp32 b
  | .fp64 b => .fp64 b
  | .string s => .string s
  | .binary b => .binary b
  | .date d => .date d
  | .time t => .time t
  | .timestamp t => .timestamp t
  | .interval i => .interval i
  | .prec k p v => .prec k p v
  | .other n => .other n

def literal (l : Literal) : Literal := ⟨l.value.map r.lit, l.nullable, r.tvar l.tvar⟩

mutual
def expr : Expr → Expr
  | .missing => .missing
  | .literal l => .literal (r.literal l)
  | .selection f => .selection f
  | .call f as os out => .call (r.on .function f) (args as) os (out.map r.ty)
  | .cast e t fb => .cast (exprOpt e) (t.map r.ty) fb
  | .ifThen cs els => .ifThen (clauses cs) (exprOpt els)
  | .other => .other
def exprOpt : Option Expr → Option Expr
  | none => none
  | some e => some (expr e)
def arg : Arg → Arg
  | .missing => .missing
  | .ty t => .ty (r.ty t)
  | .value e => .value (expr e)
  | .enum s => .enum s
def args : List Arg → List Arg
  | [] => []
  | a :: l => arg a :: args l
def clauses : List Clause → List Clause
  | [] => []
  | .mk c t :: l => .mk (exprOpt c) (exprOpt t) :: clauses l
end

mutual
def value : ExtValue → ExtValue
  | .string s => .string s
  | .integer i => .integer i
  | .float f => .float f
  | .boolean b => .boolean b
  | .null => .null
  | .error e => .error e
  | .expr e => .expr (r.expr e)
  | .enum s => .enum s
  | .tuple vs => .tuple (values vs)
def values : List ExtValue → List ExtValue
  | [] => []
  | v :: l => value v :: values l
end

def column : ExtColumn → ExtColumn
  | .named n t => .named n (r.ty t)
  | .expr e => .expr (r.expr e)

/-- The arguments of an extension. -/
def extArgs (a : ExtArgs) : ExtArgs :=
  ⟨r.values a.positional, a.named.map fun p => (p.1, r.value p.2), a.columns.map r.column⟩

def adv (a : AdvExt) : AdvExt := ⟨a.enhancement.map r.msg, a.optimization.map r.msg⟩

def struct (s : StructTy) : StructTy := ⟨s.types.map r.ty, r.tvar s.variation, s.nullability⟩

def schema (s : NamedStruct) : NamedStruct := ⟨s.names, s.struct.map r.struct⟩

def readType : ReadType → ReadType
  | .named ns x => .named ns x
  | .virtual rows x => .virtual (rows.map fun l => l.map r.expr) x
  | .extension d => .extension (d.map r.msg)
  | .other => .other

def sortKind : SortKind → SortKind
  | .direction d => .direction d
  | .function f => .function (r.on .function f)

def sortField (f : SortField) : SortField := ⟨f.expr.map r.expr, f.kind.map r.sortKind⟩

def count : Count → Count
  | .deprecated i => .deprecated i
  | .expr e => .expr (r.expr e)

def grouping (g : Grouping) : Grouping := ⟨g.refs, g.exprs.map r.expr⟩

def aggFn (a : AggFn) : AggFn := ⟨r.on .function a.f, r.args a.args, a.opts, a.out.map r.ty, a.rest⟩

def measure (m : Measure) : Measure := ⟨m.fn.map r.aggFn, m.rest⟩

def op : RelOp → RelOp
  | .read c s f t a x => .read c (s.map r.schema) (f.map r.expr) (r.readType t) (a.map r.adv) x
  | .filter c e a => .filter c (e.map r.expr) (a.map r.adv)
  | .project c es a => .project c (es.map r.expr) (a.map r.adv)
  | .aggregate c es gs ms a => .aggregate c (es.map r.expr) (gs.map r.grouping) (ms.map r.measure) (a.map r.adv)
  | .sort c fs a => .sort c (fs.map r.sortField) (a.map r.adv)
  | .fetch c n m a => .fetch c (n.map r.count) (m.map r.count) (a.map r.adv)
  | .join c t e p a => .join c t (e.map r.expr) (p.map r.expr) (a.map r.adv)
  | .set c o a => .set c o (a.map r.adv)
  | .cross c a => .cross c (a.map r.adv)
  | .ext k c d => .ext k c (d.map r.msg)
  | .other x => .other x

mutual
def rel : Rel → Rel
  | .node o ins => .node (r.op o) (inputs ins)
def inputs : List (Option Rel) → List (Option Rel)
  | [] => []
  | none :: l => none :: inputs l
  | some x :: l => some (rel x) :: inputs l
end

def planRel : PlanRel → PlanRel
  | .rel x => .rel (r.rel x)
  | .root ns x => .root ns (x.map r.rel)
  | .missing => .missing

def decl : Store.Decl → Store.Decl
  | none => none
  | some (k, u, a, n) => some (k, r.urn u, r.on k a, n)

/-- The plan with the new numbers. -/
def plan (p : Plan) : Plan :=
  ⟨p.version, p.urns.map fun u => (r.urn u.1, u.2), p.decls.map r.decl, p.rels.map r.planRel⟩

end Renum

/-- Different anchors get different numbers, and the number `0`, which means no variation of a type, keeps that
meaning. -/
structure Renum.Sound (r : Renum) : Prop where
  inj : ∀ k a b, r.on k a = r.on k b → a = b
  urns : ∀ a b, r.urn a = r.urn b → a = b
  none : r.on .typeVariation 0 = 0

/-- The handlers of the registry understand the new messages. -/
def Renum.Respects (r : Renum) (reg : Registry ExtArgs (List Nat)) : Prop :=
  ∀ ns d c, match reg.decode ns d c with
    | .ok (n, a) => reg.decode ns (r.msg d) c = .ok (n, r.extArgs a)
    | .error _ => ∃ e, reg.decode ns (r.msg d) c = .error e

/-- No two declarations of a kind share a name, and no function without a signature shares its name with the part
before the signature of another function: then no name needs its anchor to be understood. -/
def DistinctNames (ds : List Store.Decl) : Prop :=
  ∀ k u v a b m n m' n', some (k, u, a, m) ∈ ds → some (k, v, b, n) ∈ ds →
    legalName k m = some m' → legalName k n = some n' → a ≠ b →
      m' ≠ n' ∧ (k = .function → ':' ∉ m' → ¬ UnrelSpec.SameBase m' n')

/-- Under the options no anchor is shown in the relations of a plan with these declarations. -/
def HidesAnchors (o : Opts) (ds : List Store.Decl) : Prop :=
  o.anchors = .never ∨ (o.anchors = .required ∧ DistinctNames ds)

end Verif.RenumSpec
