import Verif.Spec.Complete
import Verif.Model.RelConv
/-!
# Column references with other numbers

The same relation text with every `$i` replaced by another reference, in output lists and inside expressions; the
arguments of extensions are left alone, because extensions may look at them.
-/

namespace Verif.ScopeSpec

set_option autoImplicit false

/-- `f` replaces the number of a reference by `g` of it, no two numbers by the same one; what fits an `i32` still
does. -/
structure Moves (f : IntTok → IntTok) (g : Int → Int) : Prop where
  value : ∀ i, (f i).toI32 = i.toI32.map g
  inj : ∀ a b, g a = g b → a = b

variable (f : IntTok → IntTok)

mutual
/-- An expression. -/
def expr : SExpr → SExpr
  | .ifThen cs e => .ifThen (clauses cs) (expr e)
  | .cast e fb t => .cast (expr e) fb t
  | .call n a u args t => .call n a u (exprs args) t
  | .ref i => .ref (f i)
  | .lit l => .lit l
/-- Several of them. -/
def exprs : List SExpr → List SExpr
  | [] => []
  | e :: l => expr e :: exprs l
/-- The clauses of a conditional. -/
def clauses : List (SExpr × SExpr) → List (SExpr × SExpr)
  | [] => []
  | (c, r) :: l => (expr c, expr r) :: clauses l
end

/-- The output of a `Read`. -/
def output : SOutput → SOutput
  | .implicit cols => .implicit cols
  | .direct cols refs => .direct cols (refs.map fun l => l.map f)

/-- An item of a `Project`. -/
def proj : SProj → SProj
  | .ref i => .ref (f i)
  | .expr e => .expr (expr f e)

/-- The grouping of an `Aggregate`. -/
def group : SGroup → SGroup
  | .exprs l => .exprs (l.map (expr f))
  | .sets l => .sets (l.map fun s => s.map (expr f))

/-- A limit or offset; plain numbers are not references. -/
def fetch : SFetch → SFetch
  | .int i => .int i
  | .expr e => .expr (expr f e)

/-- A line. -/
def line : SLine → SLine
  | .root ns => .root ns
  | .read t o => .read t (output f o)
  | .readVirtual rows c cols => .readVirtual (rows.map fun r => r.map (expr f)) (c.map (expr f)) cols
  | .readExt cols => .readExt cols
  | .filter c refs => .filter (expr f c) (refs.map f)
  | .project l => .project (l.map (proj f))
  | .aggregate g outs => .aggregate (group f g) (outs.map (expr f))
  | .sort l refs => .sort (l.map fun p => (expr f p.1, p.2)) (refs.map f)
  | .fetch l refs => .fetch (l.map fun p => (p.1, fetch f p.2)) (refs.map f)
  | .join t c p refs => .join t (expr f c) (p.map (expr f)) (refs.map f)
  | .set op refs => .set op (refs.map f)
  | .cross refs => .cross (refs.map f)
  | .ext k n a cols => .ext k n a cols

mutual
/-- A tree of lines. -/
def tree : RNode SLine SAddendum → RNode SLine SAddendum
  | .mk l as kids => .mk (line f l) as (trees kids)
/-- Several of them. -/
def trees : List (RNode SLine SAddendum) → List (RNode SLine SAddendum)
  | [] => []
  | t :: l => tree t :: trees l
end

/-! ## Plans -/

mutual
/-- The references of an expression moved by `g`. -/
def moveExpr (g : Int → Int) : Expr → Expr
  | .selection (.field i c) => .selection (.field (g i) c)
  | .call f args os t => .call f (moveArgs g args) os t
  | .cast e t fb => .cast (moveOpt g e) t fb
  | .ifThen cs e => .ifThen (moveClauses g cs) (moveOpt g e)
  | .missing => .missing
  | .literal l => .literal l
  | .selection .badReference => .selection .badReference
  | .selection .badSegment => .selection .badSegment
  | .other => .other
/-- One that may be missing. -/
def moveOpt (g : Int → Int) : Option Expr → Option Expr
  | none => none
  | some e => some (moveExpr g e)
/-- The arguments of a function; types and enumerations have no references. -/
def moveArgs (g : Int → Int) : List Arg → List Arg
  | [] => []
  | .value e :: l => .value (moveExpr g e) :: moveArgs g l
  | a :: l => a :: moveArgs g l
/-- The clauses of a conditional. -/
def moveClauses (g : Int → Int) : List Clause → List Clause
  | [] => []
  | .mk c t :: l => .mk (moveOpt g c) (moveOpt g t) :: moveClauses g l
end

/-- The relations that are written below a relation, and itself: reads and relations of unknown kinds are written
without inputs. -/
inductive Shown : Rel → Rel → Prop where
  | here (r : Rel) : Shown r r
  | step (op : RelOp) (ins : List (Option Rel)) (r s : Rel) : RelSpec.HasInputs op → some r ∈ ins → Shown r s → Shown (.node op ins) s

/-- The relations of a plan. -/
def ShownIn (p : Plan) (s : Rel) : Prop :=
  ∃ t ∈ p.rels, ∃ r, (t = .rel r ∨ ∃ ns, t = .root ns (some r)) ∧ Shown r s

/-! ## Outcomes -/

/-- Both are accepted, with as many columns, or both are refused for the same reason, or both panic. -/
def SameOutcome : Res RErr (Rel × Nat) → Res RErr (Rel × Nat) → Prop
  | .ok a, .ok b => a.2 = b.2
  | .err e, .err e' => e = e'
  | .panic, .panic => True
  | _, _ => False

/-- The same for all relations of a plan: accepted, refused or panicking alike. -/
def SameVerdict : Res RErr (List PlanRel) → Res RErr (List PlanRel) → Prop
  | .ok a, .ok b => a.length = b.length
  | .err e, .err e' => e = e'
  | .panic, .panic => True
  | _, _ => False

end Verif.ScopeSpec
