import Verif.Model.RelConv
/-!
# What relations mean

Independent descriptions of output columns, input counts, grouping sets and widths.
-/

namespace Verif.RelSpec

set_option autoImplicit false

/-- The emit of a relation. -/
def emitOf : Rel → Option Emit
  | .node (.read c ..) _ => c.bind (·.emit)
  | .node (.filter c ..) _ => c.bind (·.emit)
  | .node (.project c ..) _ => c.bind (·.emit)
  | .node (.aggregate c ..) _ => c.bind (·.emit)
  | .node (.sort c ..) _ => c.bind (·.emit)
  | .node (.fetch c ..) _ => c.bind (·.emit)
  | .node (.join c ..) _ => c.bind (·.emit)
  | .node (.set c ..) _ => c.bind (·.emit)
  | .node (.cross c ..) _ => c.bind (·.emit)
  | .node (.ext _ c _) _ => c.bind (·.emit)
  | .node (.other _) _ => none

/-- The numbers `0, 1, ..., n-1`. -/
def identity (n : Nat) : List Int := (List.range n).map Int.ofNat

/-- Which of `n` direct columns an emit puts out, in order. -/
def indices (n : Nat) : Emit → List Int
  | .direct => identity n
  | .emit m => m

/-- The column at an index, if the index is one. -/
def at? {α : Type} (l : List α) (i : Int) : Option α := if 0 ≤ i then l[i.toNat]? else none

/-- Output columns of a relation with the given direct columns. -/
def outputs {α : Type} (direct : List α) (e : Emit) : List (Option α) :=
  match e with
  | .direct => direct.map some
  | .emit m => m.map (at? direct)

/-- The references after `=>` of the relations that pass their input on. -/
def written : SLine → Option (List IntTok)
  | .filter _ refs => some refs
  | .sort _ refs => some refs
  | .fetch _ refs => some refs
  | .join _ _ _ refs => some refs
  | .set _ refs => some refs
  | .cross refs => some refs
  | _ => none

/-- How many columns such a relation can refer to, given the widths of the inputs. -/
def inputColumns : SLine → List Nat → Nat
  | .set .., ws => ws.headD 0
  | _, ws => ws.sum

/-! ## Inputs -/

/-- How many inputs a relation message has. -/
def Arity : RelOp → Nat → Prop
  | .read .., n => n = 0
  | .filter .., n => n = 1
  | .project .., n => n = 1
  | .aggregate .., n => n = 1
  | .sort .., n => n = 1
  | .fetch .., n => n = 1
  | .join .., n => n = 2
  | .cross .., n => n = 2
  | .set .., n => 2 ≤ n
  | .ext .leaf .., n => n = 0
  | .ext .single .., n => n = 1
  | .ext .multi .., _ => True
  | .other _, _ => False

/-- Every relation of the tree has the inputs its kind requires, all of them there. -/
inductive WellShaped : Rel → Prop where
  | node (op : RelOp) (inputs : List Rel) : Arity op inputs.length → (∀ r ∈ inputs, WellShaped r) →
      WellShaped (.node op (inputs.map some))

/-- How many child lines a relation line may have. -/
def LineArity : SLine → Nat → Prop
  | .root _, n => n = 1
  | .read .., n => n = 0
  | .readVirtual .., n => n = 0
  | .readExt _, n => n = 0
  | .filter .., n => n = 1
  | .project _, n => n = 1
  | .aggregate .., n => n = 1
  | .sort .., n => n = 1
  | .fetch .., n => n = 1
  | .join .., n => n = 2
  | .cross _, n => n = 2
  | .set .., n => 2 ≤ n
  | .ext .leaf .., n => n = 0
  | .ext .single .., n => n = 1
  | .ext .multi .., _ => True

/-- Every line of the tree has a permitted number of child lines, and no line below the top is a
`Root` line. -/
inductive TreeArity : RNode SLine SAddendum → Prop where
  | mk (line : SLine) (as : List SAddendum) (kids : List (RNode SLine SAddendum)) :
      LineArity line kids.length → (∀ k ∈ kids, TreeArity k) →
      (∀ k ∈ kids, ∀ ns, k.rel ≠ .root ns) → TreeArity (.mk line as kids)

/-! ## Grouping sets -/

/-- Dereference: the set a grouping stands for. -/
def setOf (gexprs : List Expr) (g : Grouping) : List (Option Expr) := g.refs.map fun i => gexprs[i]?

/-- The function call a measure stands for. -/
def callOf (m : Measure) : Option Expr := m.fn.map fun f => .call f.f f.args f.opts f.out

/-- Direct output columns of an aggregate: grouping expressions, then measures. -/
def aggregateColumns (gexprs : List Expr) (measures : List Measure) : List (Option Expr) :=
  gexprs.map some ++ measures.map callOf

/-- The reference to input column `i`. -/
def inputRef (i : Nat) : Expr := .selection (.field i none)

/-- Direct output columns of a project over `n` input columns. -/
def projectColumns (n : Nat) (exprs : List Expr) : List Expr := (List.range n).map inputRef ++ exprs

/-- What an item of a `Project` line stands for: a column or an expression. -/
def projItem [FTab] (st : Store) (cols : List Expr) : SProj → Option Expr
  | .ref i => at? cols i.toInt
  | .expr e => match convExpr st e with | .ok e => some e | _ => none

/-! ## Widths -/

/-- Handlers whose relations keep the number of columns they were written with. -/
def StableWidths (reg : Registry ExtArgs (List Nat)) : Prop :=
  ∀ name args d ws, reg.parse .relation name args = .ok d →
    ∃ name' args', reg.decode .relation d ws = .ok (name', args') ∧
      args'.columns.length = args.columns.length

/-- Joins that put out the columns of both inputs. -/
def FullJoin : EnumVal JoinType → Prop
  | .known .inner => True
  | .known .left => True
  | .known .right => True
  | .known .outer => True
  | _ => False

/-- All joins of the tree that have no output mapping put out the columns of both inputs. -/
inductive FullJoins : Rel → Prop where
  | node (op : RelOp) (inputs : List (Option Rel)) :
      (∀ c t e p a, op = .join c t e p a → c.bind (·.emit) = some .direct → FullJoin t) →
      (∀ r, some r ∈ inputs → FullJoins r) → FullJoins (.node op inputs)

end Verif.RelSpec
