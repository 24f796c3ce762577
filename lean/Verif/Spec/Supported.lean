import Verif.Spec.Rels
import Verif.Spec.ExtArgs
/-!
# Which relations the text can express, and when two relations mean the same

Written against the protobuf relations, the declarations and the registry in force, not against the
parser or the printer.
-/

namespace Verif.RelSpec
open StoreSpec TextSpec

set_option autoImplicit false

/-! ## Output columns -/

/-- The output mapping of a relation, if it has one. -/
def mapping (c : Option Common) : Option (List Int) :=
  match c.bind (·.emit) with
  | some (.emit m) => some m
  | _ => none

/-- Which of `n` direct columns are put out, in order: all of them without a mapping. -/
def shown (n : Nat) (c : Option Common) : List Int := (mapping c).getD (identity n)

/-- Hints and other content of `RelCommon`. -/
def hints (c : Option Common) : Nat := (c.map (·.rest)).getD 0

/-- Every column put out is one of the `n` direct columns, and there are not too many to count. -/
def InRange (n : Nat) (m : List Int) : Prop :=
  n + m.length ≤ 2 ^ 31 ∧ ∀ i ∈ m, 0 ≤ i ∧ i < (n : Int)

/-- Which sides of a join are put out, and whether there is a mark. -/
def joinSides : JoinType → Bool × Bool × Bool
  | .unspecified => (true, true, false)
  | .inner => (true, true, false)
  | .outer => (true, true, false)
  | .left => (true, true, false)
  | .right => (true, true, false)
  | .leftSemi => (true, false, false)
  | .leftAnti => (true, false, false)
  | .leftSingle => (true, false, false)
  | .leftMark => (true, false, true)
  | .rightSemi => (false, true, false)
  | .rightAnti => (false, true, false)
  | .rightSingle => (false, true, false)
  | .rightMark => (false, true, true)

/-- How many columns a join of inputs with `l` and `r` columns has. -/
def joinColumns (t : JoinType) (l r : Nat) : Nat :=
  (if (joinSides t).1 then l else 0) + (if (joinSides t).2.1 then r else 0) + (if (joinSides t).2.2 then 1 else 0)

/-- How many direct columns a relation has whose inputs have the widths `ws`. -/
def directWidth (reg : Registry ExtArgs (List Nat)) (ws : List Nat) : RelOp → Nat
  | .read _ (some s) _ _ _ _ => s.names.length
  | .read .. => 0
  | .filter .. => ws.sum
  | .project _ es _ => ws.sum + es.length
  | .aggregate _ g _ ms _ => g.length + ms.length
  | .sort .. => ws.sum
  | .fetch .. => ws.sum
  | .join _ (.known t) .. => joinColumns t (ws.getD 0 0) (ws.getD 1 0)
  | .join .. => 0
  | .set .. => ws.headD 0
  | .cross .. => ws.sum
  | .ext _ _ (some d) =>
    match reg.decode .relation d ws with
    | .ok (_, a) => a.columns.length
    | .error _ => 0
  | .ext .. => 0
  | .other _ => 0

/-- The `RelCommon` of a relation. -/
def common : RelOp → Option Common
  | .read c .. => c
  | .filter c .. => c
  | .project c .. => c
  | .aggregate c .. => c
  | .sort c .. => c
  | .fetch c .. => c
  | .join c .. => c
  | .set c .. => c
  | .cross c .. => c
  | .ext _ c _ => c
  | .other _ => none

/-- How many columns a relation puts out. -/
def outWidth (reg : Registry ExtArgs (List Nat)) (ws : List Nat) (op : RelOp) : Nat :=
  (shown (directWidth reg ws op) (common op)).length

mutual
/-- How many columns the relation at the top of a tree puts out. -/
def width (reg : Registry ExtArgs (List Nat)) : Rel → Nat
  | .node op ins => outWidth reg (widths reg ins) op
/-- The same for the inputs. -/
def widths (reg : Registry ExtArgs (List Nat)) : List (Option Rel) → List Nat
  | [] => []
  | none :: l => 0 :: widths reg l
  | some r :: l => width reg r :: widths reg l
end

/-! ## Relations with a faithful text -/

/-- The options under which printed text can be read back: anchors and literal types are not left
out, the indentation is what the parser counts, and columns are shown as put out. -/
def Readable (o : Opts) : Prop :=
  o.anchors ≠ .never ∧ o.litTypes ≠ .never ∧ o.indent = cs!"  " ∧ o.showEmit = false

/-- A payload that is registered, whose arguments have a faithful text and from whose arguments it is
built again. -/
def AddendumOk [UTab] [FTab] (env : Env) (k : AddKind) (d : AnyMsg) : Prop :=
  ∃ name args, env.reg.decode k.ns d [] = .ok (name, args) ∧ env.reg.parse k.ns name args = .ok d ∧
    isIdentifier name = true ∧ args.columns = [] ∧ ArgsOk env.st env.o args

/-- All payloads of an advanced extension are such. -/
def AdvOk [UTab] [FTab] (env : Env) (a : Option AdvExt) : Prop :=
  ∀ x, a = some x → (∀ d, x.enhancement = some d → AddendumOk env .enh d) ∧
    ∀ d ∈ x.optimization, AddendumOk env .opt d

/-- Columns with names and types that have a faithful text. -/
def ColumnsOk [UTab] (st : Store) (s : Option NamedStruct) : Prop :=
  ∃ cols : List (Str × Ty), s = some ⟨cols.map (·.1), some ⟨cols.map (·.2), 0, .required⟩⟩ ∧
    ∀ c ∈ cols, Spellable c.1 ∧ Writable st c.2

/-- Reads. -/
def ReadOk [UTab] [FTab] (env : Env) (c : Option Common) (filter : Option Expr) : ReadType → Prop
  | .named names rest => names ≠ [] ∧ (∀ n ∈ names, Spellable n) ∧ rest = 0 ∧ filter = none ∧
      ∀ m, mapping c = some m → ∀ i ∈ m, InI32 i
  | .virtual rows rest => rest = 0 ∧ (∀ r ∈ rows, ∀ e ∈ r, Faithful env.st e) ∧
      (∀ e, filter = some e → Faithful env.st e) ∧ mapping c = none
  | .extension (some d) => filter = none ∧ AddendumOk env .ext d ∧ mapping c = none
  | _ => False

/-- Grouping sets as lists of expressions; no grouping at all is one empty set. -/
def groupSets (gexprs : List Expr) (gs : List Grouping) : List (List (Option Expr)) :=
  if gs = [] then [[]] else gs.map (setOf gexprs)

/-- The expression is in one of the sets. -/
def Grouped (gexprs : List Expr) (gs : List Grouping) (e : Expr) : Prop :=
  ∃ s ∈ groupSets gexprs gs, some e ∈ s

/-- The expression is a cast. -/
def IsCast : Expr → Prop
  | .cast .. => True
  | _ => False

/-- A measure that is nothing but a function call with a faithful text. -/
def MeasureOk [UTab] [FTab] (st : Store) (m : Measure) : Prop :=
  ∃ f args t, m = ⟨some ⟨f, args, [], some t, 0⟩, 0⟩ ∧ Faithful st (.call f args [] (some t))

/-- Aggregates: the sets refer to grouping expressions; a grouping expression that is put out is in one
of the sets, a measure is not; a single set does not begin with a cast. -/
def AggregateOk [UTab] [FTab] (st : Store) (c : Option Common) (gexprs : List Expr) (gs : List Grouping)
    (ms : List Measure) : Prop :=
  (∀ g ∈ gs, g.exprs = [] ∧ ∀ i ∈ g.refs, i < gexprs.length) ∧ (∀ e ∈ gexprs, Faithful st e) ∧
  (∀ m ∈ ms, MeasureOk st m) ∧
  (∀ i ∈ shown (gexprs.length + ms.length) c, ∀ e, gexprs[i.toNat]? = some e → Grouped gexprs gs e) ∧
  (∀ m ∈ ms, ∀ e, callOf m = some e → ¬ Grouped gexprs gs e) ∧
  (∀ e l, groupSets gexprs gs = [some e :: l] → ¬ IsCast e)

/-- Sort fields with an expression and one of the four ordered directions. -/
def SortOk [UTab] [FTab] (st : Store) (f : SortField) : Prop :=
  ∃ e d, f = ⟨some e, some (.direction (.known d))⟩ ∧ Faithful st e ∧ d ≠ .unspecified ∧ d ≠ .clustered

/-- The number `i` as an expression. -/
def number (i : Int) : Expr := .literal ⟨some (.int .i64 i), false, 0⟩

/-- Literals written with a digit or a sign in front. -/
def Numeric : Expr → Prop
  | .literal ⟨some (.int ..), _, _⟩ => True
  | .literal ⟨some (.fp32 _), _, _⟩ => True
  | .literal ⟨some (.fp64 _), _, _⟩ => True
  | _ => False

/-- Limits and offsets: numbers that are not negative, or expressions that are not numbers. -/
def CountOk [UTab] [FTab] (st : Store) (o : Opts) : Count → Prop
  | .deprecated i => 0 ≤ i ∧ i < 2 ^ 63
  | .expr e => (o.litTypes = .required ∧ ∃ i, e = number i ∧ 0 ≤ i ∧ i < 2 ^ 63) ∨
      (Faithful st e ∧ ¬ Numeric e)

/-- One relation whose inputs have the widths `ws`. -/
def OpOk [UTab] [FTab] (env : Env) (ws : List Nat) : RelOp → Prop
  | .read c schema filter ty adv rest => hints c = 0 ∧ rest = 0 ∧ ColumnsOk env.st schema ∧
      ReadOk env c filter ty ∧ AdvOk env adv
  | .filter c cond adv => hints c = 0 ∧ (∃ e, cond = some e ∧ Faithful env.st e) ∧
      InRange ws.sum (shown ws.sum c) ∧ AdvOk env adv
  | .project c exprs adv => hints c = 0 ∧
      (∀ e ∈ exprs, Faithful env.st e ∧ ∀ i, e = .selection (.field i none) → 0 ≤ i ∧ i < (ws.sum : Int)) ∧
      InRange (ws.sum + exprs.length) (shown (ws.sum + exprs.length) c) ∧ AdvOk env adv
  | .aggregate c gexprs gs ms adv => hints c = 0 ∧ AggregateOk env.st c gexprs gs ms ∧
      InRange (gexprs.length + ms.length) (shown (gexprs.length + ms.length) c) ∧ AdvOk env adv
  | .sort c sorts adv => hints c = 0 ∧ sorts ≠ [] ∧ (∀ f ∈ sorts, SortOk env.st f) ∧
      InRange ws.sum (shown ws.sum c) ∧ AdvOk env adv
  | .fetch c count offset adv => hints c = 0 ∧ (∀ x, count = some x → CountOk env.st env.o x) ∧
      (∀ x, offset = some x → CountOk env.st env.o x) ∧ InRange ws.sum (shown ws.sum c) ∧ AdvOk env adv
  | .join c ty cond post adv => hints c = 0 ∧
      (∃ t, ty = .known t ∧ t ≠ .unspecified ∧
        InRange (joinColumns t (ws.getD 0 0) (ws.getD 1 0)) (shown (joinColumns t (ws.getD 0 0) (ws.getD 1 0)) c) ∧
        ws.sum ≤ 2 ^ 31 ∧
        -- the parser takes all columns of both inputs for the direct columns
        (shown (joinColumns t (ws.getD 0 0) (ws.getD 1 0)) c = identity ws.sum →
          joinColumns t (ws.getD 0 0) (ws.getD 1 0) = ws.sum)) ∧
      (∃ e, cond = some e ∧ Faithful env.st e) ∧ (∀ e, post = some e → Faithful env.st e) ∧ AdvOk env adv
  | .set c op adv => hints c = 0 ∧ (∃ t, op = .known t ∧ t ≠ .unspecified) ∧
      (∀ w ∈ ws, w = ws.headD 0) ∧ InRange (ws.headD 0) (shown (ws.headD 0) c) ∧ AdvOk env adv
  | .cross c adv => hints c = 0 ∧ InRange ws.sum (shown ws.sum c) ∧ AdvOk env adv
  | .ext _ c detail => hints c = 0 ∧ mapping c = none ∧ ∃ d name args, detail = some d ∧
      env.reg.decode .relation d ws = .ok (name, args) ∧ env.reg.parse .relation name args = .ok d ∧
      isIdentifier name = true ∧ ArgsOk env.st env.o args
  | .other _ => False

/-- Relation trees that have a faithful text. -/
inductive Supported [UTab] [FTab] (env : Env) : Rel → Prop where
  | node (op : RelOp) (inputs : List Rel) : Arity op inputs.length → (∀ r ∈ inputs, Supported env r) →
      OpOk env (inputs.map (width env.reg)) op → Supported env (.node op (inputs.map some))

/-! ## Equivalence -/

/-- The payloads of an advanced extension. -/
def payloads (a : Option AdvExt) : Option AnyMsg × List AnyMsg :=
  match a with
  | some x => (x.enhancement, x.optimization)
  | none => (none, [])

/-- The value of a limit or offset. -/
def amount : Count → Expr
  | .deprecated i => number i
  | .expr e => e

/-- Direct columns of an aggregate. -/
inductive AggColumn where
  | key (e : Expr)
  | measure (m : Measure)

/-- Grouping expressions, then measures. -/
def aggColumns (gexprs : List Expr) (ms : List Measure) : List AggColumn :=
  gexprs.map .key ++ ms.map .measure

/-- Same output columns, of the direct columns `d` and `d'`. -/
def SameOutputs {α : Type} (d d' : List α) (c c' : Option Common) : Prop :=
  (shown d.length c).map (at? d) = (shown d'.length c').map (at? d')

/-- Two relations that mean the same on inputs of the widths `ws`.  Grouping expressions and measures
may be numbered differently, expressions of a project may be put elsewhere, as long as the grouping
sets and the output columns are the same; all measures have a function and none of the grouping sets
uses the deprecated field. -/
def OpEquiv (reg : Registry ExtArgs (List Nat)) (ws : List Nat) : RelOp → RelOp → Prop
  | .read c s f t a r, .read c' s' f' t' a' r' =>
    mapping c = mapping c' ∧ hints c = hints c' ∧ s = s' ∧ f = f' ∧ t = t' ∧ payloads a = payloads a' ∧ r = r'
  | .filter c e a, .filter c' e' a' =>
    shown ws.sum c = shown ws.sum c' ∧ hints c = hints c' ∧ e = e' ∧ payloads a = payloads a'
  | .project c es a, .project c' es' a' =>
    SameOutputs (projectColumns ws.sum es) (projectColumns ws.sum es') c c' ∧ hints c = hints c' ∧
      payloads a = payloads a'
  | .aggregate c g gs ms a, .aggregate c' g' gs' ms' a' =>
    groupSets g gs = groupSets g' gs' ∧ SameOutputs (aggColumns g ms) (aggColumns g' ms') c c' ∧
      (∀ m ∈ ms ++ ms', m.fn ≠ none) ∧ (∀ x ∈ gs ++ gs', x.exprs = []) ∧
      hints c = hints c' ∧ payloads a = payloads a'
  | .sort c l a, .sort c' l' a' =>
    shown ws.sum c = shown ws.sum c' ∧ hints c = hints c' ∧ l = l' ∧ payloads a = payloads a'
  | .fetch c l o a, .fetch c' l' o' a' =>
    shown ws.sum c = shown ws.sum c' ∧ hints c = hints c' ∧ l.map amount = l'.map amount ∧
      o.map amount = o'.map amount ∧ payloads a = payloads a'
  | .join c t e p a, .join c' t' e' p' a' =>
    shown (directWidth reg ws (.join c t e p a)) c = shown (directWidth reg ws (.join c t e p a)) c' ∧
      hints c = hints c' ∧ t = t' ∧ e = e' ∧ p = p' ∧ payloads a = payloads a'
  | .set c t a, .set c' t' a' =>
    shown (ws.headD 0) c = shown (ws.headD 0) c' ∧ hints c = hints c' ∧ t = t' ∧ payloads a = payloads a'
  | .cross c a, .cross c' a' =>
    shown ws.sum c = shown ws.sum c' ∧ hints c = hints c' ∧ payloads a = payloads a'
  | .ext k c d, .ext k' c' d' => k = k' ∧ mapping c = mapping c' ∧ hints c = hints c' ∧ d = d'
  | _, _ => False

/-- Two relation trees that mean the same. -/
inductive Equiv (reg : Registry ExtArgs (List Nat)) : Rel → Rel → Prop where
  | node (op op' : RelOp) (inputs : List (Rel × Rel)) : (∀ p ∈ inputs, Equiv reg p.1 p.2) →
      OpEquiv reg (inputs.map fun p => width reg p.1) op op' →
      Equiv reg (.node op (inputs.map fun p => some p.1)) (.node op' (inputs.map fun p => some p.2))

end Verif.RelSpec
