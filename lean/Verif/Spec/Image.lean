import Verif.Model.Plan
import Verif.Spec.Plan
import Verif.Spec.Exprs
/-!
# Specification: what the parser can ever build

Conditions on a plan message alone: which messages, fields, variants and encodings occur in plans that were
read from a text.
-/

namespace Verif.ImageSpec
open Verif.RelSpec Verif.PlanSpec Verif.StoreSpec

set_option autoImplicit false

/-- `RelCommon` is there, says what is put out, and has no hints. -/
def Plain (c : Option Common) (e : Emit) : Prop := c = some ⟨some e, 0⟩

/-- Of `n` columns `w` are put out: all of them as they are, or those of a mapping of `w` indices, which is
not the one that keeps all columns in order. -/
def Mapped (n : Nat) (c : Option Common) (w : Nat) : Prop :=
  (Plain c .direct ∧ w = n) ∨ ∃ m, Plain c (.emit m) ∧ w = m.length ∧ (n ≤ 2 ^ 31 → m ≠ identity n)

/-- A mapping has only 32-bit indices. -/
def Indexed (c : Option Common) : Prop := ∀ m, Plain c (.emit m) → ∀ i ∈ m, InI32 i

/-- An advanced extension is left out or not empty, and the handlers of the registry made what is in it. -/
def AdvImage (reg : Registry ExtArgs (List Nat)) (a : Option AdvExt) : Prop :=
  ∀ x, a = some x → (x.enhancement ≠ none ∨ x.optimization ≠ []) ∧
    (∀ d, x.enhancement = some d → ∃ n args, reg.parse .enhancement n args = .ok d) ∧
    ∀ d ∈ x.optimization, ∃ n args, reg.parse .optimization n args = .ok d

/-- A schema has as many types as names, and its row is required. -/
def SchemaImage (st : Store) (s : Option NamedStruct) (n : Nat) : Prop :=
  ∃ names types, s = some ⟨names, some ⟨types, 0, .required⟩⟩ ∧ names.length = n ∧ types.length = n ∧
    ∀ t ∈ types, Producible st t

/-- A measure is a call and nothing else. -/
def MeasureImage (st : Store) (m : Measure) : Prop :=
  ∃ f args t, m = ⟨some ⟨f, args, [], some t, 0⟩, 0⟩ ∧ ExprImage st (.call f args [] (some t))

/-- Limits are expressions. -/
def CountImage (st : Store) (c : Option Count) : Prop := ∀ x, c = some x → ∃ e, x = .expr e ∧ ExprImage st e

/-- There is a grouping set, and the sets point into a list of expressions without repetitions, all of which are
used. -/
def GroupingImage (st : Store) (g : List Expr) (gs : List Grouping) : Prop :=
  g.Nodup ∧ (∀ e ∈ g, ExprImage st e) ∧ (∀ x ∈ gs, x.exprs = [] ∧ ∀ i ∈ x.refs, i < g.length) ∧
    (∀ i < g.length, ∃ x ∈ gs, i ∈ x.refs) ∧ gs ≠ []

/-- Numbers are given in the order of their first use: each is one that was used before or the least that was
not. -/
def FirstUse (refs : List Nat) : Prop :=
  ∀ a i b, refs = a ++ i :: b → i ∈ a ∨ ∀ j, j ∈ a ↔ j < i

/-- Of what is put out, that which is not one of the first `n` columns is the next `k` columns, each once and in
order. -/
def InTurn (n k : Nat) (c : Option Common) : Prop :=
  ∀ m, Plain c (.emit m) → m.filter (fun i => decide ((n : Int) ≤ i)) = (List.range k).map fun i => ((n + i : Nat) : Int)

/-- What is read, with which filter and mapping, of a table of `n` columns. -/
def ReadImage (st : Store) (reg : Registry ExtArgs (List Nat)) (c : Option Common) (f : Option Expr) (n w : Nat) :
    ReadType → Prop
  | .named names rest => names ≠ [] ∧ rest = 0 ∧ f = none ∧ Indexed c ∧
      ((Plain c .direct ∧ w = n) ∨ ∃ m, Plain c (.emit m) ∧ w = m.length)
  | .virtual rows rest => rest = 0 ∧ (∀ e, f = some e → ExprImage st e) ∧ (∀ r ∈ rows, ∀ e ∈ r, ExprImage st e) ∧
      Plain c .direct ∧ w = n
  | .extension d => f = none ∧ (∃ x name args, d = some x ∧ reg.parse .extensionTable name args = .ok x) ∧ Plain c .direct ∧ w = n
  | .other => False

/-- One relation over inputs of the widths `ws` that puts out `w` columns. -/
def OpImage (st : Store) (reg : Registry ExtArgs (List Nat)) (ws : List Nat) (w : Nat) : RelOp → Prop
  | .read c s f t a rest => ws = [] ∧ rest = 0 ∧ AdvImage reg a ∧ ∃ n, SchemaImage st s n ∧ ReadImage st reg c f n w t
  | .filter c e a => ws.length = 1 ∧ AdvImage reg a ∧ Indexed c ∧ Mapped ws.sum c w ∧ ∃ x, e = some x ∧ ExprImage st x
  | .project c es a => ws.length = 1 ∧ AdvImage reg a ∧ Mapped (ws.sum + es.length) c w ∧
      (∀ e ∈ es, ExprImage st e) ∧ ∀ e ∈ es, ∀ i, e ≠ .selection (.field i none)
  | .aggregate c g gs ms a => ws.length = 1 ∧ AdvImage reg a ∧ Mapped (g.length + ms.length) c w ∧
      GroupingImage st g gs ∧ (∀ m ∈ ms, MeasureImage st m) ∧ FirstUse (gs.flatMap (·.refs)) ∧
      InTurn g.length ms.length c ∧ ∀ m ∈ ms, ∀ f, m.fn = some f → .call f.f f.args f.opts f.out ∉ g
  | .sort c fs a => ws.length = 1 ∧ AdvImage reg a ∧ Indexed c ∧ Mapped ws.sum c w ∧
      ∀ f ∈ fs, ∃ e d, f = ⟨some e, some (.direction (.known d))⟩ ∧ ExprImage st e ∧
        d ∈ [SortDir.ascNullsFirst, .ascNullsLast, .descNullsFirst, .descNullsLast]
  | .fetch c l o a => ws.length = 1 ∧ AdvImage reg a ∧ Indexed c ∧ Mapped ws.sum c w ∧ CountImage st l ∧ CountImage st o
  | .join c t e p a => ws.length = 2 ∧ AdvImage reg a ∧ Indexed c ∧ Mapped ws.sum c w ∧
      (∃ k, t = .known k ∧ k ≠ .unspecified) ∧ (∃ x, e = some x ∧ ExprImage st x) ∧ ∀ x, p = some x → ExprImage st x
  | .set c o a => 2 ≤ ws.length ∧ AdvImage reg a ∧ Indexed c ∧ (∃ k, o = .known k ∧ k ≠ .unspecified) ∧
      ∃ n, (∀ x ∈ ws, x = n) ∧ Mapped n c w
  | .cross c a => ws.length = 2 ∧ AdvImage reg a ∧ Indexed c ∧ Mapped ws.sum c w
  | .ext k c d => (match k with | .leaf => ws.length = 0 | .single => ws.length = 1 | .multi => True) ∧ Plain c .direct ∧
      ∃ x name args, d = some x ∧ reg.parse .relation name args = .ok x ∧ args.columns.length = w
  | .other _ => False

/-- The expressions of one relation. -/
def opExprList : RelOp → List Expr
  | .read _ _ f (.virtual rows _) _ _ => f.toList ++ rows.flatten
  | .read _ _ f _ _ _ => f.toList
  | .filter _ e _ => e.toList
  | .project _ es _ => es
  | .aggregate _ g gs ms _ => g ++ gs.flatMap (·.exprs) ++ ms.filterMap fun m => m.fn.map fun f => .call f.f f.args f.opts f.out
  | .sort _ fs _ => fs.filterMap (·.expr)
  | .fetch _ l o _ => (l.toList ++ o.toList).filterMap fun c => match c with | .expr e => some e | .deprecated _ => none
  | .join _ _ e p _ => e.toList ++ p.toList
  | _ => []

/-- A relation of `w` columns: no input is missing. -/
inductive RelImage (st : Store) (reg : Registry ExtArgs (List Nat)) : Rel → Nat → Prop where
  | node (op : RelOp) (kids : List (Rel × Nat)) (w : Nat) : (∀ k ∈ kids, RelImage st reg k.1 k.2) →
      OpImage st reg (kids.map (·.2)) w op → RelImage st reg (.node op (kids.map fun k => some k.1)) w

/-- A relation at the top. -/
def TopImage (st : Store) (reg : Registry ExtArgs (List Nat)) : PlanRel → Prop
  | .rel r => ∃ w, RelImage st reg r w
  | .root _ (some r) => ∃ w, RelImage st reg r w
  | _ => False

/-- A plan: its declarations are accepted without a complaint, are in order and can be written, and its
relations refer to them only. -/
structure PlanImage (reg : Registry ExtArgs (List Nat)) (p : Plan) : Prop where
  accepted : answers [] (history p) = []
  sound : Sound (run (history p))
  urns : p.urns.Pairwise fun a b => a.1 < b.1
  decls : none ∉ p.decls
  rels : ∀ r ∈ p.rels, TopImage (run (history p)) reg r

end Verif.ImageSpec
