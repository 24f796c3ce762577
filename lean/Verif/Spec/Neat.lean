import Verif.Spec.Plan
/-!
# Specification: plans that are read exactly as they were

What reading and writing does not keep of a plan that was read: a reference in the list of a project that points
at an expression of the same list, a join that keeps all columns of both inputs although its type has fewer, and a
mapping that keeps all columns, which is there if an extension relation shows other columns than it was read with.
-/

namespace Verif.RelSpec

set_option autoImplicit false

/-- No mapping keeps all columns in order; a project puts out each of its expressions once and in order, and a join
that says nothing about its columns has those of both inputs. -/
def NeatOp (ws : List Nat) : RelOp → Prop
  | .filter c _ _ => mapping c ≠ some (identity ws.sum)
  | .project c es _ => mapping c ≠ some (identity (ws.sum + es.length)) ∧
      (shown (ws.sum + es.length) c).filter (fun i => decide ((ws.sum : Int) ≤ i)) =
        (List.range es.length).map fun k => ((ws.sum + k : Nat) : Int)
  | .aggregate c g _ ms _ => mapping c ≠ some (identity (g.length + ms.length))
  | .sort c _ _ => mapping c ≠ some (identity ws.sum)
  | .fetch c _ _ _ => mapping c ≠ some (identity ws.sum)
  | .join c (.known t) _ _ _ => mapping c ≠ some (identity ws.sum) ∧
      (mapping c = none → joinColumns t (ws.getD 0 0) (ws.getD 1 0) = ws.sum)
  | .set c _ _ => mapping c ≠ some (identity (ws.headD 0))
  | .cross c _ => mapping c ≠ some (identity ws.sum)
  | _ => True

mutual
/-- Every relation of a tree. -/
def NeatRel (reg : Registry ExtArgs (List Nat)) : Rel → Prop
  | .node op ins => NeatOp (widths reg ins) op ∧ NeatRels reg ins
/-- All inputs. -/
def NeatRels (reg : Registry ExtArgs (List Nat)) : List (Option Rel) → Prop
  | [] => True
  | none :: l => NeatRels reg l
  | some r :: l => NeatRel reg r ∧ NeatRels reg l
end

/-- A relation at the top. -/
def NeatTop (reg : Registry ExtArgs (List Nat)) : PlanRel → Prop
  | .rel r => NeatRel reg r
  | .root _ (some r) => NeatRel reg r
  | _ => True

/-- A tree of the same shape as another, every relation of which is neat over inputs as wide as those of the
other. -/
inductive NeatTo (reg : Registry ExtArgs (List Nat)) : Rel → Rel → Prop where
  | node (op op' : RelOp) (inputs : List (Rel × Rel)) : (∀ p ∈ inputs, NeatTo reg p.1 p.2) →
      NeatOp (inputs.map fun p => width reg p.1) op' →
      NeatTo reg (.node op (inputs.map fun p => some p.1)) (.node op' (inputs.map fun p => some p.2))

/-- The same at the top. -/
def NeatTopTo (reg : Registry ExtArgs (List Nat)) : PlanRel → PlanRel → Prop
  | .rel r, .rel r' => NeatTo reg r r'
  | .root _ (some r), .root _ (some r') => NeatTo reg r r'
  | _, _ => True

end Verif.RelSpec
