import Verif.Spec.LinesExact
import Verif.Spec.Plan
/-!
# Which trees of relations survive

A tree of relations is written as a tree of lines.  Here the lines are taken one by one, as the structural parser hands
them to the grammar; that the lines are found again in the text is the matter of other properties.
-/

namespace Verif.RelSpec
open StoreSpec TextSpec

set_option autoImplicit false

/-- Relations of the kinds `SurvivesLine` describes, without addenda: reads of named and virtual tables, filters, projects,
sorts, fetches, joins, sets and crosses. -/
def Described : RelOp → Prop
  | .read _ _ _ (.named ..) a _ => a = none
  | .read _ _ _ (.virtual ..) a _ => a = none
  | .filter _ _ a => a = none
  | .project _ _ a => a = none
  | .sort _ _ a => a = none
  | .fetch _ _ _ a => a = none
  | .join _ _ _ _ a => a = none
  | .set _ _ a => a = none
  | .cross _ a => a = none
  | _ => False

/-- Trees of such relations; inputs may be missing, and there may be too many or too few. -/
inductive DescribedTree (reg : Registry ExtArgs (List Nat)) : Rel → Prop where
  | node (op : RelOp) (ins : List (Option Rel)) : Described op → Countable reg (widths reg ins) op →
      (∀ r, some r ∈ ins → DescribedTree reg r) → DescribedTree reg (.node op ins)

/-- The lines of a tree at depth `lvl`, as the grammar reads them: a line for each relation, below it those of the inputs that are there.
Reads are written without inputs. -/
inductive LinesOf [UTab] [FTab] (env : Env) : Nat → Rel → RNode SLine SAddendum → Prop where
  | node (lvl : Nat) (op : RelOp) (ins : List (Option Rel)) (line : SLine) (rest : Str) (kids : List (Rel × RNode SLine SAddendum)) :
      pRelLine (lineText env lvl (inputWidths env ins) op) = some (line, rest) →
      (if op.keepsInputs then ins.filterMap id else []) = kids.map (·.1) →
      (∀ k ∈ kids, LinesOf env (lvl + 1) k.1 k.2) → LinesOf env lvl (.node op ins) (.mk line [] (kids.map (·.2)))

/-- The lines of a tree are read, and they are read as a tree that means the same. -/
def TreeBack [UTab] [FTab] (env : Env) (lvl : Nat) (r : Rel) : Prop :=
  ∃ t r' w, LinesOf env lvl r t ∧ convNode env.st env.reg t = .ok (r', w) ∧ Equiv env.reg r r'

/-- Trees all of whose inputs are there and all of whose lines survive. -/
inductive SurvivesTree [UTab] [FTab] (env : Env) : Rel → Prop where
  | node (op : RelOp) (inputs : List Rel) : SurvivesLine env.st env.o (inputs.map (width env.reg)) op →
      (∀ r ∈ inputs, SurvivesTree env r) → SurvivesTree env (.node op (inputs.map some))

/-! ## The top of a plan -/

/-- The lines of a relation at the top: those of the tree, or a `Root` line with the tree, if it is there, below it. -/
inductive TopLines [UTab] [FTab] (env : Env) : PlanRel → RNode SLine SAddendum → Prop where
  | rel (r : Rel) (t : RNode SLine SAddendum) : LinesOf env 0 r t → TopLines env (.rel r) t
  | root (names : List Str) (input : Option Rel) (line : SLine) (rest : Str) (kids : List (Rel × RNode SLine SAddendum)) :
      pRoot (textPlanRel env (.root names none)).text = some (line, rest) → input.toList = kids.map (·.1) →
      (∀ k ∈ kids, LinesOf env 1 k.1 k.2) → TopLines env (.root names input) (.mk line [] (kids.map (·.2)))

/-- The lines are read as something that means the same. -/
def TopBack [UTab] [FTab] (env : Env) (p : PlanRel) : Prop :=
  ∃ t p', TopLines env p t ∧ convPlanRel env.st env.reg t = .ok p' ∧ PlanSpec.TopEquiv env.reg p p'

/-- A tree that survives, perhaps below a root with names that survive. -/
def SurvivesTop [UTab] [FTab] (env : Env) : PlanRel → Prop
  | .rel r => SurvivesTree env r
  | .root names (some r) => (∀ n ∈ names, Spellable n) ∧ SurvivesTree env r
  | _ => False

/-- The relation below the root, or at the top, is of the kinds described. -/
def DescribedTop (reg : Registry ExtArgs (List Nat)) : PlanRel → Prop
  | .rel r => DescribedTree reg r
  | .root _ (some r) => DescribedTree reg r
  | _ => True

end Verif.RelSpec
