import Verif.Spec.Tidy
import Verif.Spec.LinesExact
/-!
# Plans in which nothing that is shown is left open

Like `TidyPlan`, but expressions of a projection that are not put out do not matter.
-/

namespace Verif.PlanSpec
open StoreSpec TextSpec RelSpec

set_option autoImplicit false

/-- A relation whose inputs have the widths `ws`. -/
def ShownTidyOp (env : Env) (ws : List Nat) : RelOp → Prop
  | .project c exprs adv => (∀ i ∈ shown (ws.sum + exprs.length) c, ∀ e, (ws.sum : Int) ≤ i →
      exprs[i.toNat - ws.sum]? = some e → TidyExpr e) ∧ TidyAdv env adv
  | op => TidyOp env ws op

/-- Every relation of a tree. -/
inductive ShownTidyTree (env : Env) : Rel → Prop where
  | node (op : RelOp) (ins : List (Option Rel)) : ShownTidyOp env (widths env.reg ins) op →
      (∀ r, some r ∈ ins → ShownTidyTree env r) → ShownTidyTree env (.node op ins)

/-- A relation at the top of a plan. -/
def ShownTidyTop (env : Env) : PlanRel → Prop
  | .rel r => ShownTidyTree env r
  | .root _ (some r) => ShownTidyTree env r
  | _ => True

end Verif.PlanSpec
