import Verif.Spec.Plan
/-!
# Limits and offsets in the deprecated fields
-/

namespace Verif.ExactSpec

set_option autoImplicit false

/-- The relation is a limit that uses a deprecated field, for the number of rows or for the offset. -/
inductive OldOp : RelOp → Prop where
  | count (c : Option Common) (i : Int) (o : Option Count) (a : Option AdvExt) : OldOp (.fetch c (some (.deprecated i)) o a)
  | offset (c : Option Common) (l : Option Count) (i : Int) (a : Option AdvExt) : OldOp (.fetch c l (some (.deprecated i)) a)

/-- There is such a relation in the tree. -/
inductive OldRel : Rel → Prop where
  | here (op : RelOp) (ins : List (Option Rel)) : OldOp op → OldRel (.node op ins)
  | under (op : RelOp) (ins : List (Option Rel)) (r : Rel) : some r ∈ ins → OldRel r → OldRel (.node op ins)

/-- There is such a relation in one of the trees of a plan. -/
inductive OldTop : PlanRel → Prop where
  | rel (r : Rel) : OldRel r → OldTop (.rel r)
  | root (names : List Str) (r : Rel) : OldRel r → OldTop (.root names (some r))

end Verif.ExactSpec
