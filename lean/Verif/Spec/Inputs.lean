import Verif.Model.RelConv
/-!
# Specification: what a relation takes from its inputs
-/

namespace Verif.InputSpec

set_option autoImplicit false

/-- `t` and `t'` differ in one subtree, at any depth, which is `x` in the one and `y` in the other; the path says
where it is. -/
inductive At (x y : RNode SLine SAddendum) : List Nat → RNode SLine SAddendum → RNode SLine SAddendum → Prop
  | here : At x y [] x y
  | under {path l as a t t' b} : At x y path t t' →
      At x y (a.length :: path) (.mk l as (a ++ t :: b)) (.mk l as (a ++ t' :: b))

/-- The same for relations and their inputs. -/
inductive RelAt (x y : Rel) : List Nat → Rel → Rel → Prop
  | here : RelAt x y [] x y
  | under {path op a r r' b} : RelAt x y path r r' →
      RelAt x y (a.length :: path) (.node op (a ++ some r :: b)) (.node op (a ++ some r' :: b))

/-- The same for one relation of a plan. -/
inductive TopAt (x y : Rel) : PlanRel → PlanRel → Prop
  | rel {path r r'} : RelAt x y path r r' → TopAt x y (.rel r) (.rel r')
  | root {path names r r'} : RelAt x y path r r' → TopAt x y (.root names (some r)) (.root names (some r'))

/-- One of the lines of a forest with everything below it is replaced. -/
inductive ForestAt (x y : RNode SLine SAddendum) : List (RNode SLine SAddendum) → List (RNode SLine SAddendum) → Prop
  | mk {path a t t' b} : At x y path t t' → ForestAt x y (a ++ t :: b) (a ++ t' :: b)

end Verif.InputSpec
