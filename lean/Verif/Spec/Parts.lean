import Verif.Spec.Supported
/-!
# Parts of trees of relations
-/

namespace Verif.RelSpec

set_option autoImplicit false

/-- `PartOf s r`: the tree `s` is `r` or one of its inputs, or an input of those, and so on. -/
inductive PartOf (s : Rel) : Rel → Prop where
  | here : PartOf s s
  | inside (op : RelOp) (ins : List (Option Rel)) (r : Rel) : some r ∈ ins → PartOf s r → PartOf s (.node op ins)

/-- `s` is part of the tree at the top, or of the one below the root. -/
def PartOfTop (s : Rel) : PlanRel → Prop
  | .rel r => PartOf s r
  | .root _ (some r) => PartOf s r
  | _ => False

/-- `Swapped s s' r r'`: `r'` is `r` with one occurrence of the tree `s` replaced by `s'`. -/
inductive Swapped (s s' : Rel) : Rel → Rel → Prop where
  | here : Swapped s s' s s'
  | inside (op : RelOp) (before after : List (Option Rel)) (r r' : Rel) : Swapped s s' r r' →
      Swapped s s' (.node op (before ++ some r :: after)) (.node op (before ++ some r' :: after))

/-- The same for relations at the top of a plan. -/
inductive SwappedTop (s s' : Rel) : PlanRel → PlanRel → Prop where
  | rel (r r' : Rel) : Swapped s s' r r' → SwappedTop s s' (.rel r) (.rel r')
  | root (names : List Str) (r r' : Rel) : Swapped s s' r r' → SwappedTop s s' (.root names (some r)) (.root names (some r'))

end Verif.RelSpec
