import Verif.Spec.Rels
import Verif.Model.RelConv
/-!
# When parser and formatter count the same columns

The parser counts the columns of both inputs of every join; the formatter knows that some joins put out one side only.
-/

namespace Verif
open RelSpec

set_option autoImplicit false

/-- A join of the kind over inputs of `l` and `r` columns puts out `l + r` columns. -/
def PutsOutBoth : JoinType → Nat → Nat → Prop
  | .inner, _, _ | .outer, _, _ | .left, _, _ | .right, _, _ | .unspecified, _, _ => True
  | .leftSemi, _, r | .leftAnti, _, r | .leftSingle, _, r => r = 0
  | .rightSemi, l, _ | .rightAnti, l, _ | .rightSingle, l, _ => l = 0
  | .leftMark, _, r => r = 1
  | .rightMark, l, _ => l = 1

/-- All joins of the tree without an output mapping put out as many columns as their inputs have together. -/
inductive JoinsPutOutBoth [UTab] [FTab] (env : Env) : Rel → Prop where
  | node (op : RelOp) (inputs : List (Option Rel)) :
      (∀ c t e p a l r, op = .join c (.known t) e p a → c.bind (·.emit) = some .direct → inputs = [some l, some r] →
        PutsOutBoth t (relWidth env l) (relWidth env r)) →
      (∀ r, some r ∈ inputs → JoinsPutOutBoth env r) → JoinsPutOutBoth env (.node op inputs)

mutual
/-- At every node of the tree the formatter counts as many columns as the parser. -/
def WidthsAgree [UTab] [FTab] (st : Store) (env : Env) : RNode SLine SAddendum → Prop
  | .mk line as kids => (∀ r w, convNode st env.reg (.mk line as kids) = .ok (r, w) → relWidth env r = w) ∧ WidthsAgreeAll st env kids
/-- The same for inputs. -/
def WidthsAgreeAll [UTab] [FTab] (st : Store) (env : Env) : List (RNode SLine SAddendum) → Prop
  | [] => True
  | k :: l => WidthsAgree st env k ∧ WidthsAgreeAll st env l
end

end Verif
