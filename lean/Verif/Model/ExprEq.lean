import Verif.Model.Exprs
/-!
# Equality of expressions

`expression_key` (parser/relations.rs L709-715) and textify/rels.rs L818 compare expressions through
their protobuf encodings.  Messages are encoded deterministically and different messages have
different encodings, so the model compares the messages.
-/

namespace Verif

set_option autoImplicit false

mutual
/-- Equality test of types. -/
def Ty.beq : Ty → Ty → Bool
  | .missing, .missing => true
  | .simple k n v, .simple k' n' v' => decide (k = k') && decide (n = n') && decide (v = v')
  | .intervalDay p n v, .intervalDay p' n' v' => decide (p = p') && decide (n = n') && decide (v = v')
  | .intervalCompound p n v, .intervalCompound p' n' v' =>
    decide (p = p') && decide (n = n') && decide (v = v')
  | .len k l n v, .len k' l' n' v' =>
    decide (k = k') && decide (l = l') && decide (n = n') && decide (v = v')
  | .decimal p s n v, .decimal p' s' n' v' =>
    decide (p = p') && decide (s = s') && decide (n = n') && decide (v = v')
  | .prec k p n v, .prec k' p' n' v' =>
    decide (k = k') && decide (p = p') && decide (n = n') && decide (v = v')
  | .struct ts n v, .struct ts' n' v' => Ty.beqList ts ts' && decide (n = n') && decide (v = v')
  | .list t n v, .list t' n' v' => Ty.beqOpt t t' && decide (n = n') && decide (v = v')
  | .map a b n v, .map a' b' n' v' =>
    Ty.beqOpt a a' && Ty.beqOpt b b' && decide (n = n') && decide (v = v')
  | .user r ps n v, .user r' ps' n' v' =>
    decide (r = r') && Param.beqList ps ps' && decide (n = n') && decide (v = v')
  | .userRef r, .userRef r' => decide (r = r')
  | .func, .func => true
  | .alias, .alias => true
  | _, _ => false
/-- Equality test of lists of types. -/
def Ty.beqList : List Ty → List Ty → Bool
  | [], [] => true
  | a :: l, b :: m => Ty.beq a b && Ty.beqList l m
  | _, _ => false
/-- Equality test of optional types. -/
def Ty.beqOpt : Option Ty → Option Ty → Bool
  | none, none => true
  | some a, some b => Ty.beq a b
  | _, _ => false
/-- Equality test of type parameters. -/
def Param.beq : Param → Param → Bool
  | .missing, .missing => true
  | .null, .null => true
  | .bool b, .bool b' => decide (b = b')
  | .int i, .int i' => decide (i = i')
  | .enum s, .enum s' => decide (s = s')
  | .str s, .str s' => decide (s = s')
  | .ty t, .ty t' => Ty.beq t t'
  | _, _ => false
/-- Equality test of lists of type parameters. -/
def Param.beqList : List Param → List Param → Bool
  | [], [] => true
  | a :: l, b :: m => Param.beq a b && Param.beqList l m
  | _, _ => false
end

mutual
theorem Ty.beq_iff : ∀ a b : Ty, Ty.beq a b = true ↔ a = b
  | .missing, b => by cases b <;> simp [Ty.beq]
  | .simple .., b => by cases b <;> simp [Ty.beq, and_assoc]
  | .intervalDay .., b => by cases b <;> simp [Ty.beq, and_assoc]
  | .intervalCompound .., b => by cases b <;> simp [Ty.beq, and_assoc]
  | .len .., b => by cases b <;> simp [Ty.beq, and_assoc]
  | .decimal .., b => by cases b <;> simp [Ty.beq, and_assoc]
  | .prec .., b => by cases b <;> simp [Ty.beq, and_assoc]
  | .struct ts _ _, b => by cases b <;> simp [Ty.beq, and_assoc, Ty.beqList_iff ts]
  | .list t _ _, b => by cases b <;> simp [Ty.beq, and_assoc, Ty.beqOpt_iff t]
  | .map x y _ _, b => by cases b <;> simp [Ty.beq, and_assoc, Ty.beqOpt_iff x, Ty.beqOpt_iff y]
  | .user _ ps _ _, b => by cases b <;> simp [Ty.beq, and_assoc, Param.beqList_iff ps]
  | .userRef _, b => by cases b <;> simp [Ty.beq]
  | .func, b => by cases b <;> simp [Ty.beq]
  | .alias, b => by cases b <;> simp [Ty.beq]
theorem Ty.beqList_iff : ∀ a b : List Ty, Ty.beqList a b = true ↔ a = b
  | [], b => by cases b <;> simp [Ty.beqList]
  | a :: l, b => by cases b <;> simp [Ty.beqList, Ty.beq_iff a, Ty.beqList_iff l]
theorem Ty.beqOpt_iff : ∀ a b : Option Ty, Ty.beqOpt a b = true ↔ a = b
  | none, b => by cases b <;> simp [Ty.beqOpt]
  | some a, b => by cases b <;> simp [Ty.beqOpt, Ty.beq_iff a]
theorem Param.beq_iff : ∀ a b : Param, Param.beq a b = true ↔ a = b
  | .missing, b => by cases b <;> simp [Param.beq]
  | .null, b => by cases b <;> simp [Param.beq]
  | .bool _, b => by cases b <;> simp [Param.beq]
  | .int _, b => by cases b <;> simp [Param.beq]
  | .enum _, b => by cases b <;> simp [Param.beq]
  | .str _, b => by cases b <;> simp [Param.beq]
  | .ty t, b => by cases b <;> simp [Param.beq, Ty.beq_iff t]
theorem Param.beqList_iff : ∀ a b : List Param, Param.beqList a b = true ↔ a = b
  | [], b => by cases b <;> simp [Param.beqList]
  | a :: l, b => by cases b <;> simp [Param.beqList, Param.beq_iff a, Param.beqList_iff l]
end

instance : DecidableEq Ty := fun a b => decidable_of_iff _ (Ty.beq_iff a b)

deriving instance DecidableEq for Lit
deriving instance DecidableEq for Literal
deriving instance DecidableEq for FOption

mutual
/-- Equality test of reference segments. -/
def Seg.beq : Seg → Seg → Bool
  | .field i c, .field i' c' => decide (i = i') && Seg.beqOpt c c'
  | .other, .other => true
  | _, _ => false
/-- Equality test of optional reference segments. -/
def Seg.beqOpt : Option Seg → Option Seg → Bool
  | none, none => true
  | some a, some b => Seg.beq a b
  | _, _ => false
end

mutual
theorem Seg.beq_iff : ∀ a b : Seg, Seg.beq a b = true ↔ a = b
  | .field _ c, b => by cases b <;> simp [Seg.beq, Seg.beqOpt_iff c]
  | .other, b => by cases b <;> simp [Seg.beq]
theorem Seg.beqOpt_iff : ∀ a b : Option Seg, Seg.beqOpt a b = true ↔ a = b
  | none, b => by cases b <;> simp [Seg.beqOpt]
  | some a, b => by cases b <;> simp [Seg.beqOpt, Seg.beq_iff a]
end

instance : DecidableEq Seg := fun a b => decidable_of_iff _ (Seg.beq_iff a b)

deriving instance DecidableEq for FieldRef

mutual
/-- Equality test of expressions. -/
def Expr.beq : Expr → Expr → Bool
  | .missing, .missing => true
  | .literal l, .literal l' => decide (l = l')
  | .selection f, .selection f' => decide (f = f')
  | .call f as os t, .call f' as' os' t' =>
    decide (f = f') && Arg.beqList as as' && decide (os = os') && decide (t = t')
  | .cast i t b, .cast i' t' b' => Expr.beqOpt i i' && decide (t = t') && decide (b = b')
  | .ifThen cs e, .ifThen cs' e' => Clause.beqList cs cs' && Expr.beqOpt e e'
  | .other, .other => true
  | _, _ => false
/-- Equality test of optional expressions. -/
def Expr.beqOpt : Option Expr → Option Expr → Bool
  | none, none => true
  | some a, some b => Expr.beq a b
  | _, _ => false
/-- Equality test of arguments. -/
def Arg.beq : Arg → Arg → Bool
  | .missing, .missing => true
  | .ty t, .ty t' => decide (t = t')
  | .value e, .value e' => Expr.beq e e'
  | .enum s, .enum s' => decide (s = s')
  | _, _ => false
/-- Equality test of argument lists. -/
def Arg.beqList : List Arg → List Arg → Bool
  | [], [] => true
  | a :: l, b :: m => Arg.beq a b && Arg.beqList l m
  | _, _ => false
/-- Equality test of clauses. -/
def Clause.beq : Clause → Clause → Bool
  | .mk c t, .mk c' t' => Expr.beqOpt c c' && Expr.beqOpt t t'
/-- Equality test of clause lists. -/
def Clause.beqList : List Clause → List Clause → Bool
  | [], [] => true
  | a :: l, b :: m => Clause.beq a b && Clause.beqList l m
  | _, _ => false
end

mutual
theorem Expr.beq_iff : ∀ a b : Expr, Expr.beq a b = true ↔ a = b
  | .missing, b => by cases b <;> simp [Expr.beq]
  | .literal _, b => by cases b <;> simp [Expr.beq]
  | .selection _, b => by cases b <;> simp [Expr.beq]
  | .call _ as _ _, b => by cases b <;> simp [Expr.beq, and_assoc, Arg.beqList_iff as]
  | .cast i _ _, b => by cases b <;> simp [Expr.beq, and_assoc, Expr.beqOpt_iff i]
  | .ifThen cs e, b => by cases b <;> simp [Expr.beq, Clause.beqList_iff cs, Expr.beqOpt_iff e]
  | .other, b => by cases b <;> simp [Expr.beq]
theorem Expr.beqOpt_iff : ∀ a b : Option Expr, Expr.beqOpt a b = true ↔ a = b
  | none, b => by cases b <;> simp [Expr.beqOpt]
  | some a, b => by cases b <;> simp [Expr.beqOpt, Expr.beq_iff a]
theorem Arg.beq_iff : ∀ a b : Arg, Arg.beq a b = true ↔ a = b
  | .missing, b => by cases b <;> simp [Arg.beq]
  | .ty _, b => by cases b <;> simp [Arg.beq]
  | .value e, b => by cases b <;> simp [Arg.beq, Expr.beq_iff e]
  | .enum _, b => by cases b <;> simp [Arg.beq]
theorem Arg.beqList_iff : ∀ a b : List Arg, Arg.beqList a b = true ↔ a = b
  | [], b => by cases b <;> simp [Arg.beqList]
  | a :: l, b => by cases b <;> simp [Arg.beqList, Arg.beq_iff a, Arg.beqList_iff l]
theorem Clause.beq_iff : ∀ a b : Clause, Clause.beq a b = true ↔ a = b
  | .mk c t, .mk c' t' => by simp [Clause.beq, Expr.beqOpt_iff c, Expr.beqOpt_iff t]
theorem Clause.beqList_iff : ∀ a b : List Clause, Clause.beqList a b = true ↔ a = b
  | [], b => by cases b <;> simp [Clause.beqList]
  | a :: l, b => by cases b <;> simp [Clause.beqList, Clause.beq_iff a, Clause.beqList_iff l]
end

instance : DecidableEq Expr := fun a b => decidable_of_iff _ (Expr.beq_iff a b)
instance : DecidableEq Arg := fun a b => decidable_of_iff _ (Arg.beq_iff a b)

end Verif
