import Verif.Spec.Complete
import Verif.Spec.Reparse
/-!
# Plans in which nothing is left open

What a plan with a faithful text may still leave open, and the formatter then reports: a nullability
that is not given, and an interval that is too long or whose fraction is a second or more.  Nothing here
asks for anything else.
-/

namespace Verif.PlanSpec
open StoreSpec TextSpec RelSpec

set_option autoImplicit false

mutual
/-- Every nullability is given. -/
def TidyTy : Ty → Prop
  | .simple _ n _ => n ≠ .unspecified
  | .intervalDay _ n _ => n ≠ .unspecified
  | .prec _ _ n _ => n ≠ .unspecified
  | .list (some t) n _ => n ≠ .unspecified ∧ TidyTy t
  | .user _ ps n _ => n ≠ .unspecified ∧ TidyParams ps
  | _ => True
/-- The same for parameters. -/
def TidyParams : List Param → Prop
  | [] => True
  | .ty t :: ps => TidyTy t ∧ TidyParams ps
  | _ :: ps => TidyParams ps
end

/-- Types of nulls, and intervals. -/
def TidyLit : Lit → Prop
  | .null t => TidyTy t
  | .interval i => ¬ i.outOfBounds ∧ -perSecond i.units.1 < i.units.2 ∧ i.units.2 < perSecond i.units.1
  | _ => True

mutual
/-- Expressions made of such values and types. -/
def TidyExpr : Expr → Prop
  | .literal l => ∀ v, l.value = some v → TidyLit v
  | .call _ args _ t => TidyArgs args ∧ ∀ x, t = some x → TidyTy x
  | .cast e t _ => TidyExprOpt e ∧ ∀ x, t = some x → TidyTy x
  | .ifThen ifs e => TidyClauses ifs ∧ TidyExprOpt e
  | _ => True
/-- The same if it is there. -/
def TidyExprOpt : Option Expr → Prop
  | none => True
  | some e => TidyExpr e
/-- The same for arguments. -/
def TidyArgs : List Arg → Prop
  | [] => True
  | .value e :: l => TidyExpr e ∧ TidyArgs l
  | _ :: l => TidyArgs l
/-- The same for clauses. -/
def TidyClauses : List Clause → Prop
  | [] => True
  | .mk c r :: l => TidyExprOpt c ∧ TidyExprOpt r ∧ TidyClauses l
end

mutual
/-- Argument values. -/
def TidyValue : ExtValue → Prop
  | .expr e => TidyExpr e
  | .tuple vs => TidyValues vs
  | _ => True
/-- All of them. -/
def TidyValues : List ExtValue → Prop
  | [] => True
  | v :: l => TidyValue v ∧ TidyValues l
end

/-- Columns of extension relations. -/
def TidyColumn : ExtColumn → Prop
  | .named _ t => TidyTy t
  | .expr e => TidyExpr e

/-- Arguments of extensions. -/
def TidyExtArgs (a : ExtArgs) : Prop :=
  TidyValues a.positional ∧ (∀ p ∈ a.named, TidyValue p.2) ∧ ∀ c ∈ a.columns, TidyColumn c

/-- What a payload is written as. -/
def TidyPayload (env : Env) (k : AddKind) (d : AnyMsg) : Prop :=
  ∀ name args, env.reg.decode k.ns d [] = .ok (name, args) → TidyExtArgs args

/-- All payloads. -/
def TidyAdv (env : Env) (a : Option AdvExt) : Prop :=
  ∀ x, a = some x → (∀ d, x.enhancement = some d → TidyPayload env .enh d) ∧
    ∀ d ∈ x.optimization, TidyPayload env .opt d

/-- What is read. -/
def TidyRead (env : Env) (filter : Option Expr) : ReadType → Prop
  | .virtual rows _ => (∀ r ∈ rows, ∀ e ∈ r, TidyExpr e) ∧ TidyExprOpt filter
  | .extension d => ∀ x, d = some x → TidyPayload env .ext x
  | _ => True

/-- Limits and offsets. -/
def TidyCount : Count → Prop
  | .deprecated _ => True
  | .expr e => TidyExpr e

/-- A relation whose inputs have the widths `ws`. -/
def TidyOp (env : Env) (ws : List Nat) : RelOp → Prop
  | .read _ schema filter ty adv _ =>
      (∀ x, schema = some x → ∀ y, x.struct = some y → ∀ t ∈ y.types, TidyTy t) ∧ TidyRead env filter ty ∧ TidyAdv env adv
  | .filter _ cond adv => TidyExprOpt cond ∧ TidyAdv env adv
  | .project _ exprs adv => (∀ e ∈ exprs, TidyExpr e) ∧ TidyAdv env adv
  | .aggregate _ gexprs _ ms adv => (∀ e ∈ gexprs, TidyExpr e) ∧
      (∀ m ∈ ms, ∀ e, callOf m = some e → TidyExpr e) ∧ TidyAdv env adv
  | .sort _ sorts adv => (∀ f ∈ sorts, TidyExprOpt f.expr) ∧ TidyAdv env adv
  | .fetch _ count offset adv => (∀ x, count = some x → TidyCount x) ∧ (∀ x, offset = some x → TidyCount x) ∧
      TidyAdv env adv
  | .join _ _ cond post adv => TidyExprOpt cond ∧ TidyExprOpt post ∧ TidyAdv env adv
  | .set _ _ adv => TidyAdv env adv
  | .cross _ adv => TidyAdv env adv
  | .ext _ _ detail => ∀ d, detail = some d → ∀ name args, env.reg.decode .relation d ws = .ok (name, args) →
      TidyExtArgs args
  | .other _ => True

mutual
/-- Every relation of a tree. -/
def TidyRel (env : Env) : Rel → Prop
  | .node op ins => TidyOp env (widths env.reg ins) op ∧ TidyRels env ins
/-- All inputs. -/
def TidyRels (env : Env) : List (Option Rel) → Prop
  | [] => True
  | none :: l => TidyRels env l
  | some r :: l => TidyRel env r ∧ TidyRels env l
end

/-- A relation at the top of a plan. -/
def TidyTop (env : Env) : PlanRel → Prop
  | .rel r => TidyRel env r
  | .root _ (some r) => TidyRel env r
  | _ => True

/-- A plan in which nothing is left open. -/
def TidyPlan (reg : Registry ExtArgs (List Nat)) (o : Opts) (p : Plan) : Prop :=
  ∀ r ∈ p.rels, TidyTop ⟨run (history p), o, reg⟩ r

end Verif.PlanSpec
