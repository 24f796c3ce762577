import Verif.Spec.Plan
/-!
# Accepted plans that can be written again

A plan that was read from a text can be written and read again, apart from the cases below: names and
strings with characters that have no spelling, type names that begin like a built-in type, floats
without a decimal point, times and timestamps outside the calendar, output columns that are not there,
and payloads whose handlers do not give back what they were given.  Nothing here asks for declarations,
for well-formed calls, casts and conditionals, for known variants, or for the number of inputs: that
much is certain of a plan that was read.
-/

namespace Verif.PlanSpec
open StoreSpec TextSpec RelSpec

set_option autoImplicit false

mutual
/-- User-defined types are not named like built-in types. -/
def PlainTy (st : Store) : Ty → Prop
  | .list (some t) _ _ => PlainTy st t
  | .user ref ps _ _ => (∀ n, Declared st .type ref n → (∀ w ∈ reservedPrefixes, ¬ w <+: n) ∧
      (ps = [] ∨ n.map toLower ∉ bracketWords)) ∧ PlainParams st ps
  | _ => True
/-- The same for parameters. -/
def PlainParams (st : Store) : List Param → Prop
  | [] => True
  | .ty t :: ps => PlainTy st t ∧ PlainParams st ps
  | _ :: ps => PlainParams st ps
end

/-- Values with a spelling. -/
def PlainLit [UTab] [FTab] (st : Store) : Lit → Prop
  | .fp32 f => FloatText (FTab.show32 f) ∧ FTab.to32 (FTab.parse64 (FTab.show32 f)) = f
  | .fp64 f => FloatText (FTab.show64 f) ∧ FTab.parse64 (FTab.show64 f) = f
  | .string s => Spellable s
  | .time us => us < 86400 * perSecond 6
  | .timestamp us => InCalendar us 6
  | .prec .time p v => v < 86400 * perSecond p
  | .prec _ p v => InCalendar v p
  | .null t => PlainTy st t
  | _ => True

mutual
/-- Expressions made of such values and types. -/
def PlainExpr [UTab] [FTab] (st : Store) : Expr → Prop
  | .literal l => ∀ v, l.value = some v → PlainLit st v
  | .call _ args _ t => PlainArgs st args ∧ ∀ x, t = some x → PlainTy st x
  | .cast e t _ => PlainExprOpt st e ∧ ∀ x, t = some x → PlainTy st x
  | .ifThen ifs e => PlainClauses st ifs ∧ PlainExprOpt st e
  | _ => True
/-- The same if it is there. -/
def PlainExprOpt [UTab] [FTab] (st : Store) : Option Expr → Prop
  | none => True
  | some e => PlainExpr st e
/-- The same for arguments. -/
def PlainArgs [UTab] [FTab] (st : Store) : List Arg → Prop
  | [] => True
  | .value e :: l => PlainExpr st e ∧ PlainArgs st l
  | _ :: l => PlainArgs st l
/-- The same for clauses. -/
def PlainClauses [UTab] [FTab] (st : Store) : List Clause → Prop
  | [] => True
  | .mk c r :: l => PlainExprOpt st c ∧ PlainExprOpt st r ∧ PlainClauses st l
end

/-- Names and types of columns. -/
def PlainColumns [UTab] (st : Store) (s : Option NamedStruct) : Prop :=
  ∀ x, s = some x → (∀ n ∈ x.names, Spellable n) ∧ ∀ y, x.struct = some y → ∀ t ∈ y.types, PlainTy st t

/-- What is read. -/
def PlainRead [UTab] [FTab] (env : Env) (filter : Option Expr) : ReadType → Prop
  | .named names _ => ∀ n ∈ names, Spellable n
  | .virtual rows _ => (∀ r ∈ rows, ∀ e ∈ r, PlainExpr env.st e) ∧ ∀ e, filter = some e → PlainExpr env.st e
  | .extension d => ∀ x, d = some x → AddendumOk env .ext x
  | .other => True

/-- Limits and offsets; a number is written without its type. -/
def PlainCount [UTab] [FTab] (st : Store) (o : Opts) : Count → Prop
  | .deprecated _ => True
  | .expr e => (Numeric e → o.litTypes = .required) ∧ PlainExpr st e

/-- A relation whose inputs have the widths `ws`. -/
def PlainOp [UTab] [FTab] (env : Env) (ws : List Nat) : RelOp → Prop
  | .read _ schema filter ty adv _ => PlainColumns env.st schema ∧ PlainRead env filter ty ∧ AdvOk env adv
  | .filter c cond adv => (∀ e, cond = some e → PlainExpr env.st e) ∧ InRange ws.sum (shown ws.sum c) ∧ AdvOk env adv
  | .project c exprs adv => (∀ e ∈ exprs, PlainExpr env.st e) ∧
      InRange (ws.sum + exprs.length) (shown (ws.sum + exprs.length) c) ∧ AdvOk env adv
  | .aggregate c gexprs gs ms adv => (∀ e ∈ gexprs, PlainExpr env.st e) ∧
      (∀ m ∈ ms, ∀ e, callOf m = some e → PlainExpr env.st e) ∧
      -- a cast at the front of a single set is taken for a set in parentheses
      (∀ e l, groupSets gexprs gs = [some e :: l] → ¬ IsCast e) ∧
      gexprs.length + ms.length + (shown (gexprs.length + ms.length) c).length ≤ 2 ^ 31 ∧ AdvOk env adv
  | .sort c sorts adv => sorts ≠ [] ∧ (∀ f ∈ sorts, ∀ e, f.expr = some e → PlainExpr env.st e) ∧
      InRange ws.sum (shown ws.sum c) ∧ AdvOk env adv
  | .fetch c count offset adv => (∀ x, count = some x → PlainCount env.st env.o x) ∧
      (∀ x, offset = some x → PlainCount env.st env.o x) ∧ InRange ws.sum (shown ws.sum c) ∧ AdvOk env adv
  | .join c ty cond post adv => (∀ t, ty = .known t →
        InRange (joinColumns t (ws.getD 0 0) (ws.getD 1 0)) (shown (joinColumns t (ws.getD 0 0) (ws.getD 1 0)) c) ∧
        ws.sum ≤ 2 ^ 31 ∧
        -- all columns of both inputs are not taken for the columns of a semi-join or the like
        (shown (joinColumns t (ws.getD 0 0) (ws.getD 1 0)) c = identity ws.sum →
          joinColumns t (ws.getD 0 0) (ws.getD 1 0) = ws.sum)) ∧
      (∀ e, cond = some e → PlainExpr env.st e) ∧ (∀ e, post = some e → PlainExpr env.st e) ∧ AdvOk env adv
  | .set c _ adv => (∀ w ∈ ws, w = ws.headD 0) ∧ InRange (ws.headD 0) (shown (ws.headD 0) c) ∧ AdvOk env adv
  | .cross c adv => InRange ws.sum (shown ws.sum c) ∧ AdvOk env adv
  | .ext _ _ detail => ∀ d, detail = some d → ∃ name args, env.reg.decode .relation d ws = .ok (name, args) ∧
      env.reg.parse .relation name args = .ok d ∧ isIdentifier name = true ∧ ArgsOk env.st env.o args
  | .other _ => True

mutual
/-- Every relation of a tree. -/
def PlainRel [UTab] [FTab] (env : Env) : Rel → Prop
  | .node op ins => PlainOp env (widths env.reg ins) op ∧ PlainRels env ins
/-- All inputs. -/
def PlainRels [UTab] [FTab] (env : Env) : List (Option Rel) → Prop
  | [] => True
  | none :: l => PlainRels env l
  | some r :: l => PlainRel env r ∧ PlainRels env l
end

/-- A relation at the top of a plan. -/
def PlainTop [UTab] [FTab] (env : Env) : PlanRel → Prop
  | .rel r => PlainRel env r
  | .root names r => (∀ n ∈ names, Spellable n) ∧ ∀ x, r = some x → PlainRel env x
  | .missing => True

/-- A plan that can be written again once it was read. -/
def PlainPlan [UTab] [FTab] (reg : Registry ExtArgs (List Nat)) (o : Opts) (p : Plan) : Prop :=
  ∀ r ∈ p.rels, PlainTop ⟨run (history p), o, reg⟩ r

end Verif.PlanSpec
