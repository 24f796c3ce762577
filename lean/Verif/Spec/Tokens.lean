import Verif.Spec.Plan
/-!
# Failure tokens in a text

A reader of a formatted plan recognises a failure by `!{name}` outside quoted names and strings.
What the plan contributes to the text without quotes (declared names, URNs, function options, enum
values, argument names, ...) must not look like a token or open a quote.
-/

namespace Verif.TokenSpec
open StoreSpec

set_option autoImplicit false

/-- The names of the failure tokens of a text, in order.  `q` is the quote that is open; in quotes a
backslash takes the next character with it. -/
def tokensFrom : Option Char → Str → List Str
  | none, '!' :: '{' :: s => s.takeWhile (· != '}') :: tokensFrom none s
  | none, c :: s => if c = '\'' ∨ c = '"' then tokensFrom (some c) s else tokensFrom none s
  | some q, '\\' :: _ :: s => tokensFrom (some q) s
  | some q, c :: s => if c = q then tokensFrom none s else tokensFrom (some q) s
  | _, [] => []

/-- The failure tokens of a text. -/
def tokens (s : Str) : List Str := tokensFrom none s

/-- Text that neither opens a quote nor contains or begins a token. -/
def Inert (s : Str) : Prop := (∀ c ∈ s, c ≠ '\'' ∧ c ≠ '"' ∧ c ≠ '{') ∧ s.getLast? ≠ some '!'

/-- A declared name, with and without its signature. -/
def InertName (n : Str) : Prop :=
  Inert n ∧ Inert (n.takeWhile (· != ':')) ∧ n.takeWhile (· != ':') ≠ []

/-- Names in force. -/
def InertStore (st : Store) : Prop := ∀ k a n, Declared st k a n → InertName n

mutual
/-- A type: enum and string parameters are written as they are. -/
def InertTy : Ty → Prop
  | .struct ts _ _ => InertTys ts
  | .list t _ _ => InertTyOpt t
  | .map a b _ _ => InertTyOpt a ∧ InertTyOpt b
  | .user _ ps _ _ => InertParams ps
  | _ => True
/-- An optional type. -/
def InertTyOpt : Option Ty → Prop
  | none => True
  | some t => InertTy t
/-- Types. -/
def InertTys : List Ty → Prop
  | [] => True
  | t :: ts => InertTy t ∧ InertTys ts
/-- A type parameter. -/
def InertParam : Param → Prop
  | .enum s => Inert s
  | .str s => Inert s
  | .ty t => InertTy t
  | _ => True
/-- Type parameters. -/
def InertParams : List Param → Prop
  | [] => True
  | p :: ps => InertParam p ∧ InertParams ps
end

/-- A literal: only the type of a null is of interest. -/
def InertLit (l : Literal) : Prop := ∀ t, l.value = some (.null t) → InertTy t

mutual
/-- An expression: function options are written as they are. -/
def InertExpr : Expr → Prop
  | .literal l => InertLit l
  | .call _ args opts out =>
    InertArgs args ∧ (∀ f ∈ opts, Inert f.name ∧ ∀ v ∈ f.prefs, Inert v) ∧ InertTyOpt out
  | .cast input ty _ => InertExprOpt input ∧ InertTyOpt ty
  | .ifThen ifs els => InertClauses ifs ∧ InertExprOpt els
  | _ => True
/-- An optional expression. -/
def InertExprOpt : Option Expr → Prop
  | none => True
  | some e => InertExpr e
/-- Arguments. -/
def InertArgs : List Arg → Prop
  | [] => True
  | .ty t :: l => InertTy t ∧ InertArgs l
  | .value e :: l => InertExpr e ∧ InertArgs l
  | _ :: l => InertArgs l
/-- Clauses. -/
def InertClauses : List Clause → Prop
  | [] => True
  | .mk c t :: l => InertExprOpt c ∧ InertExprOpt t ∧ InertClauses l
end

mutual
/-- An extension argument: enum values are written as they are. -/
def InertValue : ExtValue → Prop
  | .expr e => InertExpr e
  | .enum s => Inert s
  | .tuple vs => InertValues vs
  | _ => True
/-- Extension arguments. -/
def InertValues : List ExtValue → Prop
  | [] => True
  | v :: l => InertValue v ∧ InertValues l
end

/-- What an extension is decoded to: its name and the names of arguments are written as they are. -/
structure InertDecoded (name : Str) (a : ExtArgs) : Prop where
  name : Inert name
  positional : InertValues a.positional
  named : ∀ p ∈ a.named, Inert p.1 ∧ InertValue p.2
  columns : ∀ c ∈ a.columns, match c with | .named _ t => InertTy t | .expr e => InertExpr e

/-- All handlers. -/
def InertRegistry (reg : Registry ExtArgs (List Nat)) : Prop :=
  ∀ ns d ws name a, reg.decode ns d ws = .ok (name, a) → InertDecoded name a

/-- One relation. -/
def InertOp : RelOp → Prop
  | .read _ s f t _ _ =>
    (∀ n, s = some n → ∀ st, n.struct = some st → InertTys st.types) ∧ InertExprOpt f ∧
      ∀ rows n, t = .virtual rows n → ∀ r ∈ rows, ∀ e ∈ r, InertExpr e
  | .filter _ c _ => InertExprOpt c
  | .project _ es _ => ∀ e ∈ es, InertExpr e
  | .aggregate _ g gs ms _ =>
    (∀ e ∈ g, InertExpr e) ∧ (∀ x ∈ gs, ∀ e ∈ x.exprs, InertExpr e) ∧
      ∀ m ∈ ms, ∀ a, m.fn = some a → InertExpr (.call a.f a.args a.opts a.out)
  | .sort _ l _ => ∀ f ∈ l, InertExprOpt f.expr
  | .fetch _ a b _ => (∀ e, a = some (.expr e) → InertExpr e) ∧ ∀ e, b = some (.expr e) → InertExpr e
  | .join _ _ c p _ => InertExprOpt c ∧ InertExprOpt p
  | _ => True

mutual
/-- A relation with its inputs. -/
def InertRel : Rel → Prop
  | .node op ins => InertOp op ∧ InertRels ins
/-- Inputs. -/
def InertRels : List (Option Rel) → Prop
  | [] => True
  | none :: l => InertRels l
  | some r :: l => InertRel r ∧ InertRels l
end

/-- A relation at the top of a plan. -/
def InertTop : PlanRel → Prop
  | .rel r => InertRel r
  | .root _ (some r) => InertRel r
  | _ => True

/-- A plan all of whose unquoted texts are harmless. -/
structure InertPlan (p : Plan) : Prop where
  version : ∀ v, p.version = some v → Inert (trim v.producer) ∧ Inert (trim v.gitHash)
  urns : ∀ a n, firstUrn (PlanSpec.history p) a = some n → Inert n
  decls : ∀ a k u n, firstExt (PlanSpec.history p) a k = some (u, n) → InertName n
  rels : ∀ r ∈ p.rels, InertTop r

/-- Floating-point numbers are written harmlessly. -/
def InertFloats [FTab] : Prop := ∀ b, Inert (FTab.show32 b) ∧ Inert (FTab.show64 b)

end Verif.TokenSpec
