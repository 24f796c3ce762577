import Verif.Spec.Plan
/-!
# Plans with nothing to report

Which plans the formatter writes without an error.  Written against the messages: each relation has
direct columns, some of which are shown, and arguments, all of which are shown.
-/

namespace Verif.RelSpec
open StoreSpec TextSpec

set_option autoImplicit false

/-! ## Direct columns, as conditions under which they can be written -/

/-- The types of a schema. -/
def typesOf (s : NamedStruct) : List Ty := (s.struct.map (·.types)).getD []

/-- Names and types go together one by one; both must be there.  Without a schema there is one column
that cannot be written. -/
def schemaColumns (st : Store) : Option NamedStruct → List Prop
  | none => [False]
  | some s => (List.range (max s.names.length (typesOf s).length)).map fun (i : Nat) =>
      i < s.names.length ∧ ∃ t, (typesOf s)[i]? = some t ∧ CompleteTy st t

/-- References to the columns of the inputs can always be written. -/
def refColumns (n : Nat) : List Prop := List.replicate n True

/-- Grouping keys: the grouping expressions; without any, those of the deprecated grouping sets, once
each. -/
def groupKeys (gexprs : List Expr) (gs : List Grouping) : List Expr :=
  match gexprs, gs with
  | [], g :: l => if g.exprs ≠ [] then ((g :: l).flatMap (·.exprs)).eraseDups else []
  | _, _ => gexprs

/-- A measure is written like a call. -/
def aggCall (a : AggFn) : Expr := .call a.f a.args a.opts a.out

/-- The number of columns of the inputs that are there. -/
def inputTotal (ws : List (Option Nat)) : Nat := (ws.map fun w => w.getD 0).sum

/-- The number of columns of one input, none if it is not there. -/
def inputWidth (ws : List (Option Nat)) (i : Nat) : Nat := (ws.getD i none).getD 0

/-- A join of an unknown type counts as one that puts out both sides. -/
def joinCount : EnumVal JoinType → Nat → Nat → Nat
  | .known t, l, r => joinColumns t l r
  | .unknown _, l, r => l + r

/-- The direct columns of a relation whose inputs are written with `ws` columns. -/
def directColumns (env : Env) (ws : List (Option Nat)) : RelOp → List Prop
  | .read _ s _ _ _ _ => schemaColumns env.st s
  | .filter .. => refColumns (inputTotal ws)
  | .project _ es _ => refColumns (inputTotal ws) ++ es.map (CompleteExpr env.st)
  | .aggregate _ g gs ms _ =>
    (groupKeys g gs).map (CompleteExpr env.st) ++ (ms.filterMap (·.fn)).map fun a => CompleteExpr env.st (aggCall a)
  | .sort .. => refColumns (inputTotal ws)
  | .fetch .. => refColumns (inputTotal ws)
  | .join _ t _ _ _ => refColumns (joinCount t (inputWidth ws 0) (inputWidth ws 1))
  | .set .. => refColumns (inputTotal ws / ws.length)
  | .cross .. => refColumns (inputTotal ws)
  | .ext _ _ d =>
    match d with
    | some d =>
      match env.reg.decode .relation d (ws.filterMap id) with
      | .ok (_, a) => a.columns.map (CompleteColumn env.st)
      | .error _ => [False]
    | none => [False]
  | .other _ => []

/-- The mapping the columns are put out by: extension relations have none. -/
def opMapping : RelOp → Option (List Int)
  | .ext .. => none
  | op => mapping (common op)

/-- Reads of named tables. -/
def namedRead : RelOp → Bool
  | .read _ _ _ (.named _ _) _ _ => true
  | _ => false

/-- Reads of named tables write all columns and then the mapping; so do all relations when emits are
to be shown.  Otherwise the columns are written as put out. -/
def ColumnsShown (o : Opts) (op : RelOp) (cols : List Prop) : Prop :=
  match opMapping op with
  | none => ∀ p ∈ cols, p
  | some m =>
    if o.showEmit || namedRead op then ∀ p ∈ cols, p
    else ∀ i ∈ m, 0 ≤ i ∧ ∃ p, cols[i.toNat]? = some p ∧ p

/-! ## Arguments -/

/-- The expressions of the grouping sets. -/
def SetsComplete (st : Store) (gexprs : List Expr) (gs : List Grouping) : Prop :=
  match gexprs, gs with
  | [], g :: l =>
    if g.exprs ≠ [] then ∀ h ∈ g :: l, ∀ e ∈ h.exprs, CompleteExpr st e
    else ∀ h ∈ g :: l, h.refs = []
  | _, _ => ∀ h ∈ gs, ∀ i ∈ h.refs, ∃ e, gexprs[i]? = some e ∧ CompleteExpr st e

/-- A limit or offset. -/
def CountComplete (st : Store) : Count → Prop
  | .deprecated _ => True
  | .expr e => CompleteExpr st e

/-- A payload that is registered; only relations have columns. -/
def PayloadComplete (env : Env) (k : AddKind) (d : AnyMsg) : Prop :=
  ∃ name args, env.reg.decode k.ns d [] = .ok (name, args) ∧ args.columns = [] ∧ CompleteExtArgs env.st args

/-- All payloads. -/
def AdvComplete (env : Env) (a : Option AdvExt) : Prop :=
  (∀ d, (payloads a).1 = some d → PayloadComplete env .enh d) ∧ ∀ d ∈ (payloads a).2, PayloadComplete env .opt d

/-- Everything about a relation that is always written. -/
def ArgumentsComplete (env : Env) (ws : List (Option Nat)) : RelOp → Prop
  | .read _ _ f t a _ => AdvComplete env a ∧
    match t with
    | .named _ _ => True
    | .virtual rows _ => (∀ r ∈ rows, ∀ e ∈ r, CompleteExpr env.st e) ∧ ∀ e, f = some e → CompleteExpr env.st e
    | .extension d => ∃ x, d = some x ∧ PayloadComplete env .ext x
    | .other => False
  | .filter _ e a => AdvComplete env a ∧ CompleteExprOpt env.st e
  | .project _ _ a => AdvComplete env a
  | .aggregate _ g gs _ a => AdvComplete env a ∧ SetsComplete env.st g gs
  | .sort _ l a => AdvComplete env a ∧ ∀ f ∈ l, CompleteExprOpt env.st f.expr ∧
      ∃ d, f.kind = some (.direction (.known d)) ∧ d ≠ .unspecified
  | .fetch _ l o a => AdvComplete env a ∧ (∀ c, l = some c → CountComplete env.st c) ∧
      ∀ c, o = some c → CountComplete env.st c
  | .join _ t e p a => AdvComplete env a ∧ (∃ x, t = .known x ∧ x ≠ .unspecified) ∧ CompleteExprOpt env.st e ∧
      ∀ x, p = some x → CompleteExpr env.st x
  | .set _ t a => AdvComplete env a ∧ ∃ x, t = .known x ∧ x ≠ .unspecified
  | .cross _ a => AdvComplete env a
  | .ext _ _ d => ∃ x name args, d = some x ∧ env.reg.decode .relation x (ws.filterMap id) = .ok (name, args) ∧
      CompleteValues env.st args.positional ∧ ∀ p ∈ args.named, CompleteValue env.st p.2
  | .other _ => False

/-! ## Trees -/

mutual
/-- How many columns a relation is written with. -/
def writtenWidth (env : Env) : Rel → Nat
  | .node op ins => (((opMapping op).map (·.length)).getD (directColumns env (writtenWidths env ins) op).length)
/-- The same for the inputs. -/
def writtenWidths (env : Env) : List (Option Rel) → List (Option Nat)
  | [] => []
  | none :: l => none :: writtenWidths env l
  | some r :: l => some (writtenWidth env r) :: writtenWidths env l
end

/-- Relations that are written together with their inputs. -/
def HasInputs : RelOp → Prop
  | .read .. => False
  | .other _ => False
  | _ => True

mutual
/-- A relation tree with nothing to report. -/
def CompleteRel (env : Env) : Rel → Prop
  | .node op ins => ArgumentsComplete env (writtenWidths env ins) op ∧
      ColumnsShown env.o op (directColumns env (writtenWidths env ins) op) ∧ (HasInputs op → CompleteRels env ins)
/-- All inputs that are there. -/
def CompleteRels (env : Env) : List (Option Rel) → Prop
  | [] => True
  | none :: l => CompleteRels env l
  | some r :: l => CompleteRel env r ∧ CompleteRels env l
end

/-- A relation at the top of a plan with nothing to report. -/
def CompleteTop (env : Env) : PlanRel → Prop
  | .rel r => CompleteRel env r
  | .root _ (some r) => CompleteRel env r
  | .root _ none => True
  | .missing => False

end Verif.RelSpec

namespace Verif.PlanSpec
open StoreSpec RelSpec

/-- A plan with nothing to report. -/
def CompletePlan (reg : Registry ExtArgs (List Nat)) (o : Opts) (p : Plan) : Prop :=
  answers [] (history p) = [] ∧ ∀ r ∈ p.rels, CompleteTop ⟨run (history p), o, reg⟩ r

end Verif.PlanSpec
