import Verif.Spec.Complete
/-!
# What can go wrong while formatting

The names under which errors are reported, and the dates a plan writes.  `chrono::NaiveDate` ends with
the years -262143 and 262142; the formatter adds the day count of a date literal to 1970-01-01 without
asking whether the result exists.  Written against the messages, not the printer.
-/

namespace Verif.PanicSpec
open RelSpec

set_option autoImplicit false

/-- The names of the errors of the formatter (the arguments of `failure`, `expect` and `push_error` in
`src/textify`, and `FormatError::message`). -/
def errorNames : List Str :=
  [cs!"AggregateRel", cs!"AliasType", cs!"ArgType", cs!"Cast", cs!"Emitted", cs!"Expression",
   cs!"FieldReference", cs!"FilterRel", cs!"FuncType", cs!"JoinRel", cs!"JoinType", cs!"Kind",
   cs!"Literal", cs!"LiteralType", cs!"Name", cs!"Nullability", cs!"OutputType", cs!"Parameter",
   cs!"PlanRelType", cs!"ReadRel", cs!"ReferenceSegment", cs!"Rel", cs!"RexType", cs!"SetOp",
   cs!"SetRel", cs!"SortField", cs!"SortKind", cs!"Type", cs!"addendum", cs!"extension",
   cs!"function", cs!"type", cs!"type_variation", cs!"uri"]

/-- Day counts whose date exists. -/
def DayExists (d : Int) : Prop := -96465292 ≤ d ∧ d ≤ 95026236

instance (d : Int) : Decidable (DayExists d) := by unfold DayExists; infer_instance

/-- The dates of a literal. -/
def litDates (l : Literal) : List Int :=
  match l.value with
  | some (.date d) => [d]
  | _ => []

mutual
/-- The date literals of an expression. -/
def exprDates : Expr → List Int
  | .literal l => litDates l
  | .call _ args _ _ => argsDates args
  | .cast e _ _ => optDates e
  | .ifThen cs e => clausesDates cs ++ optDates e
  | _ => []
/-- The same for an expression that may be missing. -/
def optDates : Option Expr → List Int
  | none => []
  | some e => exprDates e
/-- The same for the arguments of a call. -/
def argsDates : List Arg → List Int
  | [] => []
  | .value e :: l => exprDates e ++ argsDates l
  | _ :: l => argsDates l
/-- The same for the clauses of a conditional. -/
def clausesDates : List Clause → List Int
  | [] => []
  | .mk c t :: l => optDates c ++ optDates t ++ clausesDates l
end

mutual
/-- The expressions in an argument of an extension. -/
def valueExprs : ExtValue → List Expr
  | .expr e => [e]
  | .tuple vs => valuesExprs vs
  | _ => []
/-- The same for several. -/
def valuesExprs : List ExtValue → List Expr
  | [] => []
  | v :: l => valueExprs v ++ valuesExprs l
end

/-- The expression that is a column of an extension. -/
def columnExprs : ExtColumn → List Expr
  | .named _ _ => []
  | .expr e => [e]

/-- The expressions in the arguments of an extension. -/
def argsExprs (a : ExtArgs) : List Expr :=
  valuesExprs a.positional ++ a.named.flatMap (fun p => valueExprs p.2) ++ a.columns.flatMap columnExprs

/-- The expressions in a payload, as its handler explains it. -/
def payloadExprs (reg : Registry ExtArgs (List Nat)) (n : Ns) (ws : List Nat) (d : AnyMsg) : List Expr :=
  match reg.decode n d ws with
  | .ok (_, a) => argsExprs a
  | .error _ => []

/-- The expressions in the advanced extension of a relation. -/
def advExprs (env : Env) (a : Option AdvExt) : List Expr :=
  (payloads a).1.toList.flatMap (payloadExprs env.reg .enhancement []) ++
    (payloads a).2.flatMap (payloadExprs env.reg .optimization [])

/-- The expression of a limit or an offset. -/
def countExprs : Count → List Expr
  | .deprecated _ => []
  | .expr e => [e]

/-- The expressions of one relation whose inputs have `ws` columns.  The filter of a read other than of
a virtual table is not written, so it is left out. -/
def opExprs (env : Env) (ws : List (Option Nat)) : RelOp → List Expr
  | .read _ _ f t a _ => advExprs env a ++
    (match t with
      | .virtual rows _ => rows.flatten ++ f.toList
      | .extension d => d.toList.flatMap (payloadExprs env.reg .extensionTable [])
      | _ => [])
  | .filter _ e a => advExprs env a ++ e.toList
  | .project _ es a => advExprs env a ++ es
  | .aggregate _ g gs ms a => advExprs env a ++ g ++ gs.flatMap (·.exprs) ++ (ms.filterMap (·.fn)).map aggCall
  | .sort _ l a => advExprs env a ++ l.filterMap (·.expr)
  | .fetch _ l o a => advExprs env a ++ l.toList.flatMap countExprs ++ o.toList.flatMap countExprs
  | .join _ _ e p a => advExprs env a ++ e.toList ++ p.toList
  | .set _ _ a => advExprs env a
  | .cross _ a => advExprs env a
  | .ext _ _ d => d.toList.flatMap (payloadExprs env.reg .relation (ws.filterMap id))
  | .other _ => []

mutual
/-- The expressions of a relation tree. -/
def relExprs (env : Env) : Rel → List Expr
  | .node op ins => opExprs env (writtenWidths env ins) op ++ relsExprs env ins
/-- The same for the inputs. -/
def relsExprs (env : Env) : List (Option Rel) → List Expr
  | [] => []
  | none :: l => relsExprs env l
  | some r :: l => relExprs env r ++ relsExprs env l
end

/-- The expressions of a relation at the top of a plan. -/
def topExprs (env : Env) : PlanRel → List Expr
  | .rel r => relExprs env r
  | .root _ (some r) => relExprs env r
  | _ => []

/-- The dates a plan writes. -/
def planDates (reg : Registry ExtArgs (List Nat)) (o : Opts) (p : Plan) : List Int :=
  (p.rels.flatMap (topExprs ⟨StoreSpec.run (PlanSpec.history p), o, reg⟩)).flatMap exprDates

end Verif.PanicSpec
