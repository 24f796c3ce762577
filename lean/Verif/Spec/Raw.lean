import Verif.Spec.Panics
/-!
# Specification: text copied as it is, and the number of lines

Names of columns and tables and the values of literals are written with escapes.  The texts listed here are copied
into the output.  The second half counts the lines of a plan from its shape alone.
-/

namespace Verif.RawSpec
open RelSpec PanicSpec

set_option autoImplicit false

mutual
/-- The texts of a type that are copied: parameters that are enumerations or strings. -/
def tyRaw : Ty → List Str
  | .struct ts _ _ => tysRaw ts
  | .list t _ _ => tyOptRaw t
  | .map a b _ _ => tyOptRaw a ++ tyOptRaw b
  | .user _ ps _ _ => paramsRaw ps
  | _ => []
/-- The same for a type that may be missing. -/
def tyOptRaw : Option Ty → List Str
  | none => []
  | some t => tyRaw t
/-- The same for several types. -/
def tysRaw : List Ty → List Str
  | [] => []
  | t :: l => tyRaw t ++ tysRaw l
/-- The same for parameters. -/
def paramsRaw : List Param → List Str
  | [] => []
  | .enum s :: l => s :: paramsRaw l
  | .str s :: l => s :: paramsRaw l
  | .ty t :: l => tyRaw t ++ paramsRaw l
  | _ :: l => paramsRaw l
end

/-- Of a literal only the type of a null is not escaped. -/
def litRaw (l : Literal) : List Str :=
  match l.value with
  | some (.null t) => tyRaw t
  | _ => []

mutual
/-- The texts of an expression that are copied: function options, and those of its types. -/
def exprRaw : Expr → List Str
  | .literal l => litRaw l
  | .call _ args opts t => argsRaw args ++ opts.flatMap (fun f => f.name :: f.prefs) ++ tyOptRaw t
  | .cast e t _ => optRaw e ++ tyOptRaw t
  | .ifThen cs e => clausesRaw cs ++ optRaw e
  | _ => []
/-- The same for an expression that may be missing. -/
def optRaw : Option Expr → List Str
  | none => []
  | some e => exprRaw e
/-- The same for the arguments of a call. -/
def argsRaw : List Arg → List Str
  | [] => []
  | .value e :: l => exprRaw e ++ argsRaw l
  | .ty t :: l => tyRaw t ++ argsRaw l
  | _ :: l => argsRaw l
/-- The same for the clauses of a conditional. -/
def clausesRaw : List Clause → List Str
  | [] => []
  | .mk c t :: l => optRaw c ++ optRaw t ++ clausesRaw l
end

mutual
/-- The texts of an argument of an extension that are copied. -/
def valueRaw : ExtValue → List Str
  | .enum e => [e]
  | .expr e => exprRaw e
  | .tuple vs => valuesRaw vs
  | _ => []
/-- The same for several. -/
def valuesRaw : List ExtValue → List Str
  | [] => []
  | v :: l => valueRaw v ++ valuesRaw l
end

/-- The same for a column of an extension. -/
def columnRaw : ExtColumn → List Str
  | .named _ t => tyRaw t
  | .expr e => exprRaw e

/-- The same for the arguments of an extension, whose names are copied. -/
def extArgsRaw (a : ExtArgs) : List Str :=
  valuesRaw a.positional ++ a.named.flatMap (fun p => p.1 :: valueRaw p.2) ++ a.columns.flatMap columnRaw

/-- The same for a payload, as its handler explains it; the name of the extension is copied. -/
def payloadRaw (reg : Registry ExtArgs (List Nat)) (n : Ns) (ws : List Nat) (d : AnyMsg) : List Str :=
  match reg.decode n d ws with
  | .ok (name, a) => name :: extArgsRaw a
  | .error _ => []

/-- The same for the advanced extension of a relation. -/
def advRaw (env : Env) (a : Option AdvExt) : List Str :=
  (payloads a).1.toList.flatMap (payloadRaw env.reg .enhancement []) ++
    (payloads a).2.flatMap (payloadRaw env.reg .optimization [])

/-- The types of a schema. -/
def schemaTypes (s : Option NamedStruct) : List Ty :=
  match s with
  | some ⟨_, some t⟩ => t.types
  | _ => []

/-- The texts of one relation that are copied; its inputs have `ws` columns. -/
def opRaw (env : Env) (ws : List (Option Nat)) : RelOp → List Str
  | .read _ s f t a _ => advRaw env a ++ (schemaTypes s).flatMap tyRaw ++
    (match t with
      | .virtual rows _ => rows.flatten.flatMap exprRaw ++ f.toList.flatMap exprRaw
      | .extension d => d.toList.flatMap (payloadRaw env.reg .extensionTable [])
      | _ => [])
  | .filter _ e a => advRaw env a ++ e.toList.flatMap exprRaw
  | .project _ es a => advRaw env a ++ es.flatMap exprRaw
  | .aggregate _ g gs ms a => advRaw env a ++ g.flatMap exprRaw ++ (gs.flatMap (·.exprs)).flatMap exprRaw ++
    ((ms.filterMap (·.fn)).map aggCall).flatMap exprRaw
  | .sort _ l a => advRaw env a ++ (l.filterMap (·.expr)).flatMap exprRaw
  | .fetch _ l o a => advRaw env a ++ (l.toList.flatMap countExprs).flatMap exprRaw ++
    (o.toList.flatMap countExprs).flatMap exprRaw
  | .join _ _ e p a => advRaw env a ++ e.toList.flatMap exprRaw ++ p.toList.flatMap exprRaw
  | .set _ _ a => advRaw env a
  | .cross _ a => advRaw env a
  | .ext _ _ d => d.toList.flatMap (payloadRaw env.reg .relation (ws.filterMap id))
  | .other _ => []

mutual
/-- The texts of a relation tree that are copied. -/
def relRaw (env : Env) : Rel → List Str
  | .node op ins => opRaw env (writtenWidths env ins) op ++ relsRaw env ins
/-- The same for the inputs. -/
def relsRaw (env : Env) : List (Option Rel) → List Str
  | [] => []
  | none :: l => relsRaw env l
  | some r :: l => relRaw env r ++ relsRaw env l
end

/-- The same for a relation at the top of a plan. -/
def topRaw (env : Env) : PlanRel → List Str
  | .rel r => relRaw env r
  | .root _ (some r) => relRaw env r
  | _ => []

/-- The texts of a plan that are copied: the strings of its version, its URNs, the declared names, and those of
its relations. -/
def planRaw (reg : Registry ExtArgs (List Nat)) (o : Opts) (p : Plan) : List Str :=
  p.version.toList.flatMap (fun v => [v.producer, v.gitHash]) ++ p.urns.map (·.2) ++
    p.decls.filterMap (Option.map (·.2.2.2)) ++
    p.rels.flatMap (topRaw ⟨StoreSpec.run (PlanSpec.history p), o, reg⟩)

/-! ## Lines -/

/-- The lines of an advanced extension: one each. -/
def advLines (a : Option AdvExt) : Nat := (payloads a).1.toList.length + (payloads a).2.length

/-- The lines of a relation without its inputs: one, one per addendum, and for a virtual table with enough rows one
per row, one for its filter and one for its columns. -/
def ownLines (o : Opts) : RelOp → Nat
  | .read _ _ f t a _ => 1 + advLines a +
    (match t with
      | .virtual rows _ =>
        if 0 < rows.length ∧ o.vthreshold ≤ rows.length then rows.length + f.toList.length + 1 else 0
      | .extension _ => 1
      | _ => 0)
  | .filter _ _ a | .project _ _ a | .aggregate _ _ _ _ a | .sort _ _ a | .fetch _ _ _ a | .join _ _ _ _ a
  | .set _ _ a | .cross _ a => 1 + advLines a
  | .ext .. => 1
  | .other _ => 1

mutual
/-- The lines of a relation tree. -/
def relLines (o : Opts) : Rel → Nat
  | .node op ins => ownLines o op +
    (match op with
      | .read .. => 0
      | .other _ => 0
      | _ => relsLines o ins)
/-- The same for the inputs. -/
def relsLines (o : Opts) : List (Option Rel) → Nat
  | [] => 0
  | none :: l => relsLines o l
  | some r :: l => relLines o r + relsLines o l
end

/-- The lines of a relation at the top of a plan. -/
def topLines (o : Opts) : PlanRel → Nat
  | .rel r => relLines o r
  | .root _ (some r) => 1 + relLines o r
  | _ => 1

/-- The lines of the version. -/
def versionLines : Option Version → Nat
  | none => 0
  | some v =>
    if v = ⟨0, 0, 0, [], []⟩ then 0
    else 1 + (if v.producer = [] then 0 else 1) + (if v.gitHash = [] then 0 else 1)

/-- A list below its header; nothing if it is empty. -/
def headed (n : Nat) : Nat := if n = 0 then 0 else 1 + n

/-- The lines of the extensions section with the empty line below it. -/
def extLines (s : Store) : Nat :=
  if s.urns = [] ∧ s.exts = [] then 0
  else 2 + headed s.urns.length + headed (s.exts.countP (·.1.2 == .function)) +
    headed (s.exts.countP (·.1.2 == .type)) + headed (s.exts.countP (·.1.2 == .typeVariation))

/-- The lines of a plan: the version, the extensions, the header, and the relations with an empty line between each
two. -/
def planLines (o : Opts) (p : Plan) : Nat :=
  versionLines p.version + extLines (StoreSpec.run (PlanSpec.history p)) + 1 +
    (if p.rels = [] then 1 else (p.rels.map (topLines o)).sum + (p.rels.length - 1))

end Verif.RawSpec
