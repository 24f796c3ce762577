import Verif.Model.Columns
/-!
# Extension arguments

`ExtensionValue`, `ExtensionColumn` and `ExtensionArgs` (`src/extensions/args.rs`), their printing
(`src/textify/extensions.rs`), the argument rules of `src/parser/expression_grammar.pest` L366-418 and
their conversion (`src/parser/extensions.rs` L269-372, L451-606).
-/

namespace Verif

set_option autoImplicit false

/-- extensions/args.rs L396-422 `ExtensionValue`; `float` holds the bits. -/
inductive ExtValue where
  | string (s : Str)
  | integer (i : Int)
  | float (bits : Nat)
  | boolean (b : Bool)
  | null
  | error (e : ExtErr)
  | expr (e : Expr)
  | enum (s : Str)
  | tuple (vs : List ExtValue)

/-- extensions/args.rs L192-199 `ExtensionArgs`; `named` is an `IndexMap`, in insertion order. -/
structure ExtArgs where
  positional : List ExtValue := []
  named : List (Str × ExtValue) := []
  columns : List ExtColumn := []

/-- `IndexMap::insert`: an existing key keeps its place. -/
def insertKey {V : Type} (l : List (Str × V)) (k : Str) (v : V) : List (Str × V) :=
  match l with
  | [] => [(k, v)]
  | (k', v') :: l => if k' = k then (k', v) :: l else (k', v') :: insertKey l k v

/-! ## Printing -/

mutual
/-- textify/extensions.rs L37-51. -/
def textExtValue [UTab] [FTab] (st : Store) (o : Opts) : ExtValue → Out
  | .string s => .s (showString s)
  | .integer i => .s (decInt i)
  | .float f => .s (FTab.show64 f)
  | .boolean b => .s (if b then cs!"true" else cs!"false")
  | .null => .s cs!"null"
  | .error _ => .fail cs!"extension"
  | .expr e => textExpr st o e
  | .enum e => .s (cs!"&" ++ e)
  | .tuple vs => .s cs!"(" ++ textTupleItems st o vs ++ .s cs!")"
/-- textify/extensions.rs L20-29, between the parentheses. -/
def textTupleItems [UTab] [FTab] (st : Store) (o : Opts) : List ExtValue → Out
  | [] => .s []
  | [v] => textExtValue st o v ++ .s cs!","
  | v :: w :: l => textExtValue st o v ++ .s cs!", " ++ Out.sep cs!", " (textExtValues st o (w :: l))
/-- Each value. -/
def textExtValues [UTab] [FTab] (st : Store) (o : Opts) : List ExtValue → List Out
  | [] => []
  | v :: l => textExtValue st o v :: textExtValues st o l
end

/-- textify/extensions.rs L101 and values.rs L308-311: `name=value`; the name is written as is. -/
def textNamed [UTab] [FTab] (st : Store) (o : Opts) (a : Str × ExtValue) : Out :=
  .s (a.1 ++ cs!"=") ++ textExtValue st o a.2

/-- textify/extensions.rs L69-76. -/
def textExtColumn [UTab] [FTab] (st : Store) (o : Opts) : ExtColumn → Out
  | .named n t => .s (showName n ++ cs!":") ++ textTy st o t
  | .expr e => textExpr st o e

/-- textify/extensions.rs L84-108 and values.rs L115-125: the list of arguments, `_` when empty. -/
def textArgList (positional named : List Out) : Out :=
  if positional = [] ∧ named = [] then .s cs!"_"
  else Out.sep cs!", " (positional ++ named)

/-- textify/extensions.rs L84-116. -/
def textExtArgs [UTab] [FTab] (st : Store) (o : Opts) (a : ExtArgs) : Out :=
  textArgList (textExtValues st o a.positional) (a.named.map (textNamed st o)) ++
    (if a.columns = [] then .s []
     else .s cs!" => " ++ Out.sep cs!", " (a.columns.map (textExtColumn st o)))

/-! ## Syntax -/

/-- Parse tree of `extension_argument` (L401). -/
inductive SArg where
  | enum (s : Str)
  | lit (v : SVal)
  | ref (i : IntTok)
  | expr (e : SExpr)
  | tuple (l : List SArg)

/-- `enum_value` (L178), without the `&`. -/
def pEnumValue (s : Str) : Option (Str × Str) := do pIdent (← lit cs!"&" s)

/-- `!(c)`. -/
def notAhead (c : Char) (s : Str) : Option Str := if s.head? = some c then none else some s

/-- `parameter_literal` (L387). -/
def pParamLit (s : Str) : Option (SVal × Str) := do
  let (v, s) ← pValue s
  let s ← notAhead ':' s
  some (v, s)

/-- First alternative of `tuple` (L391-400). -/
def pTuple0 (s : Str) : Option (List SArg × Str) := do
  let s ← lit cs!"(" s
  let s ← lit cs!")" (skipSp s)
  some ([], s)

/-- Second alternative of `tuple` (L391-400). -/
def pTuple1With (p : Str → Option (SArg × Str)) (s : Str) : Option (List SArg × Str) := do
  let s ← lit cs!"(" s
  let (a, s) ← p (skipSp s)
  let s ← lit cs!"," (skipSp s)
  let s ← lit cs!")" (skipSp s)
  some ([a], s)

/-- `sp ~ ","`. -/
def spComma (s : Str) : Option (Unit × Str) := (lit cs!"," (skipSp s)).map fun s => ((), s)

/-- Third alternative of `tuple` (L391-400). -/
def pTuple2With (p : Str → Option (SArg × Str)) (s : Str) : Option (List SArg × Str) := do
  let s ← lit cs!"(" s
  let (l, s) ← pSep1 spCommaSp p (skipSp s)
  if l.length < 2 then none
  let (_, s) := pOpt spComma s
  let s ← lit cs!")" (skipSp s)
  some (l, s)

/-- `tuple` (L391-400). -/
def pTupleWith (p : Str → Option (SArg × Str)) (s : Str) : Option (List SArg × Str) :=
  ((pTuple0 s).or (pTuple1With p s)).or (pTuple2With p s)

/-- `extension_argument` (L401) with nesting at most `n`. -/
def pArgN : Nat → Str → Option (SArg × Str)
  | 0, _ => none
  | n + 1, s =>
    ((((mapFst .enum (pEnumValue s)).or (mapFst .lit (pParamLit s))).or (mapFst .ref (pRef s))).or
      (mapFst .expr (pExpr s))).or (mapFst .tuple (pTupleWith (pArgN n) s))

/-- `extension_argument` (L401).  Every nested argument starts after at least one character. -/
def pArg (s : Str) : Option (SArg × Str) := pArgN (s.length + 1) s

/-- `extension_named_argument` (L405). -/
def pNamedArg (s : Str) : Option ((Str × SArg) × Str) := do
  let (n, s) ← pName s
  let s ← lit cs!"=" (skipSp s)
  let (a, s) ← pArg (skipSp s)
  some ((n, a), s)

/-- Parse tree of `extension_args` (L379). -/
structure SArgs where
  positional : List SArg := []
  named : List (Str × SArg) := []

/-- `sp ~ "," ~ sp ~ extension_named_arguments` (L379). -/
def pCommaNamed (s : Str) : Option (List (Str × SArg) × Str) := do
  let s ← spCommaSp s
  pSep1 spCommaSp pNamedArg s

/-- `extension_arguments ~ (sp ~ "," ~ sp ~ extension_named_arguments)?` (L379). -/
def pPositional (s : Str) : Option (SArgs × Str) := do
  let (l, s) ← pSep1 spCommaSp pArg s
  let (n, s) := pOpt pCommaNamed s
  some (⟨l, n.getD []⟩, s)

/-- `extension_args` (L379); always matches. -/
def pExtArgs (s : Str) : SArgs × Str :=
  match (((lit cs!"_" s).map fun r => (({} : SArgs), r)).or (pPositional s)).or
      (mapFst (fun n => ⟨[], n⟩) (pSep1 spCommaSp pNamedArg s)) with
  | some r => r
  | none => ({}, s)

/-- `named_column` (L233). -/
def pNamedColumn (s : Str) : Option ((Str × STy) × Str) := do
  let (n, s) ← pName s
  let s ← lit cs!":" s
  let (t, s) ← pType s
  some ((n, t), s)

/-- Parse tree of `extension_column` (L409). -/
inductive SCol where
  | named (name : Str) (t : STy)
  | ref (i : IntTok)
  | expr (e : SExpr)

/-- `extension_column` (L409). -/
def pExtColumn (s : Str) : Option (SCol × Str) :=
  ((mapFst (fun c => .named c.1 c.2) (pNamedColumn s)).or (mapFst .ref (pRef s))).or
    (mapFst .expr (pExpr s))

/-! ## Conversion -/

/-- parser/extensions.rs L297-315; the `unwrap` of L303 panics outside `i64`. -/
def convParamLit [FTab] : SVal → Res Err ExtValue
  | .str s => .ok (.string s)
  | .int i =>
    match i.toI64 with
    | some i => .ok (.integer i)
    | none => .panic
  | .float x => .ok (.float (FTab.parse64 x))
  | .bool b => .ok (.boolean b)
  | .null => .ok .null

mutual
/-- parser/extensions.rs L278-329. -/
def convArg [FTab] (st : Store) : SArg → Res Err ExtValue
  | .enum s => .ok (.enum s)
  | .lit v => convParamLit v
  | .ref i => (convIndex i).bind fun i => .ok (.expr (.selection (.field i none)))
  | .expr e => (convExpr st e).bind fun e => .ok (.expr e)
  | .tuple l => (convArgList st l).bind fun l => .ok (.tuple l)
/-- parser/extensions.rs L317-320, L585-588. -/
def convArgList [FTab] (st : Store) : List SArg → Res Err (List ExtValue)
  | [] => .ok []
  | a :: l => (convArg st a).bind fun a => (convArgList st l).bind fun l => .ok (a :: l)
end

/-- parser/extensions.rs L590-599. -/
def convNamed [FTab] (st : Store) (acc : List (Str × ExtValue)) :
    List (Str × SArg) → Res Err (List (Str × ExtValue))
  | [] => .ok acc
  | (k, a) :: l => (convArg st a).bind fun v => convNamed st (insertKey acc k v) l

/-- parser/extensions.rs L341-371. -/
def convExtColumn [FTab] (st : Store) : SCol → Res Err ExtColumn
  | .named n t => (convTy st t).bind fun t => .ok (.named n t)
  | .ref i => (convIndex i).bind fun i => .ok (.expr (.selection (.field i none)))
  | .expr e => (convExpr st e).bind fun e => .ok (.expr e)

/-- parser/extensions.rs L505-510. -/
def convExtColumns [FTab] (st : Store) : List SCol → Res Err (List ExtColumn)
  | [] => .ok []
  | c :: l => (convExtColumn st c).bind fun c => (convExtColumns st l).bind fun l => .ok (c :: l)

/-- parser/extensions.rs L577-606 `extension_args_rule_parsing`, then the columns (L500-514). -/
def convExtArgs [FTab] (st : Store) (a : SArgs) (cols : List SCol) : Res Err ExtArgs :=
  (convArgList st a.positional).bind fun ps =>
    (convNamed st [] a.named).bind fun ns =>
      (convExtColumns st cols).bind fun cs => .ok ⟨ps, ns, cs⟩

end Verif
