import Verif.Model.Literals
/-!
# Expressions

`substrait::proto::Expression`, its printing (`src/textify/expressions.rs` L490-928), the expression
rules of `src/parser/expression_grammar.pest` L36-58, L149-193 and their conversion
(`src/parser/expressions.rs` L33-71, L736-1086).
-/

namespace Verif

set_option autoImplicit false

/-- `proto::expression::ReferenceSegment`: the nested segments of a reference. -/
inductive Seg where
  | field (i : Int) (child : Option Seg)
  | other

/-- `proto::expression::FieldReference`.  `field` is a direct reference to a struct field of the
root, with the child segment if there is one; the rest is what the printer refuses. -/
inductive FieldRef where
  | field (i : Int) (child : Option Seg)
  /-- no or another root type, no or a masked reference (textify/expressions.rs L536-600) -/
  | badReference
  /-- no segment, or a map key or list element (textify/expressions.rs L602-628) -/
  | badSegment

/-- `proto::FunctionOption`. -/
structure FOption where
  name : Str
  prefs : List Str

mutual
/-- `proto::Expression`; `missing` has `rex_type: None`, `other` stands for the variants the printer
does not implement (window functions, subqueries, ...).  The deprecated field `args` of function
calls, which neither side uses, is left out. -/
inductive Expr where
  | missing
  | literal (l : Literal)
  | selection (f : FieldRef)
  | call (f : Nat) (args : List Arg) (opts : List FOption) (out : Option Ty)
  | cast (input : Option Expr) (ty : Option Ty) (fb : Int)
  | ifThen (ifs : List Clause) (els : Option Expr)
  | other
/-- `proto::FunctionArgument`. -/
inductive Arg where
  | missing
  | ty (t : Ty)
  | value (e : Expr)
  | enum (s : Str)
/-- `proto::expression::if_then::IfClause`. -/
inductive Clause where
  | mk (c t : Option Expr)
end

instance : Inhabited Expr := ⟨.missing⟩

/-! ## Printing -/

/-- textify/expressions.rs L490-496, L523-525 `Reference`. -/
def textRef (i : Int) : Out := .s (cs!"$" ++ decInt i)

/-- textify/expressions.rs L528-632; the child of the field is not looked at. -/
def textFieldRef : FieldRef → Out
  | .field i _ => textRef i
  | .badReference => .fail cs!"FieldReference"
  | .badSegment => .fail cs!"ReferenceSegment"

/-- textify/expressions.rs L706-725. -/
def textOption (f : FOption) : Out := .s (f.name ++ cs!"⇒[" ++ joinS cs!", " f.prefs ++ cs!"]")

/-- textify/expressions.rs L113-116 `textify_enum`. -/
def textEnum [UTab] (s : Str) : Out := .s (cs!"&" ++ showName s)

/-- textify/types.rs L229-248 `OutputType`. -/
def textOutType (st : Store) (o : Opts) : Option Ty → Out
  | some t => .s cs!":" ++ textTy st o t
  | none => .fail cs!"OutputType"

/-- textify/expressions.rs L642-688 `FunctionInvocation`, of the printed arguments. -/
def textInvocation (st : Store) (o : Opts) (f : Nat) (args opts : List Out) : Out :=
  textAnchor st o .function f ++ .s cs!"(" ++ Out.sep cs!", " args ++
    .s (if args = [] ∨ opts = [] then [] else cs!", ") ++ Out.sep cs!", " opts ++ .s cs!")"

/-- textify/expressions.rs L757-770, the failure behaviour. -/
def textBehavior (fb : Int) : Out :=
  if fb = 0 then .s [] else if fb = 1 then .s cs!"?" else if fb = 2 then .s cs!"!" else .fail cs!"Cast"

/-- `expect` of a type (textify/expressions.rs L772). -/
def textTyReq (st : Store) (o : Opts) : Option Ty → Out
  | some t => textTy st o t
  | none => .fail cs!"Type"

mutual
/-- textify/expressions.rs L690-704, L751-912. -/
def textExpr [UTab] [FTab] (st : Store) (o : Opts) : Expr → Out
  | .missing => .fail cs!"RexType"
  | .literal l => textLit st o l
  | .selection f => textFieldRef f
  | .call f args opts out =>
    textInvocation st o f (textArgs st o args) (opts.map textOption) ++ textOutType st o out
  | .cast input ty fb =>
    .s cs!"(" ++ textExprReq st o input ++ .s cs!")::" ++ textBehavior fb ++ textTyReq st o ty
  | .ifThen ifs els =>
    .s cs!"if_then(" ++ textClauses st o ifs ++ .s cs!"_ -> " ++ textExprReq st o els ++ .s cs!")"
  | .other => .fail cs!"RexType"
/-- `expect` of an expression. -/
def textExprReq [UTab] [FTab] (st : Store) (o : Opts) : Option Expr → Out
  | some e => textExpr st o e
  | none => .fail cs!"Expression"
/-- textify/expressions.rs L727-749. -/
def textArg [UTab] [FTab] (st : Store) (o : Opts) : Arg → Out
  | .missing => .fail cs!"ArgType"
  | .ty t => textTy st o t
  | .value e => textExpr st o e
  | .enum s => textEnum s
/-- The arguments of a call. -/
def textArgs [UTab] [FTab] (st : Store) (o : Opts) : List Arg → List Out
  | [] => []
  | a :: l => textArg st o a :: textArgs st o l
/-- textify/expressions.rs L786-790. -/
def textClauses [UTab] [FTab] (st : Store) (o : Opts) : List Clause → Out
  | [] => .s []
  | .mk c t :: l =>
    textExprReq st o c ++ .s cs!" -> " ++ textExprReq st o t ++ .s cs!", " ++ textClauses st o l
end

/-! ## Syntax -/

/-- `cast_failure_behavior?` (L181). -/
inductive SBehavior where
  | unspecified
  | null
  | throw
  deriving DecidableEq

/-- The enum number (parser/expressions.rs L881-890). -/
def SBehavior.num : SBehavior → Int
  | .unspecified => 0
  | .null => 1
  | .throw => 2

/-- Parse tree of `expression` (L193). -/
inductive SExpr where
  | ifThen (cs : List (SExpr × SExpr)) (els : SExpr)
  | cast (e : SExpr) (fb : SBehavior) (t : STy)
  | call (name : Str) (anchor urn : Option IntTok) (args : List SExpr) (t : STy)
  | ref (i : IntTok)
  | lit (l : SLit)

/-- `short_arg_name` (L40). -/
def pShortName (s : Str) : Option (Str × Str) :=
  match s with
  | [] => none
  | c :: cs => if isAlpha c then some (c :: cs.takeWhile isAlnum, cs.dropWhile isAlnum) else none

/-- `short_arg_type` (L44). -/
def pShortArg (s : Str) : Option (Str × Str) :=
  (match lit cs!"u!" s with
    | some r => mapFst (cs!"u!" ++ ·) (pShortName r)
    | none => none).or (pShortName s)

/-- `argument_signature` (L48); the matched text. -/
def pArgSig (s : Str) : Option (Str × Str) := mapFst (joinS cs!"_") (pSep1 (lit cs!"_") pShortArg s)

/-- `function_signature` (L52); the matched text. -/
def pFunSig (s : Str) : Option (Str × Str) :=
  match pIdent s with
  | none => none
  | some (i, r) =>
    match lit cs!":" r with
    | none => some (i, r)
    | some r =>
      match pArgSig r with
      | none => some (i ++ cs!":", r)
      | some (a, r) => some (i ++ cs!":" ++ a, r)

/-- `argument_list` (L151). -/
def pArgsWith (e : Str → Option (SExpr × Str)) (s : Str) : Option (List SExpr × Str) := do
  let s ← lit cs!"(" s
  let (args, s) := pSep spCommaSp e s
  let s ← lit cs!")" s
  some (args, s)

/-- `function_call` (L164) with `function_reference` (L157). -/
def pCallWith (e : Str → Option (SExpr × Str)) (s : Str) : Option (SExpr × Str) := do
  let (name, s) ← pFunSig s
  let (a, s) := pOpt pAnchor (skipSp s)
  let (u, s) := pOpt pUrnAnchor (skipSp s)
  let (args, s) ← pArgsWith e (skipSp s)
  let s ← lit cs!":" s
  let (t, s) ← pType (skipSp s)
  some (.call name a u args t, s)

/-- pest `p*`, with at most `n` rounds. -/
def pManyN {α : Type} (p : Str → Option (α × Str)) : Nat → Str → List α × Str
  | 0, s => ([], s)
  | n + 1, s =>
    match p s with
    | none => ([], s)
    | some (a, s1) =>
      let r := pManyN p n s1
      (a :: r.1, r.2)

/-- `if_clause` (L168). -/
def pClauseWith (e : Str → Option (SExpr × Str)) (s : Str) : Option ((SExpr × SExpr) × Str) := do
  let (c, s) ← e s
  let s ← lit cs!"->" (skipSp s)
  let (r, s) ← e (skipSp s)
  some ((c, r), s)

/-- `if_clause ~ sp ~ "," ~ sp` (L173). -/
def pClauseComma (e : Str → Option (SExpr × Str)) (s : Str) : Option ((SExpr × SExpr) × Str) := do
  let (x, s) ← pClauseWith e s
  let s ← lit cs!"," (skipSp s)
  some (x, skipSp s)

/-- `if_then` (L173); every clause consumes characters, so `s.length` rounds are enough. -/
def pIfThenWith (e : Str → Option (SExpr × Str)) (s : Str) : Option (SExpr × Str) := do
  let s ← lit cs!"if_then(" s
  let (x, s) ← pClauseComma e (skipSp s)
  let (xs, s) := pManyN (pClauseComma e) s.length s
  let s ← lit cs!"_" (skipSp s)
  let s ← lit cs!"->" (skipSp s)
  let (y, s) ← e (skipSp s)
  let s ← lit cs!")" s
  some (.ifThen (x :: xs) y, s)

/-- `cast_failure_behavior?` (L181). -/
def pBehavior : Str → SBehavior × Str
  | '?' :: s => (.null, s)
  | '!' :: s => (.throw, s)
  | s => (.unspecified, s)

/-- `cast_expression` (L188). -/
def pCastWith (e : Str → Option (SExpr × Str)) (s : Str) : Option (SExpr × Str) := do
  let s ← lit cs!"(" s
  let (x, s) ← e (skipSp s)
  let s ← lit cs!")" (skipSp s)
  let s ← lit cs!"::" (skipSp s)
  let (fb, s) := pBehavior (skipSp s)
  let (t, s) ← pType (skipSp s)
  some (.cast x fb t, s)

/-- `reference` (L56). -/
def pRef (s : Str) : Option (IntTok × Str) := do pInteger (← lit cs!"$" s)

/-- `expression` (L193) with nesting at most `n`. -/
def pExprN : Nat → Str → Option (SExpr × Str)
  | 0, _ => none
  | n + 1, s =>
    ((((pIfThenWith (pExprN n) s).or (pCastWith (pExprN n) s)).or (pCallWith (pExprN n) s)).or
      (mapFst .ref (pRef s))).or (mapFst .lit (pLiteral s))

/-- `expression` (L193).  Every nested expression starts after at least one character, so
`s.length + 1` levels are enough. -/
def pExpr (s : Str) : Option (SExpr × Str) := pExprN (s.length + 1) s

/-! ## Conversion -/

/-- parser/expressions.rs L58-71 `FieldIndex`; the `unwrap` panics outside `i32`. -/
def convIndex (i : IntTok) : Res Err Int :=
  match i.toI32 with
  | some i => .ok i
  | none => .panic

mutual
/-- parser/expressions.rs L818-951, L983-1016. -/
def convExpr [FTab] (st : Store) : SExpr → Res Err Expr
  | .lit l => (convLit st l).bind fun l => .ok (.literal l)
  | .ref i => (convIndex i).bind fun i => .ok (.selection (.field i none))
  | .call name a u args t =>
    (unwrapU32 a).bind fun a => (unwrapU32 u).bind fun _ =>
      (convArgs st args).bind fun args => (convTy st t).bind fun t =>
        (ofLookup (st.getAndValidateAnchor .function a name)).bind fun f => .ok (.call f args [] (some t))
  | .cast e fb t =>
    (convExpr st e).bind fun e => (convTy st t).bind fun t => .ok (.cast (some e) (some t) fb.num)
  | .ifThen cs e =>
    (convClauses st cs).bind fun cs => (convExpr st e).bind fun e => .ok (.ifThen cs (some e))
/-- parser/expressions.rs L792-816. -/
def convArgs [FTab] (st : Store) : List SExpr → Res Err (List Arg)
  | [] => .ok []
  | e :: l => (convExpr st e).bind fun e => (convArgs st l).bind fun l => .ok (.value e :: l)
/-- parser/expressions.rs L953-981 and the loop L1000-1003.  An error leaves at least the else
branch in the `RuleIter`, whose drop then panics (parser/common.rs L296-308). -/
def convClauses [FTab] (st : Store) : List (SExpr × SExpr) → Res Err (List Clause)
  | [] => .ok []
  | (c, r) :: l =>
    match convExpr st c with
    | .ok c =>
      match convExpr st r with
      | .ok r => (convClauses st l).bind fun l => .ok (.mk (some c) (some r) :: l)
      | _ => .panic
    | _ => .panic
end

end Verif
