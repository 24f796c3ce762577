import Verif.Model.Exprs
import Verif.Spec.Literals
/-!
# Which expressions the text can express

Written against the protobuf expressions and the declarations in force, not against the parser.
-/

namespace Verif
open StoreSpec

set_option autoImplicit false

/-- One argument type in the name of a function: letters and digits starting with a letter, after
`u!` for a user-defined type. -/
def ArgCode (p : Str) : Prop :=
  ∃ (u : Bool) (c : Char) (t : Str), p = (if u then ['u', '!'] else []) ++ c :: t ∧ isAlpha c = true ∧
    ∀ d ∈ t, isAlnum d = true

/-- Argument types joined by underscores. -/
inductive ArgCodes : Str → Prop where
  | one (p : Str) : ArgCode p → ArgCodes p
  | more (p r : Str) : ArgCode p → ArgCodes r → ArgCodes (p ++ '_' :: r)

/-- A function name: an identifier, alone or followed by a colon and its argument types, of which
there may be none. -/
def FunctionName (n : Str) : Prop :=
  ∃ b, isIdentifier b = true ∧
    (n = b ∨ n = b ++ [':'] ∨ ∃ r, ArgCodes r ∧ n = b ++ ':' :: r)

mutual
/-- The expressions that have a faithful text: literals that survive, references to a field of the
input, calls of declared functions on values, casts and conditionals with all parts present. -/
def Faithful [UTab] [FTab] (st : Store) : Expr → Prop
  | .literal l => Survives st l
  | .selection (.field i none) => InI32 i
  | .call f args opts (some t) => f < 2 ^ 32 ∧ opts = [] ∧
      (∃ n, Declared st .function f n ∧ FunctionName n) ∧ FaithfulArgs st args ∧ Writable st t
  | .cast (some e) (some t) fb => (fb = 0 ∨ fb = 1 ∨ fb = 2) ∧ Faithful st e ∧ Writable st t
  | .ifThen ifs (some e) => ifs ≠ [] ∧ FaithfulClauses st ifs ∧ Faithful st e
  | _ => False
/-- All arguments are values with a faithful text. -/
def FaithfulArgs [UTab] [FTab] (st : Store) : List Arg → Prop
  | [] => True
  | .value e :: l => Faithful st e ∧ FaithfulArgs st l
  | _ :: _ => False
/-- All clauses are present and have a faithful text. -/
def FaithfulClauses [UTab] [FTab] (st : Store) : List Clause → Prop
  | [] => True
  | .mk (some c) (some r) :: l => Faithful st c ∧ Faithful st r ∧ FaithfulClauses st l
  | _ :: _ => False
end

/-- Characters that can stand between the start of a function call and its argument list. -/
def callChar (c : Char) : Bool :=
  isIdentChar c || c == ':' || c == '!' || c == '#' || c == '@' || c == '-' || c == ' '

/-! ## Completeness -/

mutual
/-- An expression with nothing missing or unprintable in it. -/
def CompleteExpr (st : Store) : Expr → Prop
  | .missing => False
  | .literal l => CompleteLit st l
  | .selection (.field _ _) => True
  | .selection _ => False
  | .call f args _ t => (∃ n, Declared st .function f n) ∧ CompleteArgs st args ∧ CompleteTyOpt st t
  | .cast e t fb => (fb = 0 ∨ fb = 1 ∨ fb = 2) ∧ CompleteExprOpt st e ∧ CompleteTyOpt st t
  | .ifThen ifs e => CompleteClauses st ifs ∧ CompleteExprOpt st e
  | .other => False
/-- Present and complete. -/
def CompleteExprOpt (st : Store) : Option Expr → Prop
  | none => False
  | some e => CompleteExpr st e
/-- A complete function argument. -/
def CompleteArg (st : Store) : Arg → Prop
  | .missing => False
  | .ty t => CompleteTy st t
  | .value e => CompleteExpr st e
  | .enum _ => True
/-- All complete. -/
def CompleteArgs (st : Store) : List Arg → Prop
  | [] => True
  | a :: l => CompleteArg st a ∧ CompleteArgs st l
/-- All complete. -/
def CompleteClauses (st : Store) : List Clause → Prop
  | [] => True
  | .mk c r :: l => CompleteExprOpt st c ∧ CompleteExprOpt st r ∧ CompleteClauses st l
end

/-! ## What the parser can build -/

mutual
/-- The expressions the parser can ever build. -/
def ExprImage (st : Store) : Expr → Prop
  | .literal l => LitImage st l
  | .selection (.field i none) => InI32 i
  | .call f args opts (some t) => (∃ n, Declared st .function f n) ∧ opts = [] ∧ ImageArgs st args ∧ Producible st t
  | .cast (some e) (some t) fb => (fb = 0 ∨ fb = 1 ∨ fb = 2) ∧ ExprImage st e ∧ Producible st t
  | .ifThen ifs (some e) => ImageClauses st ifs ∧ ExprImage st e
  | _ => False
/-- All arguments are values the parser can build. -/
def ImageArgs (st : Store) : List Arg → Prop
  | [] => True
  | .value e :: l => ExprImage st e ∧ ImageArgs st l
  | _ :: _ => False
/-- All clauses have both parts. -/
def ImageClauses (st : Store) : List Clause → Prop
  | [] => True
  | .mk (some c) (some r) :: l => ExprImage st c ∧ ExprImage st r ∧ ImageClauses st l
  | _ :: _ => False
end

end Verif
