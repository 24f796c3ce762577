import Verif.Model.ExtArgs
/-!
# Specification: texts in which a rule is tried many times
-/

namespace Verif.AttemptSpec

set_option autoImplicit false

/-- `if_then(` written `d` times. -/
def ifs : Nat → Str
  | 0 => []
  | d + 1 => cs!"if_then(" ++ ifs d

/-- `i64` inside `d` types named `list` with two parameters. -/
def nestTy : Nat → Str
  | 0 => cs!"i64"
  | d + 1 => cs!"list<" ++ (nestTy d ++ cs!", i64>")

/-- `$0` inside `d` calls of a function named `if_then`. -/
def nestIf : Nat → Str
  | 0 => cs!"$0"
  | d + 1 => cs!"if_then(" ++ (nestIf d ++ cs!"):i64")

/-- A user-defined type named `list`, declared with anchor 5, around another one, `d` times. -/
def nestedTy : Nat → Ty
  | 0 => .simple .i64 .required 0
  | d + 1 => .user 5 [.ty (nestedTy d), .ty (.simple .i64 .required 0)] .required 0

/-- A function named `if_then`, declared with anchor 7, around a reference, `d` times. -/
def nestedCall : Nat → Expr
  | 0 => .selection (.field 0 none)
  | d + 1 => .call 7 [.value (nestedCall d)] [] (some (.simple .i64 .required 0))

/-- No user-defined type in it is called like a compound type. -/
inductive Clean : STy → Prop
  | simple {name : Str} {n : Nul} : Clean (.simple name n)
  | list {n : Nul} {t : STy} : Clean t → Clean (.list n t)
  | map {n : Nul} {a b : STy} : Clean a → Clean b → Clean (.map n a b)
  | struct {n : Nul} {ps : List SParam} : (∀ t, .ty t ∈ ps → Clean t) → Clean (.struct n ps)
  | prec {k : PrecKind} {n : Nul} {i : IntTok} : Clean (.prec k n i)
  | intervalDay {n : Nul} {i : IntTok} : Clean (.intervalDay n i)
  | user {name : Str} {a u : Option IntTok} {n : Nul} {ps : Option (List SParam)} :
      name.map toLower ∉ [cs!"list", cs!"map", cs!"struct"] →
      (∀ l, ps = some l → ∀ t, .ty t ∈ l → Clean t) → Clean (.user name a u n ps)

end Verif.AttemptSpec
