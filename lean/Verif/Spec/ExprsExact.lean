import Verif.Spec.Exprs
import Verif.Spec.LiteralsExact
/-!
# Exactly which expressions survive as text

`Faithful` asks that types are shown and that anchors are not hidden; what follows depends on the options.
-/

namespace Verif
open StoreSpec

set_option autoImplicit false

/-- The standard library writes every float as a number. -/
def FloatsShown [FTab] : Prop := ∀ f, FloatShown (FTab.show32 f) ∧ FloatShown (FTab.show64 f)

/-- The words that stand for the function `f` under the options: a name and perhaps a number. -/
def ShownFn (st : Store) (v : Visibility) (f : Nat) (nm : Str) (a : Option Nat) : Prop :=
  ∃ n b, Declared st .function f n ∧ BareName n b ∧ match v with
    | .never => nm = b ∧ a = none
    | .always => nm = n ∧ a = some f
    | .required => (¬ Rival st f n ∧ nm = b ∧ a = none) ∨
        (Rival st f n ∧ ':' ∈ n ∧ ¬ Twin st .function f n ∧ nm = n ∧ a = none) ∨
        (Rival st f n ∧ (':' ∉ n ∨ Twin st .function f n) ∧ nm = n ∧ a = some f)

/-- What the words must be like to mean the function: a function name, with a number that fits, or, without a
number, a name that means no other function. -/
def UsableFn (st : Store) (f : Nat) (nm : Str) : Option Nat → Prop
  | some _ => FunctionName nm ∧ f < 2 ^ 32
  | none => FunctionName nm ∧ ∀ g n, Declared st .function g n → SpelledBy n nm → g = f

mutual
/-- The expressions that survive as text under the options. -/
def SurvivesExpr [UTab] [FTab] (st : Store) (o : Opts) : Expr → Prop
  | .literal l => SurvivesLit st o l
  | .selection (.field i none) => InI32 i
  | .call f args opts (some t) => opts = [] ∧ (∃ nm a, ShownFn st o.anchors f nm a ∧ UsableFn st f nm a) ∧
      SurvivesArgs st o args ∧ SurvivesTy st o.anchors t
  | .cast (some e) (some t) fb => (fb = 0 ∨ fb = 1 ∨ fb = 2) ∧ SurvivesExpr st o e ∧ SurvivesTy st o.anchors t
  | .ifThen ifs (some e) => ifs ≠ [] ∧ SurvivesClauses st o ifs ∧ SurvivesExpr st o e
  | _ => False
/-- All arguments are values that survive. -/
def SurvivesArgs [UTab] [FTab] (st : Store) (o : Opts) : List Arg → Prop
  | [] => True
  | .value e :: l => SurvivesExpr st o e ∧ SurvivesArgs st o l
  | _ :: _ => False
/-- All clauses are present and survive. -/
def SurvivesClauses [UTab] [FTab] (st : Store) (o : Opts) : List Clause → Prop
  | [] => True
  | .mk (some c) (some r) :: l => SurvivesExpr st o c ∧ SurvivesExpr st o r ∧ SurvivesClauses st o l
  | _ :: _ => False
end

end Verif
