import Verif.Model.ExtArgs
import Verif.Spec.Exprs
/-!
# Which extension arguments the text can express

Written against the argument values and the declarations in force, not against the parser.
-/

namespace Verif
open StoreSpec TextSpec

set_option autoImplicit false

/-- The words that are values by themselves. -/
def valueWords : List Str := [cs!"true", cs!"false", cs!"null"]

/-- The name does not begin with one of the words `true`, `false`, `null`. -/
def ClearName (n : Str) : Prop := ∀ w ∈ valueWords, ¬ w <+: n

/-- Literals of the types that scalar arguments have. -/
def ScalarKind : Lit → Prop
  | .bool _ => True
  | .int .i64 _ => True
  | .fp64 _ => True
  | .string _ => True
  | _ => False

/-- The literal is written with its type: types are always shown, or it is nullable, or its type is
not one of the scalar types. -/
def WithType (o : Opts) (l : Literal) : Prop :=
  o.litTypes = .always ∨ l.nullable = true ∨ ∀ v, l.value = some v → ¬ ScalarKind v

/-- Expressions that as an argument are not taken for a scalar. -/
def ArgExpr (st : Store) (o : Opts) : Expr → Prop
  | .literal l => WithType o l
  | .call f _ _ _ => ∀ n, Declared st .function f n → ClearName n
  | _ => True

namespace NamedSpec

/-- The names of a list of arguments, each at its first occurrence. -/
def names {V : Type} (l : List (Str × V)) : List Str :=
  l.foldl (fun ns p => if p.1 ∈ ns then ns else ns ++ [p.1]) []

/-- The last argument with the name. -/
def Last {V : Type} (l : List (Str × V)) (k : Str) (a : V) : Prop :=
  ∃ before after, l = before ++ (k, a) :: after ∧ ∀ p ∈ after, p.1 ≠ k

end NamedSpec

mutual
/-- Argument values with a faithful text. -/
def ValueOk [UTab] [FTab] (st : Store) (o : Opts) : ExtValue → Prop
  | .string s => Spellable s
  | .integer i => InI64 i
  | .float f => FloatText (FTab.show64 f) ∧ FTab.parse64 (FTab.show64 f) = f
  | .boolean _ => True
  | .null => True
  | .error _ => False
  | .expr e => Faithful st e ∧ ArgExpr st o e
  | .enum s => isIdentifier s = true
  | .tuple vs => ValuesOk st o vs
/-- All of them. -/
def ValuesOk [UTab] [FTab] (st : Store) (o : Opts) : List ExtValue → Prop
  | [] => True
  | v :: l => ValueOk st o v ∧ ValuesOk st o l
end

/-- Expressions that as an output column are not taken for a named column. -/
def ColExpr (st : Store) : Expr → Prop
  | .literal l => ∀ v, l.value = some v → (∀ b, v ≠ .bool b) ∧ ∀ t, v ≠ .null t
  | .call f _ _ _ => ∀ n, Declared st .function f n → ':' ∉ n
  | _ => True

/-- Output columns with a faithful text. -/
def ColumnOk [UTab] [FTab] (st : Store) : ExtColumn → Prop
  | .named n t => Spellable n ∧ Writable st t
  | .expr e => Faithful st e ∧ ColExpr st e

/-- A named argument with a faithful text. -/
def NamedOk [UTab] [FTab] (st : Store) (o : Opts) (p : Str × ExtValue) : Prop :=
  isIdentifier p.1 = true ∧ ClearName p.1 ∧ ValueOk st o p.2

/-- Arguments with a faithful text. -/
def ArgsOk [UTab] [FTab] (st : Store) (o : Opts) (a : ExtArgs) : Prop :=
  ValuesOk st o a.positional ∧ (∀ p ∈ a.named, NamedOk st o p) ∧ (a.named.map (·.1)).Nodup ∧
    ∀ c ∈ a.columns, ColumnOk st c

mutual
/-- A value with nothing to report. -/
def CompleteValue (st : Store) : ExtValue → Prop
  | .error _ => False
  | .expr e => CompleteExpr st e
  | .tuple vs => CompleteValues st vs
  | _ => True
/-- All of them. -/
def CompleteValues (st : Store) : List ExtValue → Prop
  | [] => True
  | v :: l => CompleteValue st v ∧ CompleteValues st l
end

/-- A column with nothing to report. -/
def CompleteColumn (st : Store) : ExtColumn → Prop
  | .named _ t => CompleteTy st t
  | .expr e => CompleteExpr st e

/-- Arguments with nothing to report. -/
def CompleteExtArgs (st : Store) (a : ExtArgs) : Prop :=
  CompleteValues st a.positional ∧ (∀ p ∈ a.named, CompleteValue st p.2) ∧
    ∀ c ∈ a.columns, CompleteColumn st c

end Verif
