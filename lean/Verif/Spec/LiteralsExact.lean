import Verif.Spec.Literals
import Verif.Spec.TypesExact
/-!
# Exactly which literals survive as text

`Survives` asks that types are shown and that anchors are not hidden; what follows depends on the options.
-/

namespace Verif
open TextSpec

set_option autoImplicit false

/-- What the standard library writes for a number: digits with or without a fraction, or a word. -/
def FloatShown (x : Str) : Prop :=
  x ∈ [cs!"NaN", cs!"inf", cs!"-inf"] ∨
    (∃ (neg : Bool) (ds : Str), ds ≠ [] ∧ (∀ c ∈ ds, isDigit c = true) ∧ x = (if neg then ['-'] else []) ++ ds) ∨
    FloatText x

/-- The floats of a literal are written as numbers. -/
def ShownLit [FTab] (l : Literal) : Prop :=
  (∀ f, l.value = some (.fp32 f) → FloatShown (FTab.show32 f)) ∧ (∀ f, l.value = some (.fp64 f) → FloatShown (FTab.show64 f))

/-- The kinds that need no type: what is read without one. -/
def Untyped : Lit → Prop
  | .bool _ => True
  | .int .i64 _ => True
  | .fp64 _ => True
  | .string _ => True
  | _ => False

/-- The literals that survive as text under the options: no variation, a spelled value (for nulls, a type that
survives), and if types are never shown, a value that needs none. -/
def SurvivesLit [UTab] [FTab] (st : Store) (o : Opts) (l : Literal) : Prop :=
  l.tvar = 0 ∧ ∃ v, l.value = some v ∧ match v with
    | .null t => SurvivesTy st o.anchors t ∧ l.nullable = false
    | v => Spelled st l.nullable v ∧ (o.litTypes = .never → Untyped v ∧ l.nullable = false)

end Verif
