import Verif.Spec.ExtArgs
import Verif.Spec.ExprsExact
/-!
# Exactly which argument values survive as text

`ValueOk` asks that types are shown and that anchors are not hidden; what follows depends on the options.
-/

namespace Verif
open StoreSpec TextSpec

set_option autoImplicit false

/-- The literal is written with its type: it is a null, or types are shown for all literals, or for those that need
one and it needs one. -/
def TypeShown (o : Opts) (l : Literal) : Prop :=
  ∀ v, l.value = some v → (∃ t, v = .null t) ∨ o.litTypes = .always ∨
    (o.litTypes = .required ∧ (l.nullable = true ∨ ¬ Untyped v))

/-- Expressions whose text is not taken for a scalar: literals with their type, and calls whose shown name, if it
begins with `true`, `false` or `null`, has a colon right behind that word. -/
def NotScalar (st : Store) (o : Opts) : Expr → Prop
  | .literal l => TypeShown o l
  | .call f _ _ _ => ∀ nm a, ShownFn st o.anchors f nm a → ∀ w ∈ valueWords, w <+: nm → w ++ cs!":" <+: nm
  | _ => True

mutual
/-- The argument values that survive as text under the options. -/
def SurvivesValue [UTab] [FTab] (st : Store) (o : Opts) : ExtValue → Prop
  | .string s => Spellable s
  | .integer i => InI64 i
  | .float f => FloatText (FTab.show64 f) ∧ FTab.parse64 (FTab.show64 f) = f
  | .boolean _ => True
  | .null => True
  | .error _ => False
  | .expr e => SurvivesExpr st o e ∧ NotScalar st o e
  | .enum s => isIdentifier s = true
  | .tuple vs => SurvivesValues st o vs
/-- All of them. -/
def SurvivesValues [UTab] [FTab] (st : Store) (o : Opts) : List ExtValue → Prop
  | [] => True
  | v :: l => SurvivesValue st o v ∧ SurvivesValues st o l
end

/-- The argument lists that survive as text: every value does, the names are identifiers and differ from each other, and
the first of them does not begin with `true`, `false` or `null`; later ones may. -/
def SurvivesList [UTab] [FTab] (st : Store) (o : Opts) (pos : List ExtValue) (named : List (Str × ExtValue)) : Prop :=
  SurvivesValues st o pos ∧ (∀ p ∈ named, isIdentifier p.1 = true ∧ SurvivesValue st o p.2) ∧
    (named.map (·.1)).Nodup ∧ ∀ p, named.head? = some p → ClearName p.1

/-- Expressions whose text is not taken for a name with a type: no nulls, no booleans with their type, and no calls whose
shown name has argument types. -/
def NotColumn (st : Store) (o : Opts) : Expr → Prop
  | .literal l => (∀ t, l.value ≠ some (.null t)) ∧ ∀ b, l.value = some (.bool b) → ¬ TypeShown o l
  | .call f _ _ _ => ∀ nm a, ShownFn st o.anchors f nm a → ∀ b r, nm = b ++ ':' :: r → r = []
  | _ => True

/-- The output columns that survive as text under the options. -/
def SurvivesColumn [UTab] [FTab] (st : Store) (o : Opts) : ExtColumn → Prop
  | .named n t => Spellable n ∧ SurvivesTy st o.anchors t
  | .expr e => SurvivesExpr st o e ∧ NotColumn st o e

/-- What may stand between quotes: no quote and no lone backslash. -/
inductive QuotedBody : Str → Prop where
  | nil : QuotedBody []
  | plain (c : Char) (s : Str) : c ≠ '"' → c ≠ '\\' → QuotedBody s → QuotedBody (c :: s)
  | escaped (c : Char) (s : Str) : QuotedBody s → QuotedBody ('\\' :: c :: s)

/-- The names of relations that survive: they are written and read as they are, so identifiers and names that
themselves consist of quotes with something between. -/
def SurvivesRelName (n : Str) : Prop :=
  isIdentifier n = true ∨ ∃ b, QuotedBody b ∧ n = '"' :: (b ++ ['"'])

end Verif
