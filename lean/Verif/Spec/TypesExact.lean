import Verif.Spec.Types
/-!
# Exactly which types survive as text

`Writable` asks for more than is needed and does not depend on the options; what follows does.
-/

namespace Verif
open StoreSpec

set_option autoImplicit false

/-- The words that stand for the type `ref` under the options: a name and perhaps a number. -/
def ShownRef (st : Store) (v : Visibility) (ref : Nat) (nm : Str) (a : Option Nat) : Prop :=
  ∃ n b, Declared st .type ref n ∧ BareName n b ∧ match v with
    | .never => nm = b ∧ a = none
    | .always => nm = n ∧ a = some ref
    | .required => nm = b ∧ ((Twin st .type ref n ∧ a = some ref) ∨ (¬ Twin st .type ref n ∧ a = none))

/-- What the words must be like to mean the type: a word that is not taken for a built-in type, with a number
that fits, or, without a number, the whole name of this type and of no other. -/
def UsableRef (st : Store) (ref : Nat) (nm : Str) : Option Nat → Prop
  | some _ => isIdentifier nm = true ∧ (∀ w ∈ reservedPrefixes, ¬ w <+: nm) ∧ ref < 2 ^ 32
  | none => isIdentifier nm = true ∧ (∀ w ∈ reservedPrefixes, ¬ w <+: nm) ∧ Declared st .type ref nm ∧
      ¬ Twin st .type ref nm

/-- A name, in any case, in front of as many parameters as the built-in type of that name takes. -/
def LooksBuiltIn (nm : Str) (params : Nat) : Prop :=
  (nm.map toLower = cs!"list" ∧ params = 1) ∨ (nm.map toLower = cs!"map" ∧ params = 2) ∨
    (nm.map toLower = cs!"struct" ∧ params ≠ 0)

mutual
/-- The types that survive as text under the options: of the kinds the parser builds, without variation, with a
precision from 0 to 12, and with words that mean the user-defined type and no built-in type. -/
def SurvivesTy (st : Store) (v : Visibility) : Ty → Prop
  | .simple _ _ w => w = 0
  | .intervalDay (some p) _ w => w = 0 ∧ 0 ≤ p ∧ p ≤ 12
  | .prec _ p _ w => w = 0 ∧ 0 ≤ p ∧ p ≤ 12
  | .list (some t) _ w => w = 0 ∧ SurvivesTy st v t
  | .user ref ps _ w => w = 0 ∧ (∃ nm a, ShownRef st v ref nm a ∧ UsableRef st ref nm a ∧
      (a = none → ¬ LooksBuiltIn nm ps.length)) ∧ SurvivesParams st v ps
  | _ => False
/-- Parameters that survive: types only. -/
def SurvivesParams (st : Store) (v : Visibility) : List Param → Prop
  | [] => True
  | .ty t :: ps => SurvivesTy st v t ∧ SurvivesParams st v ps
  | _ :: _ => False
end

end Verif
