import Verif.Spec.Store
/-!
# Sound declarations
-/

namespace Verif.DeclareSpec

set_option autoImplicit false

open StoreSpec

/-- Both declare the same anchor of the same kind. -/
def SameAnchor : Op → Op → Prop
  | .urn _ a, .urn _ b => a = b
  | .ext k _ a _, .ext l _ b _ => k = l ∧ a = b
  | _, _ => False

/-- A declaration that can be recorded: only a type may carry the marker `u!`. -/
def Recordable : Op → Prop
  | .urn _ _ => True
  | .ext k _ _ n => legalName k n ≠ none
  | .unmapped => False

/-- Every declaration can be recorded, no anchor is declared twice, and the URN of a declaration is
declared before it. -/
structure Sound (ops : List Op) : Prop where
  recordable : ∀ op ∈ ops, Recordable op
  distinct : ops.Pairwise fun x y => ¬ SameAnchor x y
  known : ∀ past k u a n rest, ops = past ++ .ext k u a n :: rest → ∃ m, Op.urn m u ∈ past

/-- No URN is declared after a function, type or type variation. -/
def UrnsFirst (ops : List Op) : Prop :=
  ∃ us ds : List Op, ops = us ++ ds ∧ (∀ op ∈ us, ∃ n a, op = .urn n a) ∧ ∀ n a, Op.urn n a ∉ ds

end Verif.DeclareSpec
