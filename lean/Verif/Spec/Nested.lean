import Verif.Model.Rels
/-!
# Specification: text laid out at a depth
-/

namespace Verif.NestSpec

set_option autoImplicit false

/-- Lines with their own depths, one below the other, all of them `n` steps further in. -/
def laid (indent : Str) (n : Nat) (lines : List (Nat × Str)) : Str :=
  (List.intersperse cs!"\n" (lines.map fun l => (List.replicate (n + l.1) indent).flatten ++ l.2)).flatten

/-- Lines one step further in. -/
def deeper (lines : List (Nat × Str)) : List (Nat × Str) := lines.map fun l => (l.1 + 1, l.2)

/-- The lines of one relation without its inputs: the first is not indented, the others are one step in. -/
def Own (lines : List (Nat × Str)) : Prop :=
  ∃ s rest, lines = (0, s) :: rest ∧ ∀ l ∈ rest, l.1 = 1

/-- Relations that are written without inputs: reads, and relations that cannot be written. -/
def Leaf (op : RelOp) : Prop :=
  (∃ c s f t a n, op = .read c s f t a n) ∨ ∃ k, op = .other k

end Verif.NestSpec
