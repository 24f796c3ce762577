import Verif.Model.Tree
/-!
# What an indented listing of a forest is

`listing d f` writes each relation at its depth, its addenda right below it one level deeper,
then its children one level deeper.
-/

namespace Verif.TreeSpec
variable {ρ α : Type}

mutual
/-- Listing of one tree at depth `d`. -/
def listing (d : Nat) : RNode ρ α → List (Nat × LineNode ρ α)
  | .mk r as cs =>
    (d, .relation r) :: as.map (fun a => (d + 1, .addendum a)) ++ listings (d + 1) cs
/-- Listing of a forest at depth `d`. -/
def listings (d : Nat) : List (RNode ρ α) → List (Nat × LineNode ρ α)
  | [] => []
  | n :: ns => listing d n ++ listings d ns
end

end Verif.TreeSpec

namespace Verif.TreeSpec
variable {ρ α : Type}

/-- Depth of the last relation line of a list of lines. -/
def lastRel (lines : List (Nat × LineNode ρ α)) : Option Nat :=
  (lines.filterMap (fun l => match l with
    | (d, .relation _) => some d
    | (_, .addendum _) => none)).getLast?

/-- A line may follow `lines` when it is a top-level relation, a relation at most one level deeper
than the last relation, or an addendum exactly one level deeper than the last relation. -/
def MayFollow (lines : List (Nat × LineNode ρ α)) : Nat × LineNode ρ α → Prop
  | (d, .relation _) => d = 0 ∨ ∃ e, lastRel lines = some e ∧ d ≤ e + 1
  | (d, .addendum _) => ∃ e, lastRel lines = some e ∧ d = e + 1

end Verif.TreeSpec
