import Verif.Model.Examples
/-!
# What the shipped extensions accept

Which arguments stand for which payload, by tables and without the order in which a handler looks.
-/

namespace Verif.ExampleSpec
open Verif

set_option autoImplicit false

/-- The strategies and their numbers. -/
def strategies : List (Str × Int) :=
  [(cs!"UNSPECIFIED", 0), (cs!"HASH", 1), (cs!"RANGE", 2), (cs!"BROADCAST", 3)]

/-- No key twice, as in every `IndexMap`. -/
def Keyed (a : ExtArgs) : Prop := (a.named.map (·.1)).Nodup

/-- The arguments that stand for a partition hint: one enum for each strategy, and a count, which may
be left out when it is `0`. -/
def Partition (a : ExtArgs) (h : PartitionHint) : Prop :=
  (∃ rows : List (Str × Int), (∀ r ∈ rows, r ∈ strategies) ∧ a.positional = rows.map (fun r => .enum r.1) ∧
    h.strategies = rows.map (·.2)) ∧
  (a.named = [(cs!"count", .integer h.count)] ∨ (a.named = [] ∧ h.count = 0))

/-- Those that stand for a plan hint. -/
def Hint (a : ExtArgs) (h : PlanHint) : Prop := a.positional = [] ∧ a.named = [(cs!"hint", .string h.hint)]

/-- Those that stand for a blob read: a path and two options, each of which may be left out when it
has its default. -/
def Blob (a : ExtArgs) (r : BlobStoreRead) : Prop :=
  a.positional = [.string r.path] ∧ a.columns = [] ∧
  (∀ p ∈ a.named, p = (cs!"limit", .integer r.limit) ∨ p = (cs!"include_archived", .boolean r.includeArchived)) ∧
  (r.limit ≠ 0 → (cs!"limit", ExtValue.integer r.limit) ∈ a.named) ∧
  (r.includeArchived = true → (cs!"include_archived", ExtValue.boolean true) ∈ a.named)

end Verif.ExampleSpec
