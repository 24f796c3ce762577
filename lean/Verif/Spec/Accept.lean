import Verif.Spec.PlanLines
import Verif.Spec.Declare
import Verif.Spec.Meaning
/-!
# Specification: which texts are accepted

The plan section taken apart: a line takes along all continuation lines directly below it, blank lines are skipped, and
every other line is read as one relation or addendum.
-/

namespace Verif.AcceptSpec

open ChunkSpec Grammar StoreSpec

set_option autoImplicit false

/-- The reading of one line without its indentation; a root can only be without indentation.  When there is a reading
is said by C83, what it stands for by C55. -/
def LineReads (d : Nat) (body : Str) (n : LineNode SLine SAddendum) : Prop :=
  (d = 0 ∧ topLine body = some n) ∨ (d ≠ 0 ∧ nodeLine body = some n)

/-- `Listed ls lines`: the lines `ls` of a plan section are read as `lines`, each with its depth. -/
inductive Listed : List Str → List (Nat × LineNode SLine SAddendum) → Prop
  | nil : Listed [] []
  | blank {f : Str} {ls : List Str} {lines : List (Nat × LineNode SLine SAddendum)} : trimEnd f = [] →
      (∀ l, ls.head? = some l → ¬ DashUnder 0 (content l)) → Listed ls lines → Listed (f :: ls) lines
  | node {f body : Str} {run ls : List Str} {lines : List (Nat × LineNode SLine SAddendum)} {d : Nat}
      {n : LineNode SLine SAddendum} : (∀ l ∈ run, DashUnder (depthOf (content f)) (content l)) →
      (∀ l, ls.head? = some l → ¬ DashUnder (depthOf (content f)) (content l)) →
      trimEnd (f :: run).flatten = List.replicate (2 * d) ' ' ++ body → (∀ t, body ≠ ' ' :: ' ' :: t) →
      LineReads d body n → Listed ls lines → Listed (f :: (run ++ ls)) ((d, n) :: lines)

/-- An optional plan section. -/
inductive PlanListed : List Str → List (Nat × LineNode SLine SAddendum) → Prop
  | none : PlanListed [] []
  | some {h : Str} {ls : List Str} {lines : List (Nat × LineNode SLine SAddendum)} :
      trimEnd h = cs!"=== Plan" → Listed ls lines → PlanListed (h :: ls) lines

/-- The parts of a text: blank lines, a version, declarations and lines of relations. -/
def TextReads (text : Str) (v : Option Version) (ops : List StoreSpec.Op)
    (lines : List (Nat × LineNode SLine SAddendum)) : Prop :=
  ∃ blanks r1 r2 r3, physLines text = blanks ++ r1 ∧ (∀ l ∈ blanks, trimEnd l = []) ∧ VersionPart r2 r1 v ∧
    ExtPart r3 r2 ops ∧ PlanListed r3 lines

/-- By anchor; under one anchor functions before types before type variations. -/
def DeclBefore (x y : Option (Kind × Nat × Nat × Str)) : Prop :=
  ∃ k u a n l v b m, x = some (k, u, a, n) ∧ y = some (l, v, b, m) ∧
    (a < b ∨ (a = b ∧ (k, l) ∈ [(Kind.function, Kind.type), (.function, .typeVariation), (.type, .typeVariation)]))

/-- The lists of a plan that record the declarations `ops`: these and no others, by anchor. -/
structure Recorded (ops : List Op) (urns : List (Nat × Str)) (decls : List (Option (Kind × Nat × Nat × Str))) : Prop where
  urns_are : ∀ a u, (a, u) ∈ urns ↔ Op.urn u a ∈ ops
  decls_are : ∀ k u a n, some (k, u, a, n) ∈ decls ↔ ∃ m, Op.ext k u a m ∈ ops ∧ legalName k m = some n
  no_unmapped : none ∉ decls
  urns_sorted : urns.Pairwise fun x y => x.1 < y.1
  decls_sorted : decls.Pairwise DeclBefore

end Verif.AcceptSpec
