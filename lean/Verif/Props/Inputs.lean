import Verif.Proofs.Inputs
import Verif.Props.SamplePlan
import Verif.Props.Scope
/-!
C81: reading a relation uses nothing of its inputs but how many columns each of them has.
-/

namespace Verif

set_option autoImplicit false

open StoreSpec TextSpec RelSpec PlanSpec InputSpec

/-! ## C81 -/

/-- C81: a line and its addenda say, for any numbers of columns of its inputs, which relation it is and how many
columns it has.  Above inputs that are read, that relation is built, on exactly these inputs in the order of the
lines; it is refused, or panics, in the same way whichever inputs of these widths there are. -/
theorem C81_read [FTab] (st : Store) (reg : Registry ExtArgs (List Nat)) :
    ∃ own : SLine → List SAddendum → List Nat → Res RErr (RelOp × Nat),
      ∀ l as kids (rs : List (Rel × Nat)), kids.map (convNode st reg) = rs.map .ok →
        (∀ op w, own l as (rs.map (·.2)) = .ok (op, w) →
          convNode st reg (.mk l as kids) = .ok (.node op (rs.map fun r => some r.1), w)) ∧
        (∀ e, own l as (rs.map (·.2)) = .err e → convNode st reg (.mk l as kids) = .err e) ∧
        (own l as (rs.map (·.2)) = .panic → convNode st reg (.mk l as kids) = .panic) := by
  refine ⟨ownConv st reg, fun l as kids rs h => ?_⟩
  rw [convNode_own st reg l as kids rs h]
  refine ⟨fun op w ho => by rw [ho]; rfl, fun e ho => by rw [ho]; rfl, fun ho => by rw [ho]; rfl⟩

/-- C81: inputs come first.  A relation is refused for the first of its inputs that cannot be read, for the same
reason as that input, whatever the line itself says. -/
theorem C81_first_failure [FTab] (st : Store) (reg : Registry ExtArgs (List Nat)) (l : SLine) (as : List SAddendum)
    (a b : List (RNode SLine SAddendum)) (k : RNode SLine SAddendum) (rs : List (Rel × Nat))
    (h : a.map (convNode st reg) = rs.map .ok) (hk : ∀ r, convNode st reg k ≠ .ok r) :
    convNode st reg (.mk l as (a ++ k :: b)) = convNode st reg k := by
  obtain ⟨h1, h2⟩ := convKids_err st reg a k b rs h hk
  rw [convNode]
  cases hc : convNode st reg k with
  | ok r => exact absurd hc (hk r)
  | err e => rw [h1 e hc]; rfl
  | panic => rw [h2 hc]; rfl

/-- C81: exchanging a part of a relation, at any depth, for another one with as many columns changes that part of the
result and nothing else; the whole is still accepted and has as many columns as before. -/
theorem C81_exchange [FTab] (st : Store) (reg : Registry ExtArgs (List Nat)) (x y t t' : RNode SLine SAddendum)
    (rx ry r : Rel) (w n : Nat) (path : List Nat) (hx : convNode st reg x = .ok (rx, w))
    (hy : convNode st reg y = .ok (ry, w)) (h : At x y path t t') (ht : convNode st reg t = .ok (r, n)) :
    ∃ r', convNode st reg t' = .ok (r', n) ∧ RelAt rx ry path r r' :=
  convNode_at st reg hx hy h ht

/-- C81 for the relations of a plan: the others stay as they are. -/
theorem C81_plan_exchange [FTab] (st : Store) (reg : Registry ExtArgs (List Nat)) (x y : RNode SLine SAddendum)
    (rx ry : Rel) (w : Nat) (path : List Nat) (hx : convNode st reg x = .ok (rx, w))
    (hy : convNode st reg y = .ok (ry, w)) (a b : List (RNode SLine SAddendum)) (t t' : RNode SLine SAddendum)
    (h : At x y path t t') (rels : List PlanRel) (hp : convPlanRels st reg (a ++ t :: b) = .ok rels) :
    ∃ ra r r' rb, rels = ra ++ r :: rb ∧ convPlanRels st reg (a ++ t' :: b) = .ok (ra ++ r' :: rb) ∧
      ra.length = a.length ∧ TopAt rx ry r r' := by
  obtain ⟨ra, r2, h1, h2, rfl⟩ := (convPlanRels_append st reg a (t :: b) rels).1 hp
  simp only [convPlanRels, Res.bind_ok_iff] at h2
  obtain ⟨r, hr, rb, hrb, he⟩ := h2
  cases he
  obtain ⟨r', hr', hat⟩ := convPlanRel_at st reg hx hy h hr
  refine ⟨ra, r, r', rb, rfl, (convPlanRels_append st reg a (t' :: b) _).2 ⟨ra, r' :: rb, h1, ?_, rfl⟩, ?_, hat⟩
  · simp only [convPlanRels, Res.bind_ok_iff]
    exact ⟨r', hr', rb, hrb, rfl⟩
  · clear hp
    induction a generalizing ra with
    | nil => cases h1; rfl
    | cons x a ih =>
      simp only [convPlanRels, Res.bind_ok_iff] at h1
      obtain ⟨q, -, m, hm, he⟩ := h1
      cases he
      simp [ih m hm]

/-! ### Examples -/

namespace InputSample

/-- A virtual table of one column, without rows. -/
def table : RNode SLine SAddendum :=
  .mk (.readVirtual [] none [(cs!"b", .simple cs!"i64" .required)]) [] []

/-- A read of two columns. -/
def two : RNode SLine SAddendum :=
  .mk (.read [cs!"t"] (.implicit [(cs!"a", .simple cs!"i64" .required), (cs!"b", .simple cs!"i64" .required)])) [] []

/-- The filter of `ScopeSample` on something else. -/
def on (k : RNode SLine SAddendum) : RNode SLine SAddendum := .mk (.filter (.ref ⟨false, 0⟩) [⟨false, 0⟩]) [] [k]

/-- The mapping of a filter that was read. -/
def mapping : Res RErr (Rel × Nat) → Option (Option Emit)
  | .ok (.node (.filter c _ _) _, _) => some (c.bind (·.emit))
  | _ => none

end InputSample

example : letI := halfTab; ∃ rx ry r, convNode (run []) sampleReg ScopeSample.read = .ok (rx, 1) ∧
    convNode (run []) sampleReg InputSample.table = .ok (ry, 1) ∧
    convNode (run []) sampleReg (InputSample.on ScopeSample.read) = .ok (r, 1) ∧
    At ScopeSample.read InputSample.table [0] (InputSample.on ScopeSample.read) (InputSample.on InputSample.table) :=
  letI := halfTab
  ⟨_, _, _, rfl, rfl, rfl, .under (a := []) (b := []) .here⟩

/-- C81: the number of columns does matter.  The same filter keeps all columns of one input, and drops the second
column of another. -/
theorem C81_width_matters : letI := halfTab
    InputSample.mapping (convNode (run []) sampleReg (InputSample.on ScopeSample.read)) = some (some .direct) ∧
      InputSample.mapping (convNode (run []) sampleReg (InputSample.on InputSample.two)) = some (some (.emit [0])) := by
  constructor <;> rfl

end Verif
