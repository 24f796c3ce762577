import Verif.Proofs.EquivRel
import Verif.Props.SamplePlan
import Verif.Props.Plan

/-!
C61: the text of a plan says what the plan means, no more and no less.
-/

set_option autoImplicit false

namespace Verif

open StoreSpec TextSpec RelSpec PlanSpec

/-! ## C61 -/

/-- C61, one text has one meaning: plans that can be written and have the same text mean the same, even
if they were formatted with different options. -/
theorem C61_text_determines_plan [UTab] [FTab] (hA : AsciiPrintable) (reg : Registry ExtArgs (List Nat)) (o o' : Opts)
    (ho : Readable o) (ho' : Readable o') (p q : Plan) (hp : PlanOk reg o p) (hq : PlanOk reg o' q)
    (h : (textPlan reg o p).text = (textPlan reg o' q).text) : PlanEquiv reg p q :=
  text_equiv hA reg o o' ho ho' p q hp hq h

/-- C61, without a literal type on every literal and for version texts that are not white space only: two
plans have the same text exactly when they mean the same. -/
theorem C61_same_text_iff [UTab] [FTab] (hA : AsciiPrintable) (reg : Registry ExtArgs (List Nat)) (o : Opts)
    (ho : Readable o) (hl : o.litTypes = .required) (p q : Plan) (hp : PlanOk reg o p) (hq : PlanOk reg o q)
    (hv : ∀ x, p.version = some x → (x.producer ≠ [] → trim x.producer ≠ []) ∧ (x.gitHash ≠ [] → trim x.gitHash ≠ []))
    (hw : ∀ x, q.version = some x → (x.producer ≠ [] → trim x.producer ≠ []) ∧ (x.gitHash ≠ [] → trim x.gitHash ≠ [])) :
    (textPlan reg o p).text = (textPlan reg o q).text ↔ PlanEquiv reg p q :=
  ⟨text_equiv hA reg o o ho ho p q hp hq, fun h => by rw [equiv_text hA reg o ho hl p q hp hq.accepted hv hw h]⟩

/-- C61, the options do not matter: whatever readable options a plan is formatted with, the texts are
read as plans that mean the same. -/
theorem C61_options_agree [UTab] [FTab] (hA : AsciiPrintable) (reg : Registry ExtArgs (List Nat)) (o o' : Opts)
    (ho : Readable o) (ho' : Readable o') (p : Plan) (hp : PlanOk reg o p) (hp' : PlanOk reg o' p) :
    ∃ q q', parsePlan reg (textPlan reg o p).text = .ok q ∧ parsePlan reg (textPlan reg o' p).text = .ok q' ∧
      PlanEquiv reg q q' := by
  obtain ⟨q, h1, h2, -⟩ := planRT hA reg o ho p hp
  obtain ⟨q', h3, h4, -⟩ := planRT hA reg o' ho' p hp'
  exact ⟨q, q', h1, h3, planEquiv_trans (planEquiv_symm h2) h4⟩

/-- "Mean the same" is symmetric and transitive. -/
theorem C61_equivalence (reg : Registry ExtArgs (List Nat)) (p q r : Plan) :
    (PlanEquiv reg p q → PlanEquiv reg q p) ∧ (PlanEquiv reg p q → PlanEquiv reg q r → PlanEquiv reg p r) :=
  ⟨planEquiv_symm, planEquiv_trans⟩

/-- A plan that can be written means the same as itself. -/
theorem C61_reflexive [UTab] [FTab] (hA : AsciiPrintable) (reg : Registry ExtArgs (List Nat)) (o : Opts)
    (ho : Readable o) (p : Plan) (hp : PlanOk reg o p) : PlanEquiv reg p p :=
  text_equiv hA reg o o ho ho p p hp hp rfl

/-- Relations that mean the same put out equally many columns. -/
theorem C61_same_width (reg : Registry ExtArgs (List Nat)) (r r' : Rel) (h : Equiv reg r r') :
    width reg r = width reg r' := equiv_width h

/-! ### An example -/

/-- All anchors, and every virtual table on lines of its own. -/
def wordy : Opts := { Opts.default with anchors := .always, vthreshold := 0 }

/-- The same plan with another producer. -/
def otherPlan : Plan := { samplePlan with version := samplePlan.version.map fun v => { v with producer := cs!"b producer" } }

theorem otherPlan_ok (o : Opts) (ho : o.litTypes = .required) : letI := asciiTab; letI := halfTab
    PlanOk sampleReg o otherPlan := by
  letI := asciiTab; letI := halfTab
  have h := samplePlan_ok o ho
  refine ⟨?_, h.accepted, h.sound, h.rels⟩
  intro x hx
  cases hx
  decide +kernel

/-- The plan written in two ways is read as plans that mean the same; a plan that means something else
has another text under all such options. -/
example : letI := asciiTab; letI := halfTab
    (∃ q q', parsePlan sampleReg (textPlan sampleReg .default samplePlan).text = .ok q ∧
      parsePlan sampleReg (textPlan sampleReg wordy samplePlan).text = .ok q' ∧ PlanEquiv sampleReg q q') ∧
    (∀ o o', Readable o → Readable o' → o.litTypes = .required → o'.litTypes = .required →
      (textPlan sampleReg o samplePlan).text ≠ (textPlan sampleReg o' otherPlan).text) := by
  letI := asciiTab; letI := halfTab
  refine ⟨C61_options_agree asciiTab_printable _ _ _ readable_default ?_ _ (samplePlan_ok _ rfl) (samplePlan_ok _ rfl), ?_⟩
  · unfold Readable
    decide +kernel
  · intro o o' ho ho' hl hl' h
    have := C61_text_determines_plan asciiTab_printable _ o o' ho ho' _ _ (samplePlan_ok o hl) (otherPlan_ok o' hl') h
    exact absurd this.version (by decide +kernel)

/-- The texts do differ between the options. -/
example : letI := asciiTab; letI := halfTab
    (textPlan sampleReg .default samplePlan).text ≠ (textPlan sampleReg wordy samplePlan).text := by decide +kernel

/-- The same plan with a mapping that keeps all columns of the union where they are. -/
def mappedPlan : Plan :=
  { samplePlan with rels := [.root [cs!"x", cs!"it's"] (some SamplePlan.fetched),
      .rel (.node (.set (some ⟨some (.emit [0]), 0⟩) (.known .unionAll) none)
        [some SamplePlan.leaf, some SamplePlan.crossed, some SamplePlan.readRows])] }

theorem mappedPlan_ok (o : Opts) (ho : o.litTypes = .required) : letI := asciiTab; letI := halfTab
    PlanOk sampleReg o mappedPlan := by
  letI := asciiTab; letI := halfTab
  have h := samplePlan_ok o ho
  refine ⟨h.version, h.accepted, h.sound, ?_⟩
  intro r hr
  simp only [mappedPlan, List.mem_cons, List.not_mem_nil, or_false] at hr
  rcases hr with rfl | rfl
  · exact h.rels _ (by simp [samplePlan])
  · refine SamplePlan.several [SamplePlan.leaf, SamplePlan.crossed, SamplePlan.readRows] [1, 1, 1] ?_ (by decide +kernel)
      (by show 2 ≤ 3; decide) ⟨rfl, ⟨_, rfl, by decide⟩, by decide +kernel, SamplePlan.inRange (by decide +kernel), SamplePlan.adv_none⟩
    intro r hr
    simp only [List.mem_cons, List.not_mem_nil, or_false] at hr
    rcases hr with rfl | rfl | rfl
    · exact SamplePlan.leaf_ok
    · exact SamplePlan.crossed_ok
    · exact SamplePlan.readRows_ok

/-- Different plans that mean the same. -/
example : letI := asciiTab; letI := halfTab
    PlanEquiv sampleReg samplePlan mappedPlan ∧ samplePlan.rels ≠ mappedPlan.rels := by
  letI := asciiTab; letI := halfTab
  have hv : ∀ x, samplePlan.version = some x →
      (x.producer ≠ [] → trim x.producer ≠ []) ∧ (x.gitHash ≠ [] → trim x.gitHash ≠ []) := by
    intro x hx
    cases hx
    decide +kernel
  refine ⟨(C61_same_text_iff asciiTab_printable _ _ readable_default rfl _ _ (samplePlan_ok _ rfl) (mappedPlan_ok _ rfl) hv hv).1
    (by decide +kernel), ?_⟩
  simp [samplePlan, mappedPlan, SamplePlan.united, SamplePlan.direct]

end Verif
