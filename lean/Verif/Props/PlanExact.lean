import Verif.Proofs.PlanExact
import Verif.Props.TreesExact
import Verif.Props.SamplePlan
/-!
C90: exactly which plans survive as text.
-/

namespace Verif
open StoreSpec TextSpec RelSpec PlanSpec RawSpec

set_option autoImplicit false

/-- C90.  The text of a plan is read as a plan that means the same exactly if every relation in it survives: no input is
missing, every line survives over the widths its inputs have, and so do the names of roots.  Described are plans whose
declarations and version can be written, of reads, filters, projects, sorts, fetches, joins, sets and crosses without
addenda, and without line ends in texts that are copied. -/
theorem C90_plan_survives_iff [UTab] [FTab] (hA : AsciiPrintable) (hF : FloatsShown) (reg : Registry ExtArgs (List Nat))
    (o : Opts) (ho : o.showEmit = false) (hi : o.indent = cs!"  ") (p : Plan) (hv : VersionOk p.version)
    (hs : Sound (run (history p))) (hd : ∀ r ∈ p.rels, DescribedTop reg r)
    (hr : ∀ s ∈ planRaw reg o p, '\n' ∉ s) :
    (∃ p', parsePlan reg (textPlan reg o p).text = .ok p' ∧ PlanEquiv reg p p') ↔
      ∀ r ∈ p.rels, SurvivesTop ⟨run (history p), o, reg⟩ r :=
  plan_exact hA hF reg o ho hi p hv hs hd hr

/-- C90.  Such plans survive one relation at a time: a plan does exactly if each of its relations does with the same
declarations in a plan of its own. -/
theorem C90_one_at_a_time [UTab] [FTab] (hA : AsciiPrintable) (hF : FloatsShown) (reg : Registry ExtArgs (List Nat))
    (o : Opts) (ho : o.showEmit = false) (hi : o.indent = cs!"  ") (p : Plan) (hv : VersionOk p.version)
    (hs : Sound (run (history p))) (hd : ∀ r ∈ p.rels, DescribedTop reg r)
    (hr : ∀ s ∈ planRaw reg o p, '\n' ∉ s) :
    (∃ p', parsePlan reg (textPlan reg o p).text = .ok p' ∧ PlanEquiv reg p p') ↔
      ∀ r ∈ p.rels, ∃ p', parsePlan reg (textPlan reg o { p with rels := [r] }).text = .ok p' ∧
        PlanEquiv reg { p with rels := [r] } p' := by
  rw [C90_plan_survives_iff hA hF reg o ho hi p hv hs hd hr]
  have key : ∀ r ∈ p.rels, (∃ p', parsePlan reg (textPlan reg o { p with rels := [r] }).text = .ok p' ∧
      PlanEquiv reg { p with rels := [r] } p') ↔ SurvivesTop ⟨run (history p), o, reg⟩ r := by
    intro r hm
    rw [C90_plan_survives_iff hA hF reg o ho hi { p with rels := [r] } hv hs (by simpa using hd r hm)]
    · rw [List.forall_mem_singleton]
      exact Iff.rfl
    · intro s h
      refine hr s ?_
      unfold planRaw at h ⊢
      simp only [List.mem_append, List.flatMap_cons, List.flatMap_nil, List.append_nil] at h ⊢
      rcases h with h | h
      · exact Or.inl h
      · exact Or.inr (List.mem_flatMap.2 ⟨r, hm, h⟩)
  constructor
  · exact fun h r hm => (key r hm).2 (h r hm)
  · exact fun h r hm => (key r hm).1 (h r hm)

namespace PlanExactSample
open TreesSample

/-- A version, a URN, a function and a root above a tree. -/
def plan (input : Option Rel) : Plan where
  version := some ⟨0, 74, 1, [], cs!"me"⟩
  urns := [(1, cs!"extension:x:y")]
  decls := [some (.function, 1, 10, cs!"f")]
  rels := [.rel table, .root [cs!"a", cs!"b c"] input]

theorem plan_sound (input : Option Rel) : Sound (run (history (plan input))) := by
  have : run (history (plan input)) = run (history (plan none)) := rfl
  rw [this]
  have h1 : (run (history (plan none))).urns = [(1, cs!"extension:x:y")] := by decide +kernel
  have h2 : (run (history (plan none))).exts = [((10, .function), (1, cs!"f"))] := by decide +kernel
  refine ⟨?_, ?_, ?_⟩
  · rw [h1]
    intro e he
    rw [List.mem_singleton] at he
    subst he
    refine ⟨by decide, by decide, by decide, by decide, ?_⟩
    intro c hc
    simp at hc
    subst hc
    decide
  · rw [h2]
    intro e he
    rw [List.mem_singleton] at he
    subst he
    exact ⟨by decide, cs!"f", by decide, Or.inl rfl⟩
  · rw [h1, h2]
    intro e he
    rw [List.mem_singleton] at he
    subst he
    exact ⟨_, List.mem_singleton.2 rfl⟩

theorem plan_version (input : Option Rel) : VersionOk (plan input).version := by
  rintro x ⟨⟩
  decide

/-- The plan with the tree is read back, the plan without it is not. -/
example [UTab] (hA : AsciiPrintable) : letI := halfTab
    (∃ p', parsePlan sampleReg (textPlan sampleReg .default (plan (some tree))).text = .ok p' ∧
      PlanEquiv sampleReg (plan (some tree)) p') ∧
    ¬ ∃ p', parsePlan sampleReg (textPlan sampleReg .default (plan none)).text = .ok p' ∧
      PlanEquiv sampleReg (plan none) p' := by
  letI := halfTab
  have h1 : ∀ r ∈ (plan (some tree)).rels, DescribedTop sampleReg r := by
    intro r hr
    simp only [plan, List.mem_cons, List.not_mem_nil, or_false] at hr
    rcases hr with rfl | rfl
    · exact table_described _
    · exact tree_described _
  have h2 : ∀ r ∈ (plan none).rels, DescribedTop sampleReg r := by
    intro r hr
    simp only [plan, List.mem_cons, List.not_mem_nil, or_false] at hr
    rcases hr with rfl | rfl
    · exact table_described _
    · exact trivial
  rw [C90_plan_survives_iff hA halfTab_shown sampleReg .default rfl rfl _ (plan_version _) (plan_sound _) h1 (by decide +kernel),
    C90_plan_survives_iff hA halfTab_shown sampleReg .default rfl rfl _ (plan_version _) (plan_sound _) h2 (by decide +kernel)]
  constructor
  · intro r hr
    simp only [plan, List.mem_cons, List.not_mem_nil, or_false] at hr
    rcases hr with rfl | rfl
    · exact table_survives hA _
    · refine ⟨?_, tree_ok hA _⟩
      intro n hn
      simp only [List.mem_cons, List.not_mem_nil, or_false] at hn
      rcases hn with rfl | rfl
      · exact Ascii.spellable hA (by simp [Ascii])
      · exact Ascii.spellable hA (by simp [Ascii])
  · intro h
    exact h (.root [cs!"a", cs!"b c"] none) (by simp [plan])

/-- A table of three rows, one below the other. -/
def rows : Rel := .node (.read none (some LinesSample.schema) none (.virtual [[LinesSample.fld 1], [], [LinesSample.fld 1]] 0) none 0) []

/-- Written with one row on a line, the plan with the table is read back. -/
example [UTab] (hA : AsciiPrintable) : letI := halfTab
    ∃ p', parsePlan sampleReg (textPlan sampleReg { Opts.default with vthreshold := 2 } (plan (some rows))).text = .ok p' ∧
      PlanEquiv sampleReg (plan (some rows)) p' := by
  letI := halfTab
  rw [C90_plan_survives_iff hA halfTab_shown sampleReg _ rfl rfl _ (plan_version _) (plan_sound _) ?_ (by decide +kernel)]
  · intro r hr
    simp only [plan, List.mem_cons, List.not_mem_nil, or_false] at hr
    rcases hr with rfl | rfl
    · exact table_survives hA _
    · refine ⟨?_, .node _ [] ⟨rfl, rfl, rfl, rfl, rfl, ?_, by rintro e ⟨⟩, LinesSample.schema_ok hA _ _⟩ (by simp)⟩
      · intro n hn
        simp only [List.mem_cons, List.not_mem_nil, or_false] at hn
        rcases hn with rfl | rfl
        · exact Ascii.spellable hA (by simp [Ascii])
        · exact Ascii.spellable hA (by simp [Ascii])
      · intro r hr e he
        simp only [List.mem_cons, List.not_mem_nil, or_false] at hr
        rcases hr with rfl | rfl | rfl
        · simp only [List.mem_cons, List.not_mem_nil, or_false] at he
          subst he
          exact LinesSample.fld_ok _ _
        · cases he
        · simp only [List.mem_cons, List.not_mem_nil, or_false] at he
          subst he
          exact LinesSample.fld_ok _ _
  · intro r hr
    simp only [plan, List.mem_cons, List.not_mem_nil, or_false] at hr
    rcases hr with rfl | rfl
    · exact table_described _
    · exact DescribedTree.node _ _ rfl
        (by simp [Countable, widths, directWidth, outWidth, common, shown, mapping, identity, LinesSample.schema]) (by simp)

/-- A relation that is not there. -/
def hole : Plan := { plan none with rels := [.missing] }

/-- A plan with it is not read back. -/
example [UTab] (hA : AsciiPrintable) : letI := halfTab
    ¬ ∃ p', parsePlan sampleReg (textPlan sampleReg .default hole).text = .ok p' ∧
      PlanEquiv sampleReg hole p' := by
  letI := halfTab
  rw [C90_plan_survives_iff hA halfTab_shown sampleReg .default rfl rfl hole (plan_version none) (plan_sound none)
    (by intro r hr; rw [List.mem_singleton.1 hr]; trivial) (by decide +kernel)]
  intro h
  exact h .missing (List.mem_singleton.2 rfl)

end PlanExactSample

end Verif
