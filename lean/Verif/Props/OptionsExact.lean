import Verif.Proofs.OptionsExact
import Verif.Props.PlanExact
/-!
C92: the default options lose the least.
-/

namespace Verif
open StoreSpec TextSpec RelSpec PlanSpec RawSpec

set_option autoImplicit false

/-- C92.  A plan that is read back from the text written under some options, not with all anchors shown, is read back from
the text written under the default options, and under any that show anchors and literal types where they are needed. -/
theorem C92_default_loses_least [UTab] [FTab] (hA : AsciiPrintable) (hF : FloatsShown) (reg : Registry ExtArgs (List Nat))
    (o o' : Opts) (ho : o.showEmit = false) (hi : o.indent = cs!"  ") (ho' : o'.showEmit = false) (hi' : o'.indent = cs!"  ")
    (hn : o.anchors ≠ .always) (hn' : o'.anchors = .required ∧ o'.litTypes = .required)
    (p : Plan) (hv : VersionOk p.version) (hs : Sound (run (history p))) (hd : ∀ r ∈ p.rels, DescribedTop reg r)
    (hr : ∀ s ∈ planRaw reg o p, '\n' ∉ s)
    (hb : ∃ p', parsePlan reg (textPlan reg o p).text = .ok p' ∧ PlanEquiv reg p p') :
    ∃ p', parsePlan reg (textPlan reg o' p).text = .ok p' ∧ PlanEquiv reg p p' := by
  rw [C90_plan_survives_iff hA hF reg o ho hi p hv hs hd hr] at hb
  rw [C90_plan_survives_iff hA hF reg o' ho' hi' p hv hs hd (planRaw_opts reg o o' p ▸ hr)]
  exact fun r hm => survivesTop_keeps (keeps_default hn hn'.1 hn'.2) (hb r hm)

/-- C92.  The same for all options, with all anchors shown or not, if no declared type has, in any case, the name `list`, `map`
or `struct`. -/
theorem C92_default_loses_least_of_all [UTab] [FTab] (hA : AsciiPrintable) (hF : FloatsShown) (reg : Registry ExtArgs (List Nat))
    (o o' : Opts) (ho : o.showEmit = false) (hi : o.indent = cs!"  ") (ho' : o'.showEmit = false) (hi' : o'.indent = cs!"  ")
    (hn' : o'.anchors = .required ∧ o'.litTypes = .required)
    (p : Plan) (hv : VersionOk p.version) (hs : Sound (run (history p))) (hd : ∀ r ∈ p.rels, DescribedTop reg r)
    (hr : ∀ s ∈ planRaw reg o p, '\n' ∉ s)
    (hc : ∀ a n, Declared (run (history p)) .type a n → n.map toLower ∉ [cs!"list", cs!"map", cs!"struct"])
    (hb : ∃ p', parsePlan reg (textPlan reg o p).text = .ok p' ∧ PlanEquiv reg p p') :
    ∃ p', parsePlan reg (textPlan reg o' p).text = .ok p' ∧ PlanEquiv reg p p' := by
  rw [C90_plan_survives_iff hA hF reg o ho hi p hv hs hd hr] at hb
  rw [C90_plan_survives_iff hA hF reg o' ho' hi' p hv hs hd (planRaw_opts reg o o' p ▸ hr)]
  exact fun r hm => survivesTop_keeps (keeps_any hc hn'.1 hn'.2) (hb r hm)

/-- C92.  Whether a plan is read back depends on how anchors and literal types are shown and on no other option: not on how
virtual tables are laid out, nor on binary values. -/
theorem C92_layout_irrelevant [UTab] [FTab] (hA : AsciiPrintable) (hF : FloatsShown) (reg : Registry ExtArgs (List Nat))
    (o o' : Opts) (ho : o.showEmit = false) (hi : o.indent = cs!"  ") (ho' : o'.showEmit = false) (hi' : o'.indent = cs!"  ")
    (ha : o.anchors = o'.anchors) (hl : o.litTypes = o'.litTypes)
    (p : Plan) (hv : VersionOk p.version) (hs : Sound (run (history p))) (hd : ∀ r ∈ p.rels, DescribedTop reg r)
    (hr : ∀ s ∈ planRaw reg o p, '\n' ∉ s) :
    (∃ p', parsePlan reg (textPlan reg o p).text = .ok p' ∧ PlanEquiv reg p p') ↔
      ∃ p', parsePlan reg (textPlan reg o' p).text = .ok p' ∧ PlanEquiv reg p p' := by
  rw [C90_plan_survives_iff hA hF reg o ho hi p hv hs hd hr,
    C90_plan_survives_iff hA hF reg o' ho' hi' p hv hs hd (planRaw_opts reg o o' p ▸ hr)]
  exact ⟨fun h r hm => survivesTop_keeps (keeps_same ha hl) (h r hm),
    fun h r hm => survivesTop_keeps (keeps_same ha.symm hl.symm) (h r hm)⟩

namespace OptionsSample
open PlanExactSample TreesSample

/-- A table with a column of the user-defined type `List` with one parameter. -/
def plan : Plan where
  version := none
  urns := [(1, cs!"extension:x:y")]
  decls := [some (.type, 1, 10, cs!"List")]
  rels := [.rel (.node (.read none (some ⟨[cs!"a"], some ⟨[.user 10 [.ty (.simple .i64 .required 0)] .required 0], 0, .required⟩⟩) none
    (.named [cs!"t"] 0) none 0) [])]

theorem plan_exts : (run (history plan)).exts = [((10, .type), (1, cs!"List"))] := by decide +kernel

theorem plan_urns : (run (history plan)).urns = [(1, cs!"extension:x:y")] := by decide +kernel

theorem plan_sound : Sound (run (history plan)) := by
  have h1 := plan_urns
  refine ⟨?_, ?_, ?_⟩
  · rw [h1]
    intro e he
    rw [List.mem_singleton] at he
    subst he
    refine ⟨by decide, by decide, by decide, by decide, ?_⟩
    intro c hc
    simp at hc
    subst hc
    decide
  · rw [plan_exts]
    intro e he
    rw [List.mem_singleton] at he
    subst he
    refine ⟨by decide, ?_⟩
    show isIdentifier cs!"List" = true
    decide
  · rw [h1, plan_exts]
    intro e he
    rw [List.mem_singleton] at he
    subst he
    exact ⟨cs!"extension:x:y", List.mem_singleton.2 rfl⟩

theorem plan_described : ∀ r ∈ plan.rels, DescribedTop sampleReg r := by
  intro r hr
  rw [List.mem_singleton.1 hr]
  exact .node _ _ rfl (by simp [Countable, widths, directWidth, outWidth, common, shown, mapping, identity]) (by simp)

theorem declared : Declared (run (history plan)) .type 10 cs!"List" := ⟨1, by decide +kernel⟩

theorem named : BareName cs!"List" cs!"List" := ⟨by decide, .inl rfl⟩

/-- All anchors shown. -/
def anchored : Opts := { Opts.default with anchors := .always }

/-- Nothing shown but what the text cannot do without. -/
def bare : Opts := { Opts.default with anchors := .never, litTypes := .never, vthreshold := 0 }

/-- A plan that is read back from the barest text is read back from the default text. -/
example [UTab] (hA : AsciiPrintable) : letI := halfTab
    ∃ p', parsePlan sampleReg (textPlan sampleReg .default (PlanExactSample.plan (some tree))).text = .ok p' ∧
      PlanEquiv sampleReg (PlanExactSample.plan (some tree)) p' := by
  letI := halfTab
  have h1 : ∀ r ∈ (PlanExactSample.plan (some tree)).rels, DescribedTop sampleReg r := by
    intro r hr
    simp only [PlanExactSample.plan, List.mem_cons, List.not_mem_nil, or_false] at hr
    rcases hr with rfl | rfl
    · exact table_described _
    · exact tree_described _
  refine C92_default_loses_least hA halfTab_shown sampleReg bare .default rfl rfl rfl rfl (by decide) ⟨rfl, rfl⟩ _
    (plan_version _) (PlanExactSample.plan_sound _) h1 (by decide +kernel) ?_
  rw [C90_plan_survives_iff hA halfTab_shown sampleReg bare rfl rfl _ (plan_version _) (PlanExactSample.plan_sound _) h1 (by decide +kernel)]
  intro r hr
  simp only [PlanExactSample.plan, List.mem_cons, List.not_mem_nil, or_false] at hr
  rcases hr with rfl | rfl
  · exact table_survives hA _
  · refine ⟨?_, tree_ok hA _⟩
    intro n hn
    simp only [List.mem_cons, List.not_mem_nil, or_false] at hn
    rcases hn with rfl | rfl
    · exact Ascii.spellable hA (by simp [Ascii])
    · exact Ascii.spellable hA (by simp [Ascii])

/-- Its only declaration is a function, so that no type has such a name. -/
example : ∀ a n, Declared (run (history (PlanExactSample.plan (some tree)))) .type a n →
    n.map toLower ∉ [cs!"list", cs!"map", cs!"struct"] := by
  intro a n h
  obtain ⟨u, hu⟩ := (Store.declared_iff (Store.ordered_run _)).1 h
  have h2 : (run (history (PlanExactSample.plan (some tree)))).exts = [((10, .function), (1, cs!"f"))] := by decide +kernel
  rw [h2] at hu
  simp at hu

/-- By default the user-defined type is read as the built-in one. -/
theorem default_lost [UTab] (hA : AsciiPrintable) : letI := halfTab
    ¬ ∃ p', parsePlan sampleReg (textPlan sampleReg .default plan).text = .ok p' ∧ PlanEquiv sampleReg plan p' := by
  letI := halfTab
  rw [C90_plan_survives_iff hA halfTab_shown sampleReg .default rfl rfl OptionsSample.plan (by rintro x ⟨⟩)
    OptionsSample.plan_sound plan_described (by decide +kernel)]
  intro h
  have h := h _ (List.mem_singleton.2 rfl)
  generalize hx : Rel.node _ [] = x at h
  cases h with
  | node op ins h2 _ =>
    simp only [Rel.node.injEq] at hx
    rw [← hx.1] at h2
    obtain ⟨-, -, -, -, -, -, -, ⟨cols, h3, h4⟩, -⟩ := h2
    simp only [Option.some.injEq, NamedStruct.mk.injEq, StructTy.mk.injEq] at h3
    have hm : Ty.user 10 [.ty (.simple .i64 .required 0)] .required 0 ∈ cols.map (·.2) := by
      rw [← h3.2.1]
      exact List.mem_singleton.2 rfl
    obtain ⟨c, hc, he⟩ := List.mem_map.1 hm
    have h5 := (h4 c hc).2
    rw [he, SurvivesTy] at h5
    obtain ⟨-, ⟨nm, a, ⟨n, b, d1, d2, d3⟩, -, d5⟩, -⟩ := h5
    have hn := Store.declared_unique d1 declared
    subst hn
    have hb := bareName_unique d2 named
    subst hb
    obtain ⟨rfl, ⟨⟨g, hg, ht⟩, -⟩ | ⟨-, rfl⟩⟩ := d3
    · obtain ⟨u, hu⟩ := (Store.declared_iff (Store.ordered_run _)).1 ht
      rw [plan_exts, List.mem_singleton] at hu
      simp only [Prod.mk.injEq] at hu
      exact hg hu.1.1
    · exact d5 rfl (.inl ⟨by decide, rfl⟩)

end OptionsSample

open OptionsSample in
/-- C92.  With all anchors shown more may survive: a user-defined type that looks like a built-in one is told apart by its
anchor only, and by default the anchor is not shown. -/
theorem C92_anchors_may_save [UTab] (hA : AsciiPrintable) : letI := halfTab
    ∃ p : Plan, (∃ p', parsePlan sampleReg (textPlan sampleReg { Opts.default with anchors := .always } p).text = .ok p' ∧
        PlanEquiv sampleReg p p') ∧
      ¬ ∃ p', parsePlan sampleReg (textPlan sampleReg .default p).text = .ok p' ∧ PlanEquiv sampleReg p p' := by
  letI := halfTab
  refine ⟨OptionsSample.plan, ?_, ?_⟩
  · refine (C90_plan_survives_iff hA halfTab_shown sampleReg anchored rfl rfl OptionsSample.plan (by rintro x ⟨⟩)
      OptionsSample.plan_sound plan_described (by decide +kernel)).2 ?_
    intro r hr
    rw [List.mem_singleton.1 hr]
    refine .node _ [] ⟨rfl, rfl, rfl, rfl, rfl, by simp, ?_,
      ⟨[(cs!"a", .user 10 [.ty (.simple .i64 .required 0)] .required 0)], rfl, ?_⟩, by rintro m ⟨⟩⟩ (by simp)
    · intro x hx
      rw [List.mem_singleton] at hx
      subst hx
      exact Ascii.spellable hA (by simp [Ascii])
    · intro c hc
      rw [List.mem_singleton] at hc
      subst hc
      refine ⟨Ascii.spellable hA (by simp [Ascii]), ?_⟩
      simp only [SurvivesTy, SurvivesParams, true_and, and_true]
      exact ⟨cs!"List", some 10, ⟨cs!"List", cs!"List", declared, named, rfl, rfl⟩, ⟨by decide, by decide, by decide⟩, by rintro ⟨⟩⟩
  · exact default_lost hA

end Verif
