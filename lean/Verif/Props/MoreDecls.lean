import Verif.Proofs.MoreDecls
import Verif.Props.OptionsExact
/-!
C93: further declarations do no harm.
-/

namespace Verif
open StoreSpec TextSpec RelSpec PlanSpec RawSpec

set_option autoImplicit false

/-- C93.  If a plan is read back, so is one with the same relations and further declarations, whatever their names, unless
anchors are never shown. -/
theorem C93_more_declarations_harmless [UTab] [FTab] (hA : AsciiPrintable) (hF : FloatsShown) (reg : Registry ExtArgs (List Nat))
    (o : Opts) (ho : o.showEmit = false) (hi : o.indent = cs!"  ") (hn : o.anchors ≠ .never) (p q : Plan) (hq : q.rels = p.rels)
    (hv : VersionOk p.version) (hv' : VersionOk q.version)
    (hs : Sound (run (history p))) (hs' : Sound (run (history q)))
    (he : ∀ k a n, Declared (run (history p)) k a n → Declared (run (history q)) k a n)
    (hd : ∀ r ∈ p.rels, DescribedTop reg r)
    (hr : ∀ s ∈ planRaw reg o p, '\n' ∉ s) (hr' : ∀ s ∈ planRaw reg o q, '\n' ∉ s)
    (hb : ∃ p', parsePlan reg (textPlan reg o p).text = .ok p' ∧ PlanEquiv reg p p') :
    ∃ q', parsePlan reg (textPlan reg o q).text = .ok q' ∧ PlanEquiv reg q q' := by
  rw [C90_plan_survives_iff hA hF reg o ho hi p hv hs hd hr] at hb
  rw [C90_plan_survives_iff hA hF reg o ho hi q hv' hs' (by rw [hq]; exact hd) hr', hq]
  exact fun r hm => survivesTop_keeps (keeps_more (Store.ordered_run _) hs' he hn) (hb r hm)

namespace MoreSample

/-- A table with a column of the type `u`, and as many types of that name as there are anchors. -/
def plan (anchors : List Nat) : Plan where
  version := none
  urns := [(1, cs!"extension:x:y")]
  decls := anchors.map fun a => some (.type, 1, a, cs!"u")
  rels := [.rel (.node (.read none (some ⟨[cs!"a"], some ⟨[.user 10 [] .required 0], 0, .required⟩⟩) none
    (.named [cs!"t"] 0) none 0) [])]

theorem exts1 : (run (history (plan [10]))).exts = [((10, .type), (1, cs!"u"))] := by decide +kernel
theorem exts2 : (run (history (plan [10, 11]))).exts = [((10, .type), (1, cs!"u")), ((11, .type), (1, cs!"u"))] := by decide +kernel
theorem urns1 : (run (history (plan [10]))).urns = [(1, cs!"extension:x:y")] := by decide +kernel
theorem urns2 : (run (history (plan [10, 11]))).urns = [(1, cs!"extension:x:y")] := by decide +kernel

theorem sound_of {s : Store} (h1 : s.urns = [(1, cs!"extension:x:y")]) (h2 : ∀ e ∈ s.exts, e.1.1 < 2 ^ 32 ∧ e.1.2 = .type ∧ e.2 = (1, cs!"u")) :
    Sound s := by
  refine ⟨?_, ?_, ?_⟩
  · rw [h1]
    intro e he
    rw [List.mem_singleton] at he
    subst he
    refine ⟨by decide, by decide, by decide, by decide, ?_⟩
    intro c hc
    simp at hc
    subst hc
    decide
  · intro e he
    obtain ⟨h3, h4, h5⟩ := h2 e he
    refine ⟨h3, ?_⟩
    rw [h4, h5]
    show isIdentifier cs!"u" = true
    decide
  · rw [h1]
    intro e he
    rw [(h2 e he).2.2]
    exact ⟨cs!"extension:x:y", List.mem_singleton.2 rfl⟩

theorem sound1 : Sound (run (history (plan [10]))) := sound_of urns1 (by rw [exts1]; decide)
theorem sound2 : Sound (run (history (plan [10, 11]))) := sound_of urns2 (by rw [exts2]; decide)

theorem more : ∀ k a n, Declared (run (history (plan [10]))) k a n → Declared (run (history (plan [10, 11]))) k a n := by
  intro k a n h
  obtain ⟨u, hu⟩ := (Store.declared_iff (Store.ordered_run _)).1 h
  refine (Store.declared_iff (Store.ordered_run _)).2 ⟨u, ?_⟩
  rw [exts1] at hu
  rw [exts2]
  simp at hu ⊢
  exact .inl hu

theorem described (l : List Nat) : ∀ r ∈ (plan l).rels, DescribedTop sampleReg r := by
  intro r hr
  rw [List.mem_singleton.1 hr]
  exact .node _ _ rfl (by simp [Countable, widths, directWidth, outWidth, common, shown, mapping, identity]) (by simp)

theorem named : BareName cs!"u" cs!"u" := ⟨by decide, .inl rfl⟩

theorem declared1 : Declared (run (history (plan [10]))) .type 10 cs!"u" := ⟨1, by decide +kernel⟩

theorem alone : ¬ Twin (run (history (plan [10]))) .type 10 cs!"u" := by
  rintro ⟨g, hg, ht⟩
  obtain ⟨u, hu⟩ := (Store.declared_iff (Store.ordered_run _)).1 ht
  rw [exts1, List.mem_singleton] at hu
  simp only [Prod.mk.injEq] at hu
  exact hg hu.1.1

theorem survives [UTab] [FTab] (hA : AsciiPrintable) (o : Opts) (ho : o.anchors ≠ .always) :
    ∀ r ∈ (plan [10]).rels, SurvivesTop ⟨run (history (plan [10])), o, sampleReg⟩ r := by
  intro r hr
  rw [List.mem_singleton.1 hr]
  refine .node _ [] ⟨rfl, rfl, rfl, rfl, rfl, by simp, ?_, ⟨[(cs!"a", .user 10 [] .required 0)], rfl, ?_⟩, by rintro m ⟨⟩⟩ (by simp)
  · intro x hx
    rw [List.mem_singleton] at hx
    subst hx
    exact Ascii.spellable hA (by simp [Ascii])
  · intro c hc
    rw [List.mem_singleton] at hc
    subst hc
    refine ⟨Ascii.spellable hA (by simp [Ascii]), ?_⟩
    simp only [SurvivesTy, SurvivesParams, true_and, and_true]
    refine ⟨cs!"u", none, ⟨cs!"u", cs!"u", declared1, named, ?_⟩, ⟨by decide, by decide, declared1, alone⟩, fun _ h => ?_⟩
    · cases hv : o.anchors with
      | always => exact absurd hv ho
      | never => exact ⟨rfl, rfl⟩
      | required => exact ⟨rfl, .inr ⟨alone, rfl⟩⟩
    · revert h
      simp only [LooksBuiltIn]
      decide

/-- The plan with two types of the same name is read back, as the one with one of them is. -/
example [UTab] (hA : AsciiPrintable) : letI := halfTab
    ∃ q', parsePlan sampleReg (textPlan sampleReg .default (plan [10, 11])).text = .ok q' ∧ PlanEquiv sampleReg (plan [10, 11]) q' := by
  letI := halfTab
  refine C93_more_declarations_harmless hA halfTab_shown sampleReg .default rfl rfl (by decide) (plan [10]) (plan [10, 11]) rfl
    (by rintro x ⟨⟩) (by rintro x ⟨⟩) sound1 sound2 more (described _) (by decide +kernel) (by decide +kernel) ?_
  exact (C90_plan_survives_iff hA halfTab_shown sampleReg .default rfl rfl (plan [10]) (by rintro x ⟨⟩) sound1 (described _)
    (by decide +kernel)).2 (survives hA _ (by decide))

/-- Anchors never shown. -/
def hidden : Opts := { Opts.default with anchors := .never }

end MoreSample

open MoreSample in
/-- C93.  If anchors are never shown, a further declaration can lose the plan. -/
theorem C93_hidden_anchors_harmed [UTab] (hA : AsciiPrintable) : letI := halfTab
    ∃ p q : Plan, q.rels = p.rels ∧ (∀ k a n, Declared (run (history p)) k a n → Declared (run (history q)) k a n) ∧
      (∃ p', parsePlan sampleReg (textPlan sampleReg { Opts.default with anchors := .never } p).text = .ok p' ∧
        PlanEquiv sampleReg p p') ∧
      ¬ ∃ q', parsePlan sampleReg (textPlan sampleReg { Opts.default with anchors := .never } q).text = .ok q' ∧
        PlanEquiv sampleReg q q' := by
  letI := halfTab
  refine ⟨plan [10], plan [10, 11], rfl, more, ?_, fun hb => ?_⟩
  · exact (C90_plan_survives_iff hA halfTab_shown sampleReg hidden rfl rfl (plan [10]) (by rintro x ⟨⟩) sound1 (described _)
      (by decide +kernel)).2 (survives hA _ (by decide))
  · have h := (C90_plan_survives_iff hA halfTab_shown sampleReg hidden rfl rfl (plan [10, 11]) (by rintro x ⟨⟩) sound2 (described _)
      (by decide +kernel)).1 hb
    have h := h _ (List.mem_singleton.2 rfl)
    generalize hx : Rel.node _ [] = x at h
    cases h with
    | node op ins h2 _ =>
      simp only [Rel.node.injEq] at hx
      rw [← hx.1] at h2
      obtain ⟨-, -, -, -, -, -, -, ⟨cols, h3, h4⟩, -⟩ := h2
      simp only [Option.some.injEq, NamedStruct.mk.injEq, StructTy.mk.injEq] at h3
      have hm : Ty.user 10 [] .required 0 ∈ cols.map (·.2) := by
        rw [← h3.2.1]
        exact List.mem_singleton.2 rfl
      obtain ⟨c, hc, he⟩ := List.mem_map.1 hm
      have h5 := (h4 c hc).2
      rw [he, SurvivesTy] at h5
      obtain ⟨-, ⟨nm, a, ⟨n, b, d1, d2, d3, d4⟩, d5, -⟩, -⟩ := h5
      subst d3
      subst d4
      have hn := Store.declared_unique d5.2.2.1 (more _ _ _ declared1)
      subst hn
      exact d5.2.2.2 ⟨11, by decide, (Store.declared_iff (Store.ordered_run _)).2 ⟨1, by rw [exts2]; simp⟩⟩

namespace FewerSample

/-- A table with a column of the user-defined type `List` with one parameter, and types of that name. -/
def plan (anchors : List Nat) : Plan where
  version := none
  urns := [(1, cs!"extension:x:y")]
  decls := anchors.map fun a => some (.type, 1, a, cs!"List")
  rels := [.rel (.node (.read none (some ⟨[cs!"a"], some ⟨[.user 10 [.ty (.simple .i64 .required 0)] .required 0], 0, .required⟩⟩) none
    (.named [cs!"t"] 0) none 0) [])]

theorem exts2 : (run (history (plan [10, 11]))).exts = [((10, .type), (1, cs!"List")), ((11, .type), (1, cs!"List"))] := by
  decide +kernel

theorem declared2 {a : Nat} (h : a = 10 ∨ a = 11) : Declared (run (history (plan [10, 11]))) .type a cs!"List" :=
  (Store.declared_iff (Store.ordered_run _)).2 ⟨1, by rw [exts2]; rcases h with rfl | rfl <;> simp⟩

theorem sound2 : Sound (run (history (plan [10, 11]))) := by
  have h1 : (run (history (plan [10, 11]))).urns = [(1, cs!"extension:x:y")] := by decide +kernel
  refine ⟨?_, ?_, ?_⟩
  · rw [h1, ← OptionsSample.plan_urns]
    exact OptionsSample.plan_sound.urns
  · intro e he
    rw [exts2] at he
    have h2 : e.1.1 < 2 ^ 32 ∧ e.1.2 = .type ∧ e.2 = (1, cs!"List") := by
      revert e
      decide
    refine ⟨h2.1, ?_⟩
    rw [h2.2.1, h2.2.2]
    show isIdentifier cs!"List" = true
    decide
  · intro e he
    rw [exts2] at he
    have h2 : e.2 = (1, cs!"List") := by
      revert e
      decide
    rw [h1, h2]
    exact ⟨cs!"extension:x:y", List.mem_singleton.2 rfl⟩

end FewerSample

open FewerSample in
/-- C93.  With fewer declarations less may survive, even if no relation refers to what is taken away: of two types named
`List` the one in use is shown with its anchor; of one it is not, and is then read as the built-in type. -/
theorem C93_fewer_may_harm [UTab] (hA : AsciiPrintable) : letI := halfTab
    ∃ p q : Plan, q.rels = p.rels ∧ (∀ k a n, Declared (run (history q)) k a n → Declared (run (history p)) k a n) ∧
      Declared (run (history q)) .type 10 cs!"List" ∧
      (∃ p', parsePlan sampleReg (textPlan sampleReg .default p).text = .ok p' ∧ PlanEquiv sampleReg p p') ∧
      ¬ ∃ q', parsePlan sampleReg (textPlan sampleReg .default q).text = .ok q' ∧ PlanEquiv sampleReg q q' := by
  letI := halfTab
  refine ⟨FewerSample.plan [10, 11], OptionsSample.plan, rfl, ?_, OptionsSample.declared, ?_, OptionsSample.default_lost hA⟩
  · intro k a n h
    obtain ⟨u, hu⟩ := (Store.declared_iff (Store.ordered_run _)).1 h
    rw [OptionsSample.plan_exts] at hu
    simp at hu
    obtain ⟨⟨rfl, rfl⟩, -, rfl⟩ := hu
    exact declared2 (.inl rfl)
  · refine (C90_plan_survives_iff hA halfTab_shown sampleReg .default rfl rfl (FewerSample.plan [10, 11]) (by rintro x ⟨⟩)
      FewerSample.sound2 OptionsSample.plan_described (by decide +kernel)).2 ?_
    intro r hr
    rw [List.mem_singleton.1 hr]
    refine .node _ [] ⟨rfl, rfl, rfl, rfl, rfl, by simp, ?_,
      ⟨[(cs!"a", .user 10 [.ty (.simple .i64 .required 0)] .required 0)], rfl, ?_⟩, by rintro m ⟨⟩⟩ (by simp)
    · intro x hx
      rw [List.mem_singleton] at hx
      subst hx
      exact Ascii.spellable hA (by simp [Ascii])
    · intro c hc
      rw [List.mem_singleton] at hc
      subst hc
      refine ⟨Ascii.spellable hA (by simp [Ascii]), ?_⟩
      simp only [SurvivesTy, SurvivesParams, true_and, and_true]
      exact ⟨cs!"List", some 10, ⟨cs!"List", cs!"List", declared2 (.inl rfl), OptionsSample.named, rfl,
        .inl ⟨⟨11, by decide, declared2 (.inr rfl)⟩, rfl⟩⟩, ⟨by decide, by decide, by decide⟩, by rintro ⟨⟩⟩

end Verif
