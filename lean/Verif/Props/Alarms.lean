import Verif.Proofs.TidyExact
import Verif.Props.PlanExact
/-!
C91: what is reported is lost, with two exceptions.
-/

namespace Verif
open StoreSpec TextSpec RelSpec PlanSpec RawSpec

set_option autoImplicit false

/-- C91.  If the text of a plan is read as a plan that means the same, then an error was reported exactly for declarations
that are not accepted and for what is shown and left open: nullabilities that are not given, and intervals that are too
long. -/
theorem C91_reported_exactly [UTab] [FTab] (hA : AsciiPrintable) (hF : FloatsShown) (reg : Registry ExtArgs (List Nat))
    (o : Opts) (ho : o.showEmit = false) (hi : o.indent = cs!"  ") (p : Plan) (hv : VersionOk p.version)
    (hs : Sound (run (history p))) (hd : ∀ r ∈ p.rels, DescribedTop reg r)
    (hr : ∀ s ∈ planRaw reg o p, '\n' ∉ s)
    (hb : ∃ p', parsePlan reg (textPlan reg o p).text = .ok p' ∧ PlanEquiv reg p p') :
    (textPlan reg o p).errs = [] ↔
      answers [] (history p) = [] ∧ ∀ r ∈ p.rels, ShownTidyTop ⟨run (history p), o, reg⟩ r := by
  have hk := (C90_plan_survives_iff hA hF reg o ho hi p hv hs hd hr).1 hb
  have key : ∀ r ∈ p.rels, (CompleteTop ⟨run (history p), o, reg⟩ r ↔ ShownTidyTop ⟨run (history p), o, reg⟩ r) := fun r hm =>
    top_reported (env := ⟨run (history p), o, reg⟩) (Store.ordered_run _) ho (hd r hm) (hk r hm)
  rw [textPlan_errs]
  exact ⟨fun h => ⟨h.1, fun r hm => (key r hm).1 (h.2 r hm)⟩, fun h => ⟨h.1, fun r hm => (key r hm).2 (h.2 r hm)⟩⟩

/-- C91.  So if every nullability is given and no interval is too long, a plan that is read back has no error reported but
for declarations. -/
theorem C91_read_back_unreported [UTab] [FTab] (hA : AsciiPrintable) (hF : FloatsShown) (reg : Registry ExtArgs (List Nat))
    (o : Opts) (ho : o.showEmit = false) (hi : o.indent = cs!"  ") (p : Plan) (hv : VersionOk p.version)
    (hs : Sound (run (history p))) (hd : ∀ r ∈ p.rels, DescribedTop reg r)
    (hr : ∀ s ∈ planRaw reg o p, '\n' ∉ s) (ht : TidyPlan reg o p)
    (hb : ∃ p', parsePlan reg (textPlan reg o p).text = .ok p' ∧ PlanEquiv reg p p') :
    (textPlan reg o p).errs = [] ↔ answers [] (history p) = [] := by
  rw [C91_reported_exactly hA hF reg o ho hi p hv hs hd hr hb]
  exact ⟨fun h => h.1, fun h => ⟨h, fun r hm => shownTidy_top (ht r hm)⟩⟩

/-- C91.  So any other error means that the plan is lost: its text is read as a plan that means something else, or not at
all. -/
theorem C91_reported_lost [UTab] [FTab] (hA : AsciiPrintable) (hF : FloatsShown) (reg : Registry ExtArgs (List Nat))
    (o : Opts) (ho : o.showEmit = false) (hi : o.indent = cs!"  ") (p : Plan) (hv : VersionOk p.version)
    (hs : Sound (run (history p))) (hd : ∀ r ∈ p.rels, DescribedTop reg r)
    (hr : ∀ s ∈ planRaw reg o p, '\n' ∉ s) (ht : TidyPlan reg o p) (ha : answers [] (history p) = [])
    (he : (textPlan reg o p).errs ≠ []) :
    ∀ p', parsePlan reg (textPlan reg o p).text = .ok p' → ¬ PlanEquiv reg p p' :=
  fun p' h1 h2 => he ((C91_read_back_unreported hA hF reg o ho hi p hv hs hd hr ht ⟨p', h1, h2⟩).2 ha)

namespace AlarmsSample
open TreesSample PlanExactSample

/-- Declarations as in `plan`, and a sort of one column of a table. -/
def one (n : Nul) (filter : Option Expr) (dir : EnumVal SortDir) : Plan :=
  { plan none with
    rels := [.rel (.node (.sort none [⟨some (LinesSample.fld 0), some (.direction dir)⟩] none)
      [some (.node (.read none (some ⟨[cs!"a"], some ⟨[.simple .i64 n 0], 0, .required⟩⟩) filter (.named [cs!"t"] 0) none 0) [])])] }

theorem one_version (n : Nul) (filter : Option Expr) (dir : EnumVal SortDir) : VersionOk (one n filter dir).version :=
  plan_version none

theorem one_sound (n : Nul) (filter : Option Expr) (dir : EnumVal SortDir) : Sound (run (history (one n filter dir))) :=
  plan_sound none

theorem one_described (n : Nul) (filter : Option Expr) (dir : EnumVal SortDir) :
    ∀ r ∈ (one n filter dir).rels, DescribedTop sampleReg r := by
  intro r hr
  simp only [one, List.mem_cons, List.not_mem_nil, or_false] at hr
  subst hr
  refine .node _ _ rfl (by simp [Countable, widths, width, directWidth, outWidth, common, shown, mapping, identity]) ?_
  intro r hr
  simp only [List.mem_cons, List.not_mem_nil, or_false, Option.some.injEq] at hr
  subst hr
  exact .node _ _ rfl (by simp [Countable, widths, directWidth, outWidth, common, shown, mapping, identity]) (by simp)

theorem one_tidy : ∀ (filter : Option Expr) (dir : EnumVal SortDir), TidyPlan sampleReg .default (one .nullable filter dir) := by
  intro filter dir r hr
  simp only [one, List.mem_cons, List.not_mem_nil, or_false] at hr
  subst hr
  simp [TidyTop, TidyRel, TidyRels, TidyOp, TidyAdv, TidyRead, TidyExprOpt, TidyExpr, LinesSample.fld, TidyTy]

theorem one_survives [UTab] [FTab] (hA : AsciiPrintable) (n : Nul) (env : Env) :
    ∀ r ∈ (one n none (.known .descNullsLast)).rels, SurvivesTop env r := by
  intro r hr
  simp only [one, List.mem_cons, List.not_mem_nil, or_false] at hr
  subst hr
  refine .node _ [_] ⟨rfl, rfl, by simp, ?_, ?_⟩ ?_
  · intro f hf
    rw [List.mem_singleton] at hf
    subst hf
    exact ⟨_, .descNullsLast, rfl, by simp [LinesSample.fld, SurvivesExpr, InI32], by decide, by decide⟩
  · simp [Among, shown, mapping, identity, width, outWidth, directWidth, common]
  · intro r hr
    rw [List.mem_singleton] at hr
    subst hr
    refine .node _ [] ⟨rfl, rfl, rfl, rfl, rfl, by simp, ?_, ⟨[(cs!"a", .simple .i64 n 0)], rfl, ?_⟩, by rintro m ⟨⟩⟩ (by simp)
    · intro x hx
      rw [List.mem_singleton] at hx
      subst hx
      exact Ascii.spellable hA (by simp [Ascii])
    · intro c hc
      rw [List.mem_singleton] at hc
      subst hc
      exact ⟨Ascii.spellable hA (by simp [Ascii]), by simp [SurvivesTy]⟩

theorem one_complete [UTab] [FTab] {n : Nul} {filter : Option Expr} {dir : EnumVal SortDir} :
    (textPlan sampleReg .default (one n filter dir)).errs = [] ↔ n ≠ .unspecified ∧ ∃ d, dir = .known d ∧ d ≠ .unspecified := by
  have ha : answers [] (history (plan none)) = [] := by decide +kernel
  have hh : history (one n filter dir) = history (plan none) := rfl
  rw [textPlan_errs]
  unfold CompletePlan
  rw [hh]
  simp only [ha, true_and, one, List.mem_singleton, forall_eq]
  simp [CompleteTop, CompleteRel, CompleteRels, ArgumentsComplete, AdvComplete, payloads, LinesSample.fld, CompleteExprOpt,
    CompleteExpr, HasInputs, ColumnsShown, opMapping, common, mapping, directColumns, refColumns, schemaColumns, typesOf,
    CompleteTy, VariationOk, NulSet]
  exact ⟨fun h => ⟨h.2 _ Iff.rfl, h.1⟩, fun h => ⟨h.2, fun p hp => hp.2 h.1⟩⟩

/-- A plan that is read back and of which nothing is reported, -/
example [UTab] (hA : AsciiPrintable) : letI := halfTab
    (textPlan sampleReg .default (one .nullable none (.known .descNullsLast))).errs = [] := by
  letI := halfTab
  refine (C91_read_back_unreported hA halfTab_shown sampleReg .default rfl rfl _ (one_version _ _ _) (one_sound _ _ _)
    (one_described _ _ _) (by decide +kernel) (one_tidy _ _) ?_).2 (by decide +kernel)
  exact (C90_plan_survives_iff hA halfTab_shown sampleReg .default rfl rfl _ (one_version _ _ _) (one_sound _ _ _)
    (one_described _ _ _) (by decide +kernel)).2 (one_survives hA _ _)

/-- and one of which something is reported and that is lost. -/
example [UTab] (hA : AsciiPrintable) : letI := halfTab
    ∀ p', parsePlan sampleReg (textPlan sampleReg .default (one .nullable none (.unknown 9))).text = .ok p' →
      ¬ PlanEquiv sampleReg (one .nullable none (.unknown 9)) p' := by
  letI := halfTab
  refine C91_reported_lost hA halfTab_shown sampleReg .default rfl rfl _ (one_version _ _ _) (one_sound _ _ _)
    (one_described _ _ _) (by decide +kernel) (one_tidy _ _) (by decide +kernel) ?_
  rw [Ne, one_complete]
  rintro ⟨-, d, h, -⟩
  cases h

end AlarmsSample

open AlarmsSample PlanExactSample in
/-- C91.  A nullability that is not given is reported although the plan is read back: a false alarm. -/
theorem C91_false_alarm [UTab] (hA : AsciiPrintable) : letI := halfTab
    ∃ p : Plan, (textPlan sampleReg .default p).errs ≠ [] ∧
      ∃ p', parsePlan sampleReg (textPlan sampleReg .default p).text = .ok p' ∧ PlanEquiv sampleReg p p' := by
  letI := halfTab
  refine ⟨one .unspecified none (.known .descNullsLast), ?_, ?_⟩
  · rw [Ne, one_complete]
    exact fun h => h.1 rfl
  · exact (C90_plan_survives_iff hA halfTab_shown sampleReg .default rfl rfl _ (one_version _ _ _) (one_sound _ _ _)
      (one_described _ _ _) (by decide +kernel)).2 (one_survives hA _ _)

open AlarmsSample PlanExactSample in
/-- C91.  The converse fails: the filter of a read is lost and nothing is reported. -/
theorem C91_lost_unreported [UTab] (hA : AsciiPrintable) : letI := halfTab
    ∃ p : Plan, TidyPlan sampleReg .default p ∧ (textPlan sampleReg .default p).errs = [] ∧
      ¬ ∃ p', parsePlan sampleReg (textPlan sampleReg .default p).text = .ok p' ∧ PlanEquiv sampleReg p p' := by
  letI := halfTab
  refine ⟨one .nullable (some (LinesSample.fld 0)) (.known .descNullsLast), one_tidy _ _, ?_, ?_⟩
  · rw [one_complete]
    exact ⟨by decide, _, rfl, by decide⟩
  · rw [C90_plan_survives_iff hA halfTab_shown sampleReg .default rfl rfl _ (one_version _ _ _) (one_sound _ _ _)
      (one_described _ _ _) (by decide +kernel)]
    intro h
    have h := h _ (List.mem_singleton.2 rfl)
    generalize hx : Rel.node (.sort none _ none) _ = x at h
    cases h with
    | node op ins _ h2 =>
      simp only [Rel.node.injEq] at hx
      have hm : some (Rel.node (.read none (some ⟨[cs!"a"], some ⟨[.simple .i64 .nullable 0], 0, .required⟩⟩)
          (some (LinesSample.fld 0)) (.named [cs!"t"] 0) none 0) []) ∈ ins.map some := hx.2 ▸ List.mem_singleton.2 rfl
      obtain ⟨r, hr, he⟩ := List.mem_map.1 hm
      have h3 := h2 r hr
      rw [Option.some.inj he] at h3
      generalize hy : Rel.node (.read ..) [] = y at h3
      cases h3 with
      | node op2 ins2 h4 _ =>
        simp only [Rel.node.injEq] at hy
        rw [← hy.1] at h4
        obtain ⟨-, -, -, -, h5, -⟩ := h4
        cases h5

end Verif
