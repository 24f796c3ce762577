import Verif.Proofs.Parts
import Verif.Props.PlanExact
/-!
C94: parts of plans.
-/

namespace Verif
open StoreSpec TextSpec RelSpec PlanSpec RawSpec

set_option autoImplicit false

/-- C94.  If a plan is read back, then so is every part of it, as a plan of its own with the same declarations. -/
theorem C94_parts_read_back [UTab] [FTab] (hA : AsciiPrintable) (hF : FloatsShown) (reg : Registry ExtArgs (List Nat))
    (o : Opts) (ho : o.showEmit = false) (hi : o.indent = cs!"  ") (p : Plan) (hv : VersionOk p.version)
    (hs : Sound (run (history p))) (hd : ∀ r ∈ p.rels, DescribedTop reg r)
    (hr : ∀ s ∈ planRaw reg o p, '\n' ∉ s)
    (hb : ∃ p', parsePlan reg (textPlan reg o p).text = .ok p' ∧ PlanEquiv reg p p')
    (top : PlanRel) (hm : top ∈ p.rels) (s : Rel) (hp : PartOfTop s top) :
    ∃ p', parsePlan reg (textPlan reg o { p with rels := [.rel s] }).text = .ok p' ∧ PlanEquiv reg { p with rels := [.rel s] } p' := by
  rw [C90_plan_survives_iff hA hF reg o ho hi p hv hs hd hr] at hb
  refine (C90_plan_survives_iff hA hF reg o ho hi { p with rels := [.rel s] } hv hs ?_ ?_).2 ?_
  · rw [List.forall_mem_singleton]
    exact describedTop_part hp (hd _ hm)
  · exact fun x hx => hr x (planRaw_part hm hp x hx)
  · rw [List.forall_mem_singleton]
    exact survivesTop_part hp (hb _ hm)

/-- C94.  In a plan that is read back, a part may be replaced by another one with as many columns: the plan is still read
back exactly if the other part is, as a plan of its own. -/
theorem C94_parts_replaced [UTab] [FTab] (hA : AsciiPrintable) (hF : FloatsShown) (reg : Registry ExtArgs (List Nat))
    (o : Opts) (ho : o.showEmit = false) (hi : o.indent = cs!"  ") (p : Plan) (hv : VersionOk p.version)
    (hs : Sound (run (history p))) (before after : List PlanRel) (top top' : PlanRel) (hm : p.rels = before ++ top :: after)
    (s s' : Rel) (hp : SwappedTop s s' top top') (hw : width reg s' = width reg s)
    (hd : ∀ r ∈ p.rels, DescribedTop reg r) (hd' : DescribedTop reg top')
    (hr : ∀ x ∈ planRaw reg o p, '\n' ∉ x) (hr' : ∀ x ∈ planRaw reg o { p with rels := before ++ top' :: after }, '\n' ∉ x)
    (hb : ∃ p', parsePlan reg (textPlan reg o p).text = .ok p' ∧ PlanEquiv reg p p') :
    (∃ p', parsePlan reg (textPlan reg o { p with rels := before ++ top' :: after }).text = .ok p' ∧
        PlanEquiv reg { p with rels := before ++ top' :: after } p') ↔
      ∃ p', parsePlan reg (textPlan reg o { p with rels := [.rel s'] }).text = .ok p' ∧ PlanEquiv reg { p with rels := [.rel s'] } p' := by
  have hd2 : ∀ r ∈ before ++ top' :: after, DescribedTop reg r := by
    intro r h
    rcases List.mem_append.1 h with h | h
    · exact hd r (by simp [hm, h])
    · rcases List.mem_cons.1 h with rfl | h
      · exact hd'
      · exact hd r (by simp [hm, h])
  constructor
  · intro h
    exact C94_parts_read_back hA hF reg o ho hi { p with rels := before ++ top' :: after } hv hs hd2 hr' h top' (by simp) s'
      (partOfTop_swapped hp)
  · intro h
    rw [C90_plan_survives_iff hA hF reg o ho hi p hv hs hd hr] at hb
    have h2 := (C90_plan_survives_iff hA hF reg o ho hi { p with rels := [.rel s'] } hv hs (by
      rw [List.forall_mem_singleton]
      exact describedTop_part (partOfTop_swapped hp) hd') (fun x hx =>
        hr' x (planRaw_part (p := { p with rels := before ++ top' :: after }) (r := top') (by simp) (partOfTop_swapped hp) x hx))).1 h
    rw [List.forall_mem_singleton] at h2
    refine (C90_plan_survives_iff hA hF reg o ho hi { p with rels := before ++ top' :: after } hv hs hd2 hr').2 ?_
    intro r h
    rcases List.mem_append.1 h with h | h
    · exact hb r (by simp [hm, h])
    · rcases List.mem_cons.1 h with rfl | h
      · exact survivesTop_swap hw h2 hp (hb top (by simp [hm]))
      · exact hb r (by simp [hm, h])

namespace PartsSample
open TreesSample LinesSample

/-- A table of one column. -/
def narrow : Rel := .node (.read none (some ⟨[cs!"a"], some ⟨[.simple .i64 .nullable 0], 0, .required⟩⟩) none (.named [cs!"n"] 0) none 0) []

/-- Its columns exchanged by a filter. -/
def exchanged (r : Rel) : Rel := .node (.filter (some ⟨some (.emit [1, 0]), 0⟩) (some (fld 1)) none) [some r]

/-- A plan without declarations. -/
def plan (r : Rel) : Plan where
  version := none
  urns := []
  decls := []
  rels := [.rel r]

theorem plan_sound (r : Rel) : Sound (run (history (plan r))) := by
  have h1 : (run (history (plan r))).urns = [] := rfl
  have h2 : (run (history (plan r))).exts = [] := rfl
  exact ⟨by rw [h1]; simp, by rw [h2]; simp, by rw [h2]; simp⟩

theorem narrow_described : DescribedTree sampleReg narrow :=
  .node _ _ rfl (by simp [Countable, widths, directWidth, outWidth, common, shown, mapping, identity]) (by simp)

theorem exchanged_described {r : Rel} (h : DescribedTree sampleReg r) (hw : width sampleReg r ≤ 2) : DescribedTree sampleReg (exchanged r) := by
  refine .node _ _ rfl ?_ (by simpa using h)
  simp [Countable, widths, directWidth, outWidth, common, shown, mapping, identity]
  omega

theorem narrow_survives [UTab] [FTab] (hA : AsciiPrintable) (env : Env) : SurvivesTree env narrow :=
  .node _ [] ⟨rfl, rfl, rfl, rfl, rfl, by simp, by
    intro n hn
    rw [List.mem_singleton] at hn
    subst hn
    exact Ascii.spellable hA (by simp [Ascii]), ⟨[(cs!"a", .simple .i64 .nullable 0)], rfl, by
      intro c hc
      rw [List.mem_singleton] at hc
      subst hc
      exact ⟨Ascii.spellable hA (by simp [Ascii]), by simp [SurvivesTy]⟩⟩, by rintro m ⟨⟩⟩ (by simp)

theorem exchanged_survives [UTab] [FTab] (hA : AsciiPrintable) (env : Env) : SurvivesTree env (exchanged table) :=
  .node _ [table] ⟨rfl, rfl, ⟨_, rfl, fld_ok _ _⟩, by simp [Among, shown, mapping, table_width]⟩ (by simpa using table_survives hA env)

/-- The table below the filter is read back, and may be replaced by the filter. -/
example [UTab] (hA : AsciiPrintable) : letI := halfTab
    ∃ p', parsePlan sampleReg (textPlan sampleReg .default (plan (exchanged (exchanged table)))).text = .ok p' ∧
      PlanEquiv sampleReg (plan (exchanged (exchanged table))) p' := by
  letI := halfTab
  have hw : width sampleReg (exchanged table) = 2 := by
    simp [exchanged, width, widths, table_width, outWidth, directWidth, common, shown, mapping]
  have h1 : ∀ r ∈ (plan (exchanged table)).rels, DescribedTop sampleReg r := by
    intro r hr
    rw [List.mem_singleton.1 hr]
    exact exchanged_described (table_described _) (Nat.le_of_eq (table_width _))
  have hb := (C90_plan_survives_iff hA halfTab_shown sampleReg .default rfl rfl (plan (exchanged table)) (by rintro x ⟨⟩) (plan_sound _)
    h1 (by decide +kernel)).2 (by
      intro r hr
      rw [List.mem_singleton.1 hr]
      exact exchanged_survives hA _)
  exact (C94_parts_replaced hA halfTab_shown sampleReg .default rfl rfl (plan (exchanged table)) (by rintro x ⟨⟩) (plan_sound _)
    [] [] _ (.rel (exchanged (exchanged table))) rfl table (exchanged table) (.rel _ _ (.inside _ [] [] _ _ .here))
    (by rw [hw, table_width]) h1 (exchanged_described (exchanged_described (table_described _) (Nat.le_of_eq (table_width _))) (Nat.le_of_eq hw))
    (by decide +kernel) (by decide +kernel) hb).2 hb

end PartsSample

open PartsSample TreesSample in
/-- C94.  The numbers of columns have to be the same: a table with fewer columns, read back by itself, loses a plan when it
takes the place of another table. -/
theorem C94_width_matters [UTab] (hA : AsciiPrintable) : letI := halfTab
    ∃ s s' r r' : Rel, Swapped s s' r r' ∧
      (∃ p', parsePlan sampleReg (textPlan sampleReg .default ⟨none, [], [], [.rel r]⟩).text = .ok p' ∧
        PlanEquiv sampleReg ⟨none, [], [], [.rel r]⟩ p') ∧
      (∃ p', parsePlan sampleReg (textPlan sampleReg .default ⟨none, [], [], [.rel s']⟩).text = .ok p' ∧
        PlanEquiv sampleReg ⟨none, [], [], [.rel s']⟩ p') ∧
      ¬ ∃ p', parsePlan sampleReg (textPlan sampleReg .default ⟨none, [], [], [.rel r']⟩).text = .ok p' ∧
        PlanEquiv sampleReg ⟨none, [], [], [.rel r']⟩ p' := by
  letI := halfTab
  have hn : width sampleReg narrow = 1 := by
    simp [narrow, width, outWidth, directWidth, common, shown, mapping, identity]
  refine ⟨table, narrow, exchanged table, exchanged narrow, .inside _ [] [] _ _ .here, ?_, ?_, ?_⟩
  · refine (C90_plan_survives_iff hA halfTab_shown sampleReg .default rfl rfl (PartsSample.plan (exchanged table)) (by rintro x ⟨⟩)
      (PartsSample.plan_sound _) ?_ (by decide +kernel)).2 ?_
    · intro r hr
      rw [List.mem_singleton.1 hr]
      exact exchanged_described (table_described _) (Nat.le_of_eq (table_width _))
    · intro r hr
      rw [List.mem_singleton.1 hr]
      exact exchanged_survives hA _
  · refine (C90_plan_survives_iff hA halfTab_shown sampleReg .default rfl rfl (PartsSample.plan narrow) (by rintro x ⟨⟩)
      (PartsSample.plan_sound _) ?_ (by decide +kernel)).2 ?_
    · intro r hr
      rw [List.mem_singleton.1 hr]
      exact narrow_described
    · intro r hr
      rw [List.mem_singleton.1 hr]
      exact narrow_survives hA _
  · intro hb
    have h := (C90_plan_survives_iff hA halfTab_shown sampleReg .default rfl rfl (PartsSample.plan (exchanged narrow)) (by rintro x ⟨⟩)
      (PartsSample.plan_sound _) (by
        intro r hr
        rw [List.mem_singleton.1 hr]
        exact exchanged_described narrow_described (by rw [hn]; decide)) (by decide +kernel)).1 hb _ (List.mem_singleton.2 rfl)
    obtain ⟨inputs, h1, h2, -⟩ := survives_node h
    have hi : inputs = [narrow] := by
      have := congrArg (·.filterMap id) h1
      simpa using this.symm
    subst hi
    have h3 := h2.2.2.2
    simp [Among, shown, mapping, hn] at h3

end Verif
