import Verif.Proofs.Accept
import Verif.Props.Declare
import Verif.Props.Meaning
import Verif.Props.SamplePlan
/-!
# C85: exactly which texts are accepted
-/

namespace Verif

open ChunkSpec SectionSpec Grammar TreeSpec StoreSpec DeclareSpec AcceptSpec MeaningSpec

set_option autoImplicit false

variable [FTab]

/-- C85.  A text is read as the plan `p` exactly if it consists of blank lines, a version, declarations and lines of
relations, the declarations are sound, the lines are the listing of a forest, each tree of the forest means the
corresponding tree of `p`, and `p` has the version and the declarations of the text. -/
theorem C85_accepted (reg : Registry ExtArgs (List Nat)) (text : Str) (p : Plan) :
    parsePlan reg text = .ok p ↔
    ∃ ops lines forest, TextReads text p.version ops lines ∧ Sound ops ∧ lines = listings 0 forest ∧
      All2 (TopMeans (run ops) reg) forest p.rels ∧ Recorded ops p.urns p.decls := by
  unfold parsePlan
  rw [PState.parseSections_eq]
  constructor
  · intro h
    cases hr : PState.runLines (PState.init : PState planLang) (physLines text) with
    | err e => rw [hr] at h; cases h
    | panic => rw [hr] at h; cases h
    | ok st =>
      rw [hr] at h
      have h : buildPlan reg st = .ok p := h
      obtain ⟨ops, lines, h1, h2, h3, h4⟩ := (runLines_reads text _ _ _).1 ⟨st, hr, rfl, rfl, rfl⟩
      unfold buildPlan at h
      rw [h3] at h
      obtain ⟨rels, hc, rfl⟩ : ∃ rels, convPlanRels (run ops) reg st.tree.finish = .ok rels ∧
          p = ⟨st.version, (run ops).toUrns, (run ops).toDecls, rels⟩ := by
        generalize convPlanRels (run ops) reg st.tree.finish = c at h
        cases c with
        | err e => cases h
        | panic => cases h
        | ok rels => cases h; exact ⟨rels, rfl, rfl⟩
      exact ⟨ops, lines, _, h1, (C79_sound ops).1 h2, h4, (convPlanRels_means (Store.ordered_run ops) reg _ _).1 hc,
        (recorded_iff h2 _ _).2 ⟨rfl, rfl⟩⟩
  · rintro ⟨ops, lines, forest, h1, h2, h3, h4, h5⟩
    have h2 := (C79_sound ops).2 h2
    obtain ⟨st, hr, e1, e2, e3⟩ := (runLines_reads text p.version (run ops) forest).2 ⟨ops, lines, h1, h2, rfl, h3⟩
    obtain ⟨u, d⟩ := (recorded_iff h2 _ _).1 h5
    have hc := (convPlanRels_means (Store.ordered_run ops) reg _ _).2 h4
    rw [hr]
    show buildPlan reg st = .ok p
    unfold buildPlan
    rw [e1, e2, e3, hc]
    obtain ⟨_, _, _, _⟩ := p
    dsimp only at u d
    subst u d
    rfl

namespace AcceptSample

/-- Blank lines in front, spaces behind a header, a blank line between declarations and relations. -/
def text : Str :=
  cs!"\n  \n=== Extensions  \nURNs:\n  @  1: urn:a\nFunctions:\n  #  4 @  1: f\n\n=== Plan \nRoot[x]\n\n  Read[t => a:i64]  \n"

/-- What it says. -/
def plan : Plan :=
  ⟨none, [(1, cs!"urn:a")], [some (.function, 1, 4, cs!"f")],
    [.root [cs!"x"] (some (.node (.read (some ⟨some .direct, 0⟩)
      (some ⟨[cs!"a"], some ⟨[.simple .i64 .required 0], 0, .required⟩⟩) none (.named [cs!"t"] 0) none 0) []))]⟩

theorem text_reads : letI := halfTab
    parsePlan {} text = .ok plan := by
  letI := halfTab
  rfl

-- both sides of the equivalence hold for some text
example : letI := halfTab
    ∃ ops lines forest, TextReads text none ops lines ∧ Sound ops ∧ lines = listings 0 forest ∧
      All2 (TopMeans (run ops) {}) forest plan.rels ∧ Recorded ops plan.urns plan.decls :=
  letI := halfTab
  (C85_accepted {} text plan).1 text_reads

-- a plan without relations is not what the text says
example : letI := halfTab
    ¬ ∃ ops lines forest, TextReads text none ops lines ∧ Sound ops ∧ lines = listings 0 forest ∧
      All2 (TopMeans (run ops) {}) forest [] ∧ Recorded ops plan.urns plan.decls := by
  letI := halfTab
  intro h
  have h := (C85_accepted {} text ⟨none, plan.urns, plan.decls, []⟩).2 h
  rw [text_reads] at h
  cases h

-- a plan section read by hand: a continuation line belongs to the line above it
example : PlanListed [cs!"=== Plan\n", cs!"\n", cs!"Read:Virtual[\n", cs!"  - (1)\n", cs!"  - => c:i64]\n"]
    [(0, .relation (.readVirtual [[.lit ⟨.int ⟨false, 1⟩, none⟩]] none [(cs!"c", .simple cs!"i64" .required)]))] := by
  refine .some (by decide) (.blank (by decide) ?_ (.node (run := [cs!"  - (1)\n", cs!"  - => c:i64]\n"]) (ls := []) (d := 0)
    (body := cs!"Read:Virtual[\n  - (1)\n  - => c:i64]") ?_ (by simp) (by decide) (by simp) (.inl ⟨rfl, by rfl⟩) .nil))
  · intro l hl
    cases hl
    rw [show (0 : Nat) = depthOf [] from by decide, ← dash_iff]
    decide
  · intro l hl
    rw [← dash_iff]
    revert l
    decide

end AcceptSample

end Verif
