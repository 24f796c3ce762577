import Verif.Proofs.TreeText
import Verif.Props.Tree
import Verif.Props.Store
import Verif.Props.ExtSection
import Verif.Props.RelConv
/-!
# The text of a plan, read back
-/

namespace Verif
open ChunkSpec SectionSpec RelSpec StoreSpec TextSpec TreeSpec PlanSpec

set_option autoImplicit false

variable [UTab] [FTab]

omit [FTab] in
theorem pRoot_text (names : List Str) (h : ∀ n ∈ names, Spellable n) :
    pRoot (cs!"Root[" ++ (joinS cs!", " (names.map showName) ++ cs!"]")) = some (.root names, []) := by
  have hi := pSep_items (sep := spCommaSp) (p := pName) (F := NextNot isIdentChar) (names.map fun n => (showName n, n)) cs!"]"
    (by
      intro i hi
      obtain ⟨n, hn, rfl⟩ := List.mem_map.1 hi
      exact ⟨by have := showName_starts n []; rwa [List.append_nil] at this, fun rest hr => pName_spelled (h n hn) hr⟩)
    spCommaSp_join (fun r => (nextNot_cons _ _ _).2 (by decide)) ((nextNot_cons _ _ _).2 (by decide))
    (fun n => by cases n <;> simp [pStarN, spCommaSp_stop])
    (pName_none (by decide) (by decide))
  simp only [List.map_map, Function.comp_def, List.map_id'] at hi
  unfold pRoot
  rw [lit_append]
  simp only [Option.bind_eq_bind, Option.bind_some]
  rw [hi]
  rfl

omit [FTab] in
theorem rootBlock (names : List Str) (h : ∀ n ∈ names, Spellable n) :
    IsBlock planLang 0 (.relation (.root names)) (cs!"Root[" ++ (joinS cs!", " (names.map showName) ++ cs!"]")) := by
  have hf : Flat (joinS cs!", " (names.map showName)) := by
    apply flat_joinS (by decide)
    intro x hx
    obtain ⟨n, -, rfl⟩ := List.mem_map.1 hx
    exact flat_showName n
  refine ⟨⟨'R', cs!"oot[" ++ (joinS cs!", " (names.map showName) ++ cs!"]"), [], rfl, by decide, by decide, by decide,
    by simp [hf], by simp⟩, ⟨cs!"Root[" ++ joinS cs!", " (names.map showName), by simp⟩, _, rfl, ?_⟩
  rw [if_pos rfl]
  have hp := pRoot_text names h
  show topLine (cs!"Root[" ++ (joinS cs!", " (names.map showName) ++ cs!"]")) = _
  unfold topLine
  rw [hp]
  rfl

/-- A relation at the top of a plan whose text reads back as an equivalent one. -/
def TopRT (env : Env) (r : PlanRel) : Prop :=
  ∃ (node : RNode SLine SAddendum) (r' : PlanRel), convPlanRel env.st env.reg node = .ok r' ∧ (TopEquiv env.reg r r' ∧ NeatTopTo env.reg r r') ∧
    PlanBlocks (textPlanRel env r).text (listing 0 node)

theorem topRT (hA : AsciiPrintable) {env : Env} (hst : env.st.Ordered) (ho : Readable env.o) {r : PlanRel}
    (h : TopOk env r) : TopRT env r := by
  cases r with
  | rel r =>
    obtain ⟨node, r', h1, h2, -, h3⟩ := treeRT hA hst ho h
    refine ⟨node, .rel r', ?_, ⟨.rel _ _ h2.1, h2.2⟩, h3 0⟩
    obtain ⟨line, as, kids⟩ := node
    have hline : ∀ n, line ≠ .root n := by
      rintro n rfl
      exact (C53_root_conditions env.st env.reg).2.2.2.2 n as kids _ h1
    unfold convPlanRel
    split
    · rename_i heq
      simp only [RNode.mk.injEq] at heq
      exact absurd heq.1 (hline _)
    · rw [h1]
      rfl
  | root names input =>
    cases input with
    | none => cases h
    | some r =>
      obtain ⟨hn, hr⟩ := h
      obtain ⟨node, r', h1, h2, -, h3⟩ := treeRT hA hst ho hr
      refine ⟨.mk (.root names) [] [node], .root names (some r'), ?_, ⟨.root _ _ _ h2.1, h2.2⟩, ?_⟩
      · simp [convPlanRel, h1, Res.bind]
      · have := (PlanBlocks.single (n := LineNode.relation (ρ := SLine) (α := SAddendum) (.root names))
          (rootBlock names hn)).and (h3 1)
        exact this.to (by simp [textPlanRel]) (by simp [listing, listings])
  | missing => cases h

theorem topsRT (hA : AsciiPrintable) {env : Env} (hst : env.st.Ordered) (ho : Readable env.o) {rs : List PlanRel}
    (h : ∀ r ∈ rs, TopOk env r) :
    ∃ (nodes : List (RNode SLine SAddendum)) (l : List (PlanRel × PlanRel)), rs = l.map (·.1) ∧
      (∀ q ∈ l, TopEquiv env.reg q.1 q.2 ∧ NeatTopTo env.reg q.1 q.2) ∧ convPlanRels env.st env.reg nodes = .ok (l.map (·.2)) ∧
      (rs = [] → nodes = []) ∧ (rs ≠ [] → PlanBlocks (textPlanRels env rs).text (listings 0 nodes)) := by
  induction rs with
  | nil => exact ⟨[], [], rfl, by simp, by simp [convPlanRels], by simp, by simp⟩
  | cons r rs ih =>
    obtain ⟨nodes, l, h1, h2, h3, h4, h5⟩ := ih fun x hx => h x (by simp [hx])
    obtain ⟨node, r', g1, g2, g3⟩ := topRT hA hst ho (h r (by simp))
    refine ⟨node :: nodes, (r, r') :: l, by simp [h1], ?_, by simp [convPlanRels, g1, h3, Res.bind], by simp, ?_⟩
    · intro q hq
      rcases List.mem_cons.1 hq with rfl | hq
      · exact g2
      · exact h2 q hq
    · intro _
      cases rs with
      | nil =>
        rw [h4 rfl]
        exact g3.to rfl (by simp [listings])
      | cons s rs =>
        have hb : PlanBlocks ('\n' :: (textPlanRels env (s :: rs)).text) (listings 0 nodes) := Blocks.skip (h5 (by simp))
        exact (g3.and hb).to (by simp [textPlanRels]) (by simp [listings])

/-- Reading the plan section. -/
theorem runLines_tops (hA : AsciiPrintable) {env : Env} (hst : env.st.Ordered) (ho : Readable env.o) {rs : List PlanRel}
    (h : ∀ r ∈ rs, TopOk env r) (st : PState planLang) (hs : st.sec = .plan) (ht : st.tree = TreeBuilder.empty) :
    ∃ (tree : TreeBuilder SLine SAddendum) (l : List (PlanRel × PlanRel)), rs = l.map (·.1) ∧
      (∀ q ∈ l, TopEquiv env.reg q.1 q.2 ∧ NeatTopTo env.reg q.1 q.2) ∧ convPlanRels env.st env.reg tree.finish = .ok (l.map (·.2)) ∧
      PState.runLines st (physLines ((textPlanRels env rs).text ++ cs!"\n")) = .ok { st with tree := tree } := by
  obtain ⟨nodes, l, h1, h2, h3, h4, h5⟩ := topsRT hA hst ho h
  cases hrs : rs with
  | nil =>
    refine ⟨.empty, l, by rw [← h1, hrs], h2, ?_, ?_⟩
    · rw [h4 hrs] at h3
      exact h3
    · show PState.runLines st (physLines ('\n' :: [])) = _
      rw [PState.runLines_empty noDash_nil, physLines, PState.runLines_nil]
      obtain ⟨sec, version, ext, tree⟩ := st
      simp only at ht
      rw [ht]
      rfl
  | cons r rs' =>
    have hb := (C33_build_iff_listing (listings 0 nodes) nodes).2 rfl
    simp only [TreeBuilder.build] at hb
    split at hb
    · cases hb
    · rename_i tree htree
      simp only [Except.ok.injEq] at hb
      refine ⟨tree, l, by rw [← h1, hrs], h2, by rw [hb]; exact h3, ?_⟩
      rw [← hrs]
      have := Blocks.run (h5 (by rw [hrs]; simp)) (rest := []) noDash_nil (st := st) hs (tree := tree) (by rw [ht]; exact htree)
      rw [this, physLines, PState.runLines_nil]

omit [UTab] [FTab] in
theorem versionContent_kept (v : Option Version) : versionContent v = versionContent (keptVersion v) := by
  cases v with
  | none => rfl
  | some v =>
    simp only [keptVersion]
    split
    · rename_i h; rw [h]; decide
    · simp [versionContent, trim_trim]

omit [UTab] [FTab] in
/-- Reading the version section. -/
theorem runLines_version (v : Option Version) (h : VersionOk v) (rest : Str) :
    ∃ sec : Sec, (sec = .initial ∨ sec = .version) ∧
      PState.runLines (PState.init (L := planLang)) (physLines (writeVersion cs!"  " v ++ rest)) =
        PState.runLines { (PState.init : PState planLang) with sec := sec, version := keptVersion v } (physLines rest) := by
  cases v with
  | none => exact ⟨.initial, Or.inl rfl, rfl⟩
  | some v =>
    by_cases hv : v = Version.empty
    · refine ⟨.initial, Or.inl rfl, ?_⟩
      simp only [writeVersion, if_pos hv, List.nil_append, keptVersion]
      rw [if_pos (by exact hv)]
      rfl
    · obtain ⟨h1, h2, h3, h4, h5⟩ := h v rfl
      refine ⟨.version, Or.inr rfl, ?_⟩
      rw [PState.runLines_writeVersion v rest hv h1 h2 h3 h4 h5]
      simp only [keptVersion]
      rw [if_neg (by exact hv)]

omit [UTab] [FTab] in
/-- Exported declarations say the same. -/
theorem history_export {h : List Op} (hs : Sound (run h)) (v : Option Version) (rels : List PlanRel) :
    run (history ⟨v, (run h).toUrns, (run h).toDecls, rels⟩) = run h ∧
    answers [] (history ⟨v, (run h).toUrns, (run h).toDecls, rels⟩) = [] ∧
    (∀ a, firstUrn h a = firstUrn (history ⟨v, (run h).toUrns, (run h).toDecls, rels⟩) a) ∧
    ∀ a k, firstExt h a k = firstExt (history ⟨v, (run h).toUrns, (run h).toDecls, rels⟩) a k := by
  have hord := Store.ordered_run h
  have key := C06_export_import_partial h (by
      intro e he
      obtain ⟨u, hu⟩ := hs.declared e he
      rw [(OMap.find?_iff hord.1).2 hu]
      rfl) (by
      intro a k n hd
      obtain ⟨u, hu⟩ := (Store.declared_iff hord).1 hd
      have := (hs.decls _ hu).2
      rw [← Store.normName_eq_legal]
      exact normName_declName this)
  rw [Store.fromExtensions_spec] at key
  have hr : run (history ⟨v, (run h).toUrns, (run h).toDecls, rels⟩) = run h := congrArg Prod.fst key
  refine ⟨hr, congrArg Prod.snd key, ?_, ?_⟩
  · intro a
    rw [← (Store.run_spec h).1 a, ← (Store.run_spec (history _)).1 a, hr]
  · intro a k
    rw [← (Store.run_spec h).2 a k, ← (Store.run_spec (history _)).2 a k, hr]

omit [UTab] [FTab] in
theorem plan_store (p : Plan) : p.store = run (history p) := by
  unfold Plan.store
  rw [Store.fromExtensions_spec]
  rfl

omit [UTab] [FTab] in
theorem store_isEmpty {s : Store} (h : s.isEmpty = true) : s = .empty := by
  obtain ⟨u, e⟩ := s
  simp [Store.isEmpty] at h
  rw [h.1, h.2]
  rfl

/-- The text of a plan reads back as an equivalent plan. -/
theorem planRT (hA : AsciiPrintable) (reg : Registry ExtArgs (List Nat)) (o : Opts) (ho : Readable o) (p : Plan)
    (h : PlanOk reg o p) : ∃ p', parsePlan reg (textPlan reg o p).text = .ok p' ∧ PlanEquiv reg p p' ∧
      p'.version = keptVersion p.version ∧ answers [] (history p') = [] ∧ p'.store = p.store ∧ p'.urns = p.store.toUrns ∧ p'.decls = p.store.toDecls ∧
      ∃ l : List (PlanRel × PlanRel), p.rels = l.map (·.1) ∧ p'.rels = l.map (·.2) ∧
        ∀ q ∈ l, TopEquiv reg q.1 q.2 ∧ NeatTopTo reg q.1 q.2 := by
  have hst : (run (history p)).Ordered := Store.ordered_run _
  have htext : (textPlan reg o p).text = writeVersion cs!"  " p.version ++ (writeExts p.store cs!"  " ++
      ((if p.store.isEmpty then [] else cs!"\n") ++ (planHeader ++ '\n' ::
        ((textPlanRels ⟨p.store, o, reg⟩ p.rels).text ++ cs!"\n")))) := by
    simp [textPlan, ho.2.2.1]
  obtain ⟨sec, hsec, hver⟩ := runLines_version p.version h.version
    (writeExts p.store cs!"  " ++ ((if p.store.isEmpty then [] else cs!"\n") ++ (planHeader ++ '\n' ::
        ((textPlanRels ⟨p.store, o, reg⟩ p.rels).text ++ cs!"\n"))))
  rw [plan_store] at hver htext
  have hnd : NoDash ((textPlanRels ⟨run (history p), o, reg⟩ p.rels).text ++ cs!"\n") := by
    obtain ⟨nodes, l, -, -, -, -, h5⟩ := topsRT hA (env := ⟨run (history p), o, reg⟩) hst ho h.rels
    by_cases hr : p.rels = []
    · rw [hr]
      exact noDash_nl []
    · exact Blocks.noDash (h5 hr) _
  have hext : ∃ x : ExtState, x.store = run (history p) ∧
      PState.runLines { (PState.init : PState planLang) with sec := sec, version := keptVersion p.version }
        (physLines (writeExts (run (history p)) cs!"  " ++ ((if (run (history p)).isEmpty then [] else cs!"\n") ++
          (planHeader ++ '\n' :: ((textPlanRels ⟨run (history p), o, reg⟩ p.rels).text ++ cs!"\n"))))) =
      PState.runLines { (PState.init : PState planLang) with sec := .plan, version := keptVersion p.version, ext := x }
        (physLines ((textPlanRels ⟨run (history p), o, reg⟩ p.rels).text ++ cs!"\n")) := by
    cases he : (run (history p)).isEmpty with
    | true =>
      refine ⟨ExtState.init, (store_isEmpty he).symm, ?_⟩
      simp only [writeExts, he, if_true, List.nil_append]
      exact PState.runLines_header (L := planLang) (Or.inr ⟨rfl, rfl⟩)
        (show sec.rank < Sec.rank .plan by rcases hsec with rfl | rfl <;> decide) hnd
    | false =>
      obtain ⟨st', h1, h2, h3, h4, h5⟩ := C07_extensions_in_context_partial (run (history p)) hst h.sound he
        { (PState.init : PState planLang) with sec := sec, version := keptVersion p.version } hsec rfl
        ((textPlanRels ⟨run (history p), o, reg⟩ p.rels).text ++ cs!"\n")
      refine ⟨st'.ext, h4, ?_⟩
      have := h5 hnd
      obtain ⟨a, b, c, d⟩ := st'
      simp only at h1 h2 h3
      subst h1 h2 h3
      rw [← this]
      simp [planHeader]
  obtain ⟨x, hx, hext⟩ := hext
  obtain ⟨tree, l, h1, h2, h3, h4⟩ := runLines_tops hA (env := ⟨run (history p), o, reg⟩) hst ho h.rels
    { (PState.init : PState planLang) with sec := .plan, version := keptVersion p.version, ext := x } rfl rfl
  obtain ⟨g1, g4, g2, g3⟩ := history_export (h := history p) h.sound (keptVersion p.version) (l.map (·.2))
  refine ⟨⟨keptVersion p.version, (run (history p)).toUrns, (run (history p)).toDecls, l.map (·.2)⟩, ?_,
    ⟨versionContent_kept p.version, g2, g3, l, h1, rfl, fun q hq => (h2 q hq).1⟩, rfl, g4, ?_, ?_, ?_, l, h1, rfl, h2⟩
  · unfold parsePlan
    rw [PState.parseSections_eq, htext, hver, hext, h4]
    simp only [Res.mapErr, Res.bind, buildPlan, hx]
    have h3' : convPlanRels (run (history p)) reg (TreeBuilder.finish (ρ := planLang.Rel) (α := planLang.Add) tree) =
      .ok (l.map (·.2)) := h3
    rw [h3']
  · rw [plan_store, plan_store, g1]
  · rw [plan_store]
  · rw [plan_store]

end Verif
