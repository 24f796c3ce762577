import Verif.Proofs.TextExact
/-!
# Which plans survive as text
-/

namespace Verif
open ChunkSpec SectionSpec StoreSpec TextSpec RelSpec PlanSpec TreeSpec PanicSpec RawSpec NestSpec

set_option autoImplicit false

section
variable [UTab] [FTab]

/-- The text of a root without its input. -/
def rootBody (names : List Str) : Str := cs!"Root[" ++ joinS cs!", " (names.map showName) ++ cs!"]"

omit [FTab] in
theorem rootBody_line (names : List Str) : LineBody 0 (rootBody names) := by
  have hf : Flat (joinS cs!", " (names.map showName)) := by
    apply flat_joinS (by decide)
    intro x hx
    obtain ⟨n, -, rfl⟩ := List.mem_map.1 hx
    exact flat_showName n
  exact ⟨⟨'R', cs!"oot[" ++ joinS cs!", " (names.map showName) ++ cs!"]", [], by simp [lineAt, joinNl, joinS, rootBody], by decide, by decide,
    by decide, by simp [hf], by simp⟩, ⟨cs!"Root[" ++ joinS cs!", " (names.map showName), ']', rfl, by decide⟩⟩

theorem root_text (env : Env) (names : List Str) : (textPlanRel env (.root names none)).text = rootBody names := by
  simp [textPlanRel, rootBody]

/-- What is written for a relation that is not there. -/
def missingBody : Str := cs!"!{PlanRelType}"

theorem missingBody_line : LineBody 0 missingBody :=
  ⟨⟨'!', cs!"{PlanRelType}", [], rfl, by decide, by decide, by decide, by decide, by simp⟩, ⟨cs!"!{PlanRelType", '}', rfl, by decide⟩⟩

/-- The token is not a relation. -/
theorem missing_unread : topLine missingBody = none := by
  simp [missingBody, topLine, pRoot, nodeLine, pAddendum, lit, pRelLine, pReadExt, pReadVirtual, pRead, pFilter, pProject, pAggregate,
    pSort, pFetch, pJoin, pSet, pCross, pExtRel, pExtKind]

/-- The lines of a relation at the top. -/
def topBodies (env : Env) : PlanRel → List (Nat × Str)
  | .rel r => relBodies env 0 r
  | .root names (some r) => (0, rootBody names) :: relBodies env 1 r
  | .root names none => [(0, rootBody names)]
  | .missing => [(0, missingBody)]

/-- The tree at the top is plain. -/
def PlainTop (env : Env) : PlanRel → Prop
  | .rel r => PlainTree env r
  | .root _ (some r) => PlainTree env r
  | .root _ none => True
  | .missing => True

theorem plainTop {env : Env} (hf : FlatFloats) (hst : FlatStore env.st) (ho : env.st.Ordered) {p : PlanRel}
    (hd : DescribedTop env.reg p) (hr : ∀ s ∈ topRaw env p, Flat s) : PlainTop env p := by
  cases p with
  | rel r => exact plainTree hf hst ho hd hr
  | root names input =>
    cases input with
    | none => trivial
    | some r => exact plainTree hf hst ho hd hr
  | missing => trivial

theorem top_listed {env : Env} (hi : env.o.indent = cs!"  ") {p : PlanRel} (hp : PlainTop env p) :
    Listed (textPlanRel env p).text (topBodies env p) := by
  cases p with
  | rel r => exact tree_listed hi hp 0
  | root names input =>
    cases input with
    | none => exact (Listed.one (d := 0) (rootBody_line names)).to (by simp [textPlanRel, rootBody]) rfl
    | some r =>
      exact (Listed.cons (d := 0) (rootBody_line names) (tree_listed hi hp 1)).to (by simp [textPlanRel, rootBody]) rfl
  | missing => exact (Listed.one (d := 0) missingBody_line).to rfl rfl

theorem tops_listed {env : Env} (hi : env.o.indent = cs!"  ") : ∀ {rs : List PlanRel}, rs ≠ [] → (∀ r ∈ rs, PlainTop env r) →
    Listed (textPlanRels env rs).text (rs.flatMap (topBodies env))
  | [], h, _ => absurd rfl h
  | [r], _, h => (top_listed hi (h r (by simp))).to rfl (by simp)
  | r :: x :: l, _, h => by
    have h2 := tops_listed hi (rs := x :: l) (by simp) fun y hy => h y (List.mem_cons_of_mem _ hy)
    exact ((top_listed hi (h r (by simp))).append (.skip h2)).to (by simp [textPlanRels]) (by simp)

/-- Every line of a plain tree is read as a relation or not at all. -/
theorem relBodies_read {env : Env} {r : Rel} (hp : PlainTree env r) : ∀ lvl, ∀ e ∈ relBodies env lvl r,
    (if e.1 = 0 then topLine e.2 else nodeLine e.2) = (pRelLine e.2).map fun r => .relation r.1 := by
  induction hp with
  | node op ins h1 _ ih =>
    intro lvl e he
    rw [relBodies] at he
    rcases List.mem_cons.1 he with rfl | he
    · exact h1.reads lvl lvl
    · split at he
      · have key : ∀ l : List (Option Rel), (∀ r, some r ∈ l → some r ∈ ins) → e ∈ insBodies env (lvl + 1) l →
            ∃ r, some r ∈ ins ∧ e ∈ relBodies env (lvl + 1) r := by
          intro l
          induction l with
          | nil => intro _ hx; rw [insBodies] at hx; cases hx
          | cons x l ih2 =>
            intro hm hx
            cases x with
            | none => rw [insBodies] at hx; exact ih2 (fun r hr => hm r (by simp [hr])) hx
            | some r =>
              rw [insBodies] at hx
              rcases List.mem_append.1 hx with hx | hx
              · exact ⟨r, hm r (by simp), hx⟩
              · exact ih2 (fun r hr => hm r (by simp [hr])) hx
        obtain ⟨r, hr, hx⟩ := key ins (fun _ h => h) he
        exact ih r hr (lvl + 1) e hx
      · cases he

theorem top_of_read {env : Env} {p : PlanRel} (hp : PlainTop env p)
    (h : ∀ e ∈ topBodies env p, (if e.1 = 0 then topLine e.2 else nodeLine e.2) ≠ none) : ∃ t, TopLines env p t := by
  have key : ∀ r lvl, PlainTree env r → (∀ e ∈ relBodies env lvl r, (if e.1 = 0 then topLine e.2 else nodeLine e.2) ≠ none) →
      ∃ t, LinesOf env lvl r t := by
    intro r lvl hr h
    refine lines_of_read hr lvl fun e he hn => ?_
    have := h e he
    rw [relBodies_read hr lvl e he, hn] at this
    exact this rfl
  cases p with
  | rel r =>
    obtain ⟨t, ht⟩ := key r 0 hp h
    exact ⟨t, .rel r t ht⟩
  | root names input =>
    cases input with
    | none => exact ⟨_, .root names none _ _ [] (pRoot_back env names) rfl (by simp)⟩
    | some r =>
      obtain ⟨t, ht⟩ := key r 1 hp fun e he => h e (by simp [topBodies, he])
      exact ⟨_, .root names (some r) _ _ [(r, t)] (pRoot_back env names) rfl (by simpa using ht)⟩
  | missing => exact absurd missing_unread (h (0, missingBody) (by simp [topBodies]))

theorem top_blocks {env : Env} (hi : env.o.indent = cs!"  ") {p : PlanRel} {t : RNode SLine SAddendum} (hl : TopLines env p t)
    (hp : PlainTop env p) : PlanBlocks (textPlanRel env p).text (listing 0 t) := by
  cases hl with
  | rel r t hl => exact tree_blocks hi hl hp
  | root names input line rest kids h1 h2 h3 =>
    have hb : PlanBlocks (lineAt 0 (rootBody names)) [(0, .relation line)] := by
      refine .single ((rootBody_line names).block ⟨cs!"Root[" ++ joinS cs!", " (names.map showName), rfl⟩ (L := planLang) ?_)
      rw [if_pos rfl]
      rw [root_text] at h1
      show topLine _ = _
      unfold topLine
      rw [h1]
      rfl
    cases input with
    | none =>
      have : kids = [] := by simpa using h2.symm
      subst this
      exact hb.to (by simp [textPlanRel, rootBody]) (by simp [listing, listings])
    | some r =>
      match kids, h2, h3 with
      | [k], h2, h3 =>
        simp only [Option.toList, List.map_cons, List.map_nil, List.cons.injEq, and_true] at h2
        subst h2
        have := hb.and (tree_blocks hi (h3 k (by simp)) hp)
        exact this.to (by simp [textPlanRel, rootBody]) (by simp [listing, listings])

theorem tops_blocks {env : Env} (hi : env.o.indent = cs!"  ") : ∀ {qs : List (PlanRel × RNode SLine SAddendum)}, qs ≠ [] →
    (∀ q ∈ qs, TopLines env q.1 q.2 ∧ PlainTop env q.1) →
    PlanBlocks (textPlanRels env (qs.map (·.1))).text (listings 0 (qs.map (·.2)))
  | [], h, _ => absurd rfl h
  | [q], _, h => by
    obtain ⟨h1, h2⟩ := h q (by simp)
    exact (top_blocks hi h1 h2).to rfl (by simp [listings])
  | q :: x :: l, _, h => by
    obtain ⟨h1, h2⟩ := h q (by simp)
    have h3 := tops_blocks hi (qs := x :: l) (by simp) fun y hy => h y (List.mem_cons_of_mem _ hy)
    have hb : PlanBlocks ('\n' :: (textPlanRels env ((x :: l).map (·.1))).text) (listings 0 ((x :: l).map (·.2))) := Blocks.skip h3
    exact ((top_blocks hi h1 h2).and hb).to (by simp [textPlanRels]) (by simp [listings])

/-- What comes before the relations is read. -/
theorem plan_prelude (reg : Registry ExtArgs (List Nat)) (o : Opts) (hi : o.indent = cs!"  ") (p : Plan)
    (hv : VersionOk p.version) (hs : Sound (run (history p)))
    (hnd : NoDash ((textPlanRels ⟨run (history p), o, reg⟩ p.rels).text ++ cs!"\n")) :
    ∃ x : ExtState, x.store = run (history p) ∧
      PState.runLines (PState.init (L := planLang)) (physLines (textPlan reg o p).text) =
      PState.runLines { (PState.init : PState planLang) with sec := .plan, version := keptVersion p.version, ext := x }
        (physLines ((textPlanRels ⟨run (history p), o, reg⟩ p.rels).text ++ cs!"\n")) := by
  have hst : (run (history p)).Ordered := Store.ordered_run _
  have htext : (textPlan reg o p).text = writeVersion cs!"  " p.version ++ (writeExts p.store cs!"  " ++
      ((if p.store.isEmpty then [] else cs!"\n") ++ (planHeader ++ '\n' ::
        ((textPlanRels ⟨p.store, o, reg⟩ p.rels).text ++ cs!"\n")))) := by
    simp [textPlan, hi]
  obtain ⟨sec, hsec, hver⟩ := runLines_version p.version hv
    (writeExts p.store cs!"  " ++ ((if p.store.isEmpty then [] else cs!"\n") ++ (planHeader ++ '\n' ::
        ((textPlanRels ⟨p.store, o, reg⟩ p.rels).text ++ cs!"\n"))))
  rw [plan_store] at hver htext
  rw [htext, hver]
  cases he : (run (history p)).isEmpty with
  | true =>
    refine ⟨ExtState.init, (store_isEmpty he).symm, ?_⟩
    simp only [writeExts, he, if_true, List.nil_append]
    exact PState.runLines_header (L := planLang) (Or.inr ⟨rfl, rfl⟩)
      (show sec.rank < Sec.rank .plan by rcases hsec with rfl | rfl <;> decide) hnd
  | false =>
    obtain ⟨st', h1, h2, h3, h4, h5⟩ := C07_extensions_in_context_partial (run (history p)) hst hs he
      { (PState.init : PState planLang) with sec := sec, version := keptVersion p.version } hsec rfl
      ((textPlanRels ⟨run (history p), o, reg⟩ p.rels).text ++ cs!"\n")
    refine ⟨st'.ext, h4, ?_⟩
    have := h5 hnd
    obtain ⟨a, b, c, d⟩ := st'
    simp only at h1 h2 h3
    subst h1 h2 h3
    rw [← this]
    simp [planHeader]

/-- If all lines are read, the plan is what is made of them. -/
theorem plan_parsed (reg : Registry ExtArgs (List Nat)) (o : Opts) (hi : o.indent = cs!"  ") (p : Plan)
    (hv : VersionOk p.version) (hs : Sound (run (history p))) (qs : List (PlanRel × RNode SLine SAddendum))
    (hq : p.rels = qs.map (·.1))
    (hl : ∀ q ∈ qs, TopLines ⟨run (history p), o, reg⟩ q.1 q.2 ∧ PlainTop ⟨run (history p), o, reg⟩ q.1) :
    parsePlan reg (textPlan reg o p).text =
      ((convPlanRels (run (history p)) reg (qs.map (·.2))).mapErr PlanErr.rel).bind fun rels =>
        .ok ⟨keptVersion p.version, (run (history p)).toUrns, (run (history p)).toDecls, rels⟩ := by
  have hnd : NoDash ((textPlanRels ⟨run (history p), o, reg⟩ p.rels).text ++ cs!"\n") := by
    rw [hq]
    by_cases hr : qs = []
    · rw [hr]
      exact noDash_nl []
    · exact Blocks.noDash (tops_blocks (env := ⟨run (history p), o, reg⟩) hi hr hl) _
  obtain ⟨x, hx, hpre⟩ := plan_prelude reg o hi p hv hs hnd
  have hrun : ∃ tree : TreeBuilder SLine SAddendum, tree.finish = qs.map (·.2) ∧
      PState.runLines { (PState.init : PState planLang) with sec := .plan, version := keptVersion p.version, ext := x }
        (physLines ((textPlanRels ⟨run (history p), o, reg⟩ p.rels).text ++ cs!"\n")) =
      .ok { (PState.init : PState planLang) with sec := .plan, version := keptVersion p.version, ext := x, tree := tree } := by
    rw [hq]
    by_cases hr : qs = []
    · subst hr
      refine ⟨.empty, rfl, ?_⟩
      show PState.runLines _ (physLines ('\n' :: [])) = _
      rw [PState.runLines_empty noDash_nil, physLines, PState.runLines_nil]
      rfl
    · have hb := (C33_build_iff_listing (listings 0 (qs.map (·.2))) (qs.map (·.2))).2 rfl
      simp only [TreeBuilder.build] at hb
      split at hb
      · cases hb
      · rename_i tree htree
        simp only [Except.ok.injEq] at hb
        refine ⟨tree, hb, ?_⟩
        have := Blocks.run (tops_blocks (env := ⟨run (history p), o, reg⟩) hi hr hl) (rest := []) noDash_nil
          (st := { (PState.init : PState planLang) with sec := .plan, version := keptVersion p.version, ext := x }) rfl
          (tree := tree) htree
        rw [this, physLines, PState.runLines_nil]
  obtain ⟨tree, hfin, hrun⟩ := hrun
  unfold parsePlan
  rw [PState.parseSections_eq, hpre, hrun]
  simp only [Res.mapErr, Res.bind, buildPlan, hx]
  have h3' : TreeBuilder.finish (ρ := planLang.Rel) (α := planLang.Add) tree = qs.map (·.2) := hfin
  rw [h3']

theorem convPlanRels_pairs {env : Env} : ∀ (qs : List (PlanRel × RNode SLine SAddendum)) (l : List (PlanRel × PlanRel)),
    convPlanRels env.st env.reg (qs.map (·.2)) = .ok (l.map (·.2)) → qs.map (·.1) = l.map (·.1) →
    (∀ q ∈ qs, TopLines env q.1 q.2) → (∀ x ∈ l, TopEquiv env.reg x.1 x.2) → ∀ q ∈ qs, TopBack env q.1
  | [], _, _, _, _, _ => by simp
  | q :: qs, [], _, h, _, _ => by simp at h
  | q :: qs, x :: l, h1, h2, h3, h4 => by
    rw [List.map_cons, convPlanRels] at h1
    obtain ⟨r, k1, h1⟩ := Res.bind_ok_iff.1 h1
    obtain ⟨rs, k2, h1⟩ := Res.bind_ok_iff.1 h1
    simp only [List.map_cons, Res.ok.injEq, List.cons.injEq] at h1 h2
    obtain ⟨rfl, rfl⟩ := h1
    intro y hy
    rcases List.mem_cons.1 hy with rfl | hy
    · refine ⟨_, _, h3 _ (by simp), k1, ?_⟩
      rw [h2.1]
      exact h4 x (by simp)
    · exact convPlanRels_pairs qs l k2 h2.2 (fun z hz => h3 z (by simp [hz])) (fun z hz => h4 z (by simp [hz])) y hy

theorem plan_exact (hA : AsciiPrintable) (hF : FloatsShown) (reg : Registry ExtArgs (List Nat)) (o : Opts)
    (ho : o.showEmit = false) (hi : o.indent = cs!"  ") (p : Plan) (hv : VersionOk p.version) (hs : Sound (run (history p)))
    (hd : ∀ r ∈ p.rels, DescribedTop reg r) (hr : ∀ s ∈ planRaw reg o p, Flat s) :
    (∃ p', parsePlan reg (textPlan reg o p).text = .ok p' ∧ PlanEquiv reg p p') ↔
      ∀ r ∈ p.rels, SurvivesTop ⟨run (history p), o, reg⟩ r := by
  have hplain : ∀ r ∈ p.rels, PlainTop ⟨run (history p), o, reg⟩ r := by
    unfold planRaw at hr
    simp only [List.mem_append, or_imp, forall_and] at hr
    obtain ⟨⟨⟨-, h2⟩, h3⟩, h4⟩ := hr
    have hst := flat_planStore p (fun u hu => h2 _ (List.mem_map.2 ⟨u, hu, rfl⟩)) h3
    rw [plan_store] at hst
    intro r hm
    refine plainTop (env := ⟨run (history p), o, reg⟩) (flatFloats_shown hF) hst (Store.ordered_run _) (hd r hm) ?_
    exact fun s hs => h4 s (List.mem_flatMap.2 ⟨r, hm, hs⟩)
  have hpairs : ∀ (P : PlanRel → RNode SLine SAddendum → Prop) (rs : List PlanRel), (∀ r ∈ rs, ∃ t, P r t) →
      ∃ qs : List (PlanRel × RNode SLine SAddendum), rs = qs.map (·.1) ∧ ∀ q ∈ qs, P q.1 q.2 := by
    intro P rs
    induction rs with
    | nil => exact fun _ => ⟨[], rfl, by simp⟩
    | cons r l ih =>
      intro h
      obtain ⟨qs, h1, h2⟩ := ih fun x hx => h x (by simp [hx])
      obtain ⟨t, ht⟩ := h r (by simp)
      refine ⟨(r, t) :: qs, by simp [h1], ?_⟩
      intro q hq
      rcases List.mem_cons.1 hq with rfl | hq
      · exact ht
      · exact h2 q hq
  constructor
  · rintro ⟨p', hp', he⟩
    have hread : ∀ r ∈ p.rels, ∃ t, TopLines ⟨run (history p), o, reg⟩ r t := by
      by_cases hne : p.rels = []
      · rw [hne]; simp
      have hlist := tops_listed (env := ⟨run (history p), o, reg⟩) hi hne hplain
      obtain ⟨x, -, hpre⟩ := plan_prelude reg o hi p hv hs (hlist.noDash _)
      have hok : ∃ st', PState.runLines (PState.init (L := planLang)) (physLines (textPlan reg o p).text) = .ok st' := by
        unfold parsePlan at hp'
        rw [PState.parseSections_eq] at hp'
        cases hrun : PState.runLines (PState.init (L := planLang)) (physLines (textPlan reg o p).text) with
        | ok st' => exact ⟨st', rfl⟩
        | err e => rw [hrun] at hp'; cases hp'
        | panic => rw [hrun] at hp'; cases hp'
      obtain ⟨st', hok⟩ := hok
      rw [hpre] at hok
      have hall := hlist.read (L := planLang) (rest := []) noDash_nil
        (st := { (PState.init : PState planLang) with sec := .plan, version := keptVersion p.version, ext := x }) rfl hok
      intro r hm
      refine top_of_read (hplain r hm) fun e he => ?_
      exact hall e (List.mem_flatMap.2 ⟨r, hm, he⟩)
    obtain ⟨qs, hq, hl⟩ := hpairs _ _ hread
    rw [plan_parsed reg o hi p hv hs qs hq fun q hm => ⟨hl q hm, hplain q.1 (by rw [hq]; exact List.mem_map.2 ⟨q, hm, rfl⟩)⟩] at hp'
    cases hc : convPlanRels (run (history p)) reg (qs.map (·.2)) with
    | err e => rw [hc] at hp'; cases hp'
    | panic => rw [hc] at hp'; cases hp'
    | ok rels =>
      rw [hc] at hp'
      simp only [Res.mapErr, Res.bind, Res.ok.injEq] at hp'
      obtain ⟨l, h1, h2, h3⟩ := he.rels
      rw [← hp'] at h2
      simp only at h2
      subst h2
      have := convPlanRels_pairs (env := ⟨run (history p), o, reg⟩) qs l hc (by rw [← hq, h1]) hl h3
      intro r hm
      have hm2 := hm
      rw [hq] at hm2
      obtain ⟨q, hqm, rfl⟩ := List.mem_map.1 hm2
      exact (top_exact hA hF ho hi (hd _ hm)).1 (this q hqm)
  · intro hsv
    have hback : ∀ r ∈ p.rels, ∃ t, TopLines ⟨run (history p), o, reg⟩ r t ∧
        ∃ r', convPlanRel (run (history p)) reg t = .ok r' ∧ TopEquiv reg r r' := by
      intro r hm
      obtain ⟨t, r', h1, h2, h3⟩ := (top_exact hA hF ho hi (hd r hm)).2 (hsv r hm)
      exact ⟨t, h1, r', h2, h3⟩
    obtain ⟨qs, hq, hl⟩ := hpairs _ _ hback
    have hconv : ∀ qs : List (PlanRel × RNode SLine SAddendum), (∀ q ∈ qs, ∃ r', convPlanRel (run (history p)) reg q.2 = .ok r' ∧
        TopEquiv reg q.1 r') → ∃ l : List (PlanRel × PlanRel), qs.map (·.1) = l.map (·.1) ∧
        convPlanRels (run (history p)) reg (qs.map (·.2)) = .ok (l.map (·.2)) ∧ ∀ x ∈ l, TopEquiv reg x.1 x.2 := by
      intro qs
      induction qs with
      | nil => exact fun _ => ⟨[], rfl, by simp [convPlanRels], by simp⟩
      | cons q qs ih =>
        intro h
        obtain ⟨l, h1, h2, h3⟩ := ih fun x hx => h x (by simp [hx])
        obtain ⟨r', h4, h5⟩ := h q (by simp)
        refine ⟨(q.1, r') :: l, by simp [h1], by simp [convPlanRels, h4, h2, Res.bind], ?_⟩
        intro x hx
        rcases List.mem_cons.1 hx with rfl | hx
        · exact h5
        · exact h3 x hx
    obtain ⟨l, h1, h2, h3⟩ := hconv qs fun q hm => (hl q hm).2
    obtain ⟨g1, g4, g2, g3⟩ := history_export (h := history p) hs (keptVersion p.version) (l.map (·.2))
    refine ⟨⟨keptVersion p.version, (run (history p)).toUrns, (run (history p)).toDecls, l.map (·.2)⟩, ?_,
      ⟨versionContent_kept p.version, g2, g3, l, by rw [hq, h1], rfl, h3⟩⟩
    rw [plan_parsed reg o hi p hv hs qs hq fun q hm => ⟨(hl q hm).1, hplain q.1 (by rw [hq]; exact List.mem_map.2 ⟨q, hm, rfl⟩)⟩, h2]
    rfl

end

end Verif
