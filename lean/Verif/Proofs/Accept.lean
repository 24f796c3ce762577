import Verif.Spec.Accept
import Verif.Proofs.Declare
import Verif.Props.Store
/-!
# Proofs: which texts are accepted
-/

namespace Verif

open ChunkSpec SectionSpec Grammar TreeSpec StoreSpec DeclareSpec AcceptSpec

set_option autoImplicit false

theorem addLines_nil_iff {ρ α : Type} {t t' : TreeBuilder ρ α} : t.addLines [] = .ok t' ↔ t = t' := by
  unfold TreeBuilder.addLines
  constructor
  · intro h; cases h; rfl
  · rintro rfl; rfl

theorem addLines_cons_iff {ρ α : Type} {t t' : TreeBuilder ρ α} {d : Nat} {n : LineNode ρ α} {rest : List (Nat × LineNode ρ α)} :
    t.addLines ((d, n) :: rest) = .ok t' ↔ ∃ t1, t.addLine d n = .ok t1 ∧ t1.addLines rest = .ok t' := by
  rw [TreeBuilder.addLines]
  constructor
  · intro h
    split at h
    · cases h
    · next t1 h1 => exact ⟨t1, h1, h⟩
  · rintro ⟨t1, h1, h⟩
    rw [h1]
    exact h

theorem continues_plan (f l : Str) : PState.continues .plan f l = true ↔ DashUnder (depthOf (content f)) (content l) := by
  rw [← dash_iff]
  simp [PState.continues]

theorem takeWhile_plan {f : Str} {run ls : List Str} (h1 : ∀ l ∈ run, DashUnder (depthOf (content f)) (content l))
    (h2 : ∀ l, ls.head? = some l → ¬ DashUnder (depthOf (content f)) (content l)) :
    (run ++ ls).takeWhile (PState.continues .plan f) = run ∧ (run ++ ls).dropWhile (PState.continues .plan f) = ls := by
  have hr : ∀ l ∈ run, PState.continues .plan f l = true := fun l hl => (continues_plan f l).2 (h1 l hl)
  have hl : ls.takeWhile (PState.continues .plan f) = [] ∧ ls.dropWhile (PState.continues .plan f) = ls := by
    cases ls with
    | nil => exact ⟨rfl, rfl⟩
    | cons l ls =>
      have : PState.continues .plan f l ≠ true := fun h => h2 l rfl ((continues_plan f l).1 h)
      simp [this]
  rw [List.takeWhile_append_of_pos hr, List.dropWhile_append_of_pos hr, hl.1, hl.2]
  simp

theorem stripPrefix_append : ∀ {k s r : Str}, stripPrefix k s = some r → s = k ++ r
  | [], s, r, h => by simpa [stripPrefix] using h
  | c :: k, [], r, h => by simp [stripPrefix] at h
  | c :: k, d :: s, r, h => by
    simp only [stripPrefix] at h
    split at h
    · next hc => rw [stripPrefix_append h, hc, List.cons_append]
    · cases h

/-- A line that starts a section is no relation. -/
theorem lineReads_header {d : Nat} {body : Str} {n : LineNode SLine SAddendum} (h : LineReads d body n) :
    ¬ (d = 0 ∧ (stripPrefix cs!"===" body).isSome = true) := by
  rintro ⟨rfl, hs⟩
  rcases h with ⟨_, h⟩ | ⟨h, _⟩
  · obtain ⟨r, hr⟩ := Option.isSome_iff_exists.1 hs
    obtain rfl := stripPrefix_append hr
    · simp [topLine, nodeLine, pRoot, pRelLine, pAddendum, pReadExt, pReadVirtual, pRead, pFilter, pProject, pAggregate,
        pSort, pFetch, pJoin, pSet, pCross, pExtRel, pExtKind] at h
  · exact h rfl

theorem blank_depth {f : Str} (h : trimEnd f = []) : depthOf (content f) = 0 := by
  have : trimEnd (content f) = [] := by
    rw [trimEnd_eq_nil_iff] at h ⊢
    intro c hc
    refine h c ?_
    unfold content at hc
    split at hc
    · split at hc
      · exact List.dropLast_subset _ (List.dropLast_subset _ hc)
      · exact List.dropLast_subset _ hc
    · exact hc
  rw [depthOf, this]
  rfl

theorem planLine_reads {st st' : PState planLang} {l : Indented} :
    st.planLine l = .ok st' ↔ ∃ n : LineNode SLine SAddendum, LineReads l.depth l.body n ∧
      ∃ t, TreeBuilder.addLine (ρ := planLang.Rel) (α := planLang.Add) st.tree l.depth n = .ok t ∧ st' = { st with tree := t } := by
  unfold PState.planLine LineReads
  constructor
  · intro h
    split at h
    · cases h
    · next n hn =>
      split at h
      · cases h
      · next t ht =>
        cases h
        refine ⟨n, ?_, t, ht, rfl⟩
        split at hn
        · next hd => exact Or.inl ⟨hd, hn⟩
        · next hd => exact Or.inr ⟨hd, hn⟩
  · rintro ⟨n, hn, t, ht, rfl⟩
    have : (if l.depth = 0 then planLang.top l.body else planLang.node l.body) = some n := by
      rcases hn with ⟨hd, hn⟩ | ⟨hd, hn⟩
      · rw [if_pos hd]; exact hn
      · rw [if_neg hd]; exact hn
    rw [this]
    dsimp only
    rw [ht]

theorem runLines_listed (ls : List Str) (st st' : PState planLang) (hs : st.sec = .plan)
    (h : PState.runLines st ls = .ok st') :
    ∃ lines t, Listed ls lines ∧ TreeBuilder.addLines (ρ := planLang.Rel) (α := planLang.Add) st.tree lines = .ok t ∧
      st' = { st with tree := t } := by
  fun_induction PState.runLines st ls with
  | case1 st => have h := Res.ok.inj h; subst h; exact ⟨[], _, .nil, rfl, rfl⟩
  | case2 st f ls chunk hempty ih =>
    obtain ⟨lines, t, h1, h2, h3⟩ := ih hs h
    obtain ⟨hb1, hb2⟩ := blank_group hempty
    have hdrop : ls.dropWhile (PState.continues st.sec f) = ls := by
      have := List.takeWhile_append_dropWhile (p := PState.continues st.sec f) (l := ls)
      rw [hb1] at this; exact this
    rw [hdrop] at h1
    refine ⟨lines, t, .blank hb2 ?_ h1, h2, h3⟩
    intro l hl hd
    cases ls with
    | nil => cases hl
    | cons l' ls =>
      cases hl
      rw [← blank_depth hb2, ← continues_plan, ← hs] at hd
      rw [List.takeWhile_cons, hd] at hb1
      cases hb1
  | case3 => cases h
  | case4 => cases h
  | case5 st f ls chunk hempty st1 hpl ih =>
    have hind : indentedLine chunk = indentedLine (f :: ls.takeWhile (PState.continues st.sec f)).flatten :=
      indentedLine_trimNl _
    have hpl' : st.planLine (indentedLine chunk) = .ok st1 := by
      simp only [PState.parseLine] at hpl
      split at hpl
      · split at hpl
        · cases hpl
        · next st2 next hsec =>
          split at hpl
          · cases hpl
          · next hrank =>
            rw [hs] at hrank
            cases next <;> simp [Sec.rank] at hrank
      · rw [hs] at hpl
        exact hpl
    obtain ⟨n, hn, t1, ht1, rfl⟩ := planLine_reads.1 hpl'
    obtain ⟨lines, t, h1, h2, rfl⟩ := ih hs h
    refine ⟨((indentedLine chunk).depth, n) :: lines, t, ?_, addLines_cons_iff.2 ⟨t1, ht1, h2⟩, rfl⟩
    · have hsplit := (List.takeWhile_append_dropWhile (p := PState.continues st.sec f) (l := ls))
      have := Listed.node (f := f) (run := ls.takeWhile (PState.continues st.sec f))
        (ls := ls.dropWhile (PState.continues st.sec f)) ?_ ?_ (by rw [indentedLine_cut, ← hind]) (indentedLine_lead chunk) hn h1
      · rw [hsplit] at this
        exact this
      · intro l hl
        have := List.all_takeWhile (p := PState.continues st.sec f) (l := ls)
        rw [List.all_eq_true] at this
        have hc := this l hl
        rw [hs] at hc
        exact (continues_plan f l).1 hc
      · intro l hl hd
        have := List.head?_dropWhile_not (p := PState.continues st.sec f) (l := ls)
        rw [hl, hs] at this
        simp [(continues_plan f l).2 hd] at this

theorem runLines_of_listed {ls : List Str} {lines : List (Nat × LineNode SLine SAddendum)} (h : Listed ls lines) :
    ∀ (st : PState planLang) (t : TreeBuilder SLine SAddendum), st.sec = .plan →
      TreeBuilder.addLines (ρ := planLang.Rel) (α := planLang.Add) st.tree lines = .ok t →
      PState.runLines st ls = .ok { st with tree := t } := by
  induction h with
  | nil =>
    intro st t _ h
    rw [PState.runLines_nil]
    have h := addLines_nil_iff.1 h
    subst h
    rfl
  | @blank f ls lines hf hh _ ih =>
    intro st t hs h
    rw [← blank_depth hf] at hh
    have := (takeWhile_plan (run := []) (by simp) hh).1
    rw [PState.runLines_blank st f ls (by rw [hs]; simpa using this) hf]
    exact ih st t hs h
  | @node f body run ls lines d n h1 h2 h3 h4 h5 _ ih =>
    rintro ⟨sec, vers, ext, tree⟩ t hs h
    dsimp only at hs h
    subst hs
    obtain ⟨hw, hd⟩ := takeWhile_plan h1 h2
    have hind := indentedLine_of_cut h3 h4
    obtain ⟨t1, ht1, h⟩ := addLines_cons_iff.1 h
    · have hpl : (⟨.plan, vers, ext, tree⟩ : PState planLang).planLine ⟨d, body⟩ = .ok (⟨.plan, vers, ext, t1⟩ : PState planLang) := planLine_reads.2 ⟨n, h5, t1, ht1, rfl⟩
      have hparse : (⟨.plan, vers, ext, tree⟩ : PState planLang).parseLine (f :: run).flatten = .ok (⟨.plan, vers, ext, t1⟩ : PState planLang) := by
        simp only [PState.parseLine, hind]
        rw [if_neg (lineReads_header h5)]
        exact hpl
      have hne : trimEnd (f :: run).flatten ≠ [] := by
        rw [h3]
        intro hc
        obtain ⟨_, rfl⟩ := List.append_eq_nil_iff.1 hc
        rcases h5 with ⟨_, h5⟩ | ⟨_, h5⟩
        · exact absurd h5 (by rw [show topLine [] = none from by decide +kernel]; simp)
        · exact absurd h5 (by rw [show nodeLine [] = none from by decide +kernel]; simp)
      rw [PState.runLines]
      simp only [hw, hd]
      rw [if_neg (by rw [trim_isEmpty_iff, trimEnd_trimNl]; exact hne), PState.parseLine_trimNl, hparse]
      exact ih (⟨.plan, vers, ext, t1⟩ : PState planLang) t rfl h

/-- Everything before the plan section, if the declarations are sound. -/
theorem preamble_run {text : Str} {v : Option Version} {ops : List Op} {blanks r1 r2 r3 : List Str}
    (e : physLines text = blanks ++ r1) (hb : ∀ l ∈ blanks, trimEnd l = []) (h1 : VersionPart r2 r1 v)
    (h2 : ExtPart r3 r2 ops) (ha : answers [] ops = []) :
    ∃ sec e, sec ≠ Sec.plan ∧ PState.runLines (PState.init : PState planLang) (physLines text) =
      PState.runLines { sec := sec, version := v, ext := (⟨e, run ops⟩ : ExtState), tree := .empty } r3 := by
  rw [e, blanks_run blanks r1 _ (by simp [PState.init]) hb]
  -- the extensions section
  have exts : ∀ st : PState planLang, st.sec.rank < 2 → st.ext = (ExtState.init : ExtState) →
      ∃ sec e, sec ≠ Sec.plan ∧ PState.runLines st r2 =
        PState.runLines { st with sec := sec, ext := (⟨e, run ops⟩ : ExtState) } r3 := by
    intro st hr hx
    have hp : st.sec ≠ .plan := by intro hs; rw [hs] at hr; simp [Sec.rank] at hr
    generalize ho : ops = os at h2
    cases h2 with
    | none =>
      subst ho
      refine ⟨st.sec, .extensions, hp, ?_⟩
      obtain ⟨_, _, ext, _⟩ := st
      dsimp only at hx
      subst hx
      rfl
    | @some f ls _ hf hl =>
      subst ho
      have hne : trimEnd f ≠ [] := by rw [hf]; simp
      rw [PState.runLines_cons st f _ (PState.takeWhile_not_plan _ hp _ _) hne,
        parseLine_named st (s := .extensions) hf (by simp) hr]
      simp only [Res.bind]
      rcases ext_run_says hl { st with sec := .extensions } r3 rfl (by show curOf (st.ext : ExtState).expect = _; rw [hx]; rfl) with
        ⟨t, e, h1, h2⟩ | ⟨h1, h2⟩
      · have h1 : StoreRun (st.ext : ExtState).store ops t := h1
        rw [hx] at h1
        obtain ⟨h3, h4⟩ := StoreRun.run (past := []) h1
        refine ⟨.extensions, e, by simp, ?_⟩
        rw [h2, h4]
        rfl
      · refine absurd ?_ (h2 (run ([] ++ ops)))
        show StoreRun (st.ext : ExtState).store ops _
        rw [hx]
        exact storeRun_of_answers ha
  generalize hv : v = v' at h1
  cases h1 with
  | none => exact exts PState.init (by simp [PState.init, Sec.rank]) rfl
  | @some f r ls v w hf hr hn hs =>
    have hne : trimEnd f ≠ [] := by rw [hf]; simp
    rw [PState.runLines_cons _ f _ (PState.takeWhile_not_plan _ (by simp [PState.init]) _ _) hne,
      parseLine_version _ hf hr hn rfl]
    simp only [Res.bind]
    rw [version_run_says hs { (PState.init : PState planLang) with version := some v, sec := .version } r2 rfl rfl]
    exact exts { (PState.init : PState planLang) with version := some w, sec := .version } (by simp [Sec.rank]) rfl

theorem build_addLines {lines : List (Nat × LineNode SLine SAddendum)} {forest : List (RNode SLine SAddendum)} :
    lines = listings 0 forest ↔ ∃ t, TreeBuilder.addLines (.empty : TreeBuilder SLine SAddendum) lines = .ok t ∧
      t.finish = forest := by
  rw [← C33_build_iff_listing]
  unfold TreeBuilder.build
  constructor
  · intro h
    split at h
    · cases h
    · next t ht => cases h; exact ⟨t, ht, rfl⟩
  · rintro ⟨t, ht, rfl⟩
    rw [ht]

/-- Which states the lines of a text lead to. -/
theorem runLines_reads (text : Str) (v : Option Version) (store : Store) (forest : List (RNode SLine SAddendum)) :
    (∃ st, PState.runLines (PState.init : PState planLang) (physLines text) = .ok st ∧ st.version = v ∧
      (st.ext : ExtState).store = store ∧ st.tree.finish = forest) ↔
    ∃ ops lines, TextReads text v ops lines ∧ answers [] ops = [] ∧ store = run ops ∧ lines = listings 0 forest := by
  constructor
  · rintro ⟨st, h, hv, hx, hf'⟩
    obtain ⟨blanks, r1, r2, ops, r3, lines, tails, e, hb, h1, h2, h3, h4, h5⟩ := initial_run _ _ _ rfl rfl rfl h
    obtain ⟨hans, hst⟩ := StoreRun.run (past := []) h4
    rw [List.nil_append] at hst
    obtain ⟨sec, x, hsec, hr⟩ := preamble_run e hb h1 h2 hans
    rw [h] at hr
    rw [hv] at hr h1
    clear h h4 h5 hv
    cases h3 with
    | none =>
      rw [PState.runLines_nil] at hr
      have hr := Res.ok.inj hr
      subst hr
      subst hx hf'
      exact ⟨ops, [], ⟨blanks, r1, r2, [], e, hb, h1, h2, .none⟩, hans, rfl, build_addLines.2 ⟨.empty, rfl, rfl⟩⟩
    | @some f gs _ _ hf hg =>
      have hne : trimEnd f ≠ [] := by rw [hf]; simp
      rw [PState.runLines_cons _ f _ (PState.takeWhile_not_plan _ hsec _ _) hne,
        parseLine_named _ (s := .plan) hf (by simp) (by
          show sec.rank < _
          cases hs : sec <;> simp [Sec.rank] <;> exact hsec hs)] at hr
      obtain ⟨lines', t, g1, g2, g3⟩ := runLines_listed _ _ _ rfl hr.symm
      subst g3
      subst hx hf'
      exact ⟨ops, lines', ⟨blanks, r1, r2, _, e, hb, h1, h2, .some hf g1⟩, hans, rfl, build_addLines.2 ⟨t, g2, rfl⟩⟩
  · rintro ⟨ops, lines, ⟨blanks, r1, r2, r3, e, hb, h1, h2, h3⟩, hans, rfl, hl⟩
    obtain ⟨sec, x, hsec, hr⟩ := preamble_run e hb h1 h2 hans
    obtain ⟨t, ht, hfin⟩ := build_addLines.1 hl
    cases h3 with
    | none =>
      cases ht
      rw [PState.runLines_nil] at hr
      exact ⟨_, hr, rfl, rfl, hfin⟩
    | @some f ls _ hf hg =>
      have hne : trimEnd f ≠ [] := by rw [hf]; simp
      rw [PState.runLines_cons _ f _ (PState.takeWhile_not_plan _ hsec _ _) hne,
        parseLine_named _ (s := .plan) hf (by simp) (by
          show sec.rank < _
          cases hs : sec <;> simp [Sec.rank] <;> exact hsec hs)] at hr
      simp only [Res.bind] at hr
      rw [runLines_of_listed hg _ t rfl ht] at hr
      exact ⟨_, hr, rfl, rfl, hfin⟩

/-- Lists that increase along one order and have the same members are equal. -/
theorem increasing_unique {A : Type} {R : A → A → Prop} (asymm : ∀ x y, R x y → ¬ R y x) :
    ∀ {l m : List A}, l.Pairwise R → m.Pairwise R → (∀ x, x ∈ l ↔ x ∈ m) → l = m
  | [], [], _, _, _ => rfl
  | [], y :: m, _, _, h => absurd ((h y).2 (List.mem_cons_self)) (by simp)
  | x :: l, [], _, _, h => absurd ((h x).1 (List.mem_cons_self)) (by simp)
  | x :: l, y :: m, hl, hm, h => by
    rw [List.pairwise_cons] at hl hm
    have hxy : x = y := by
      rcases List.mem_cons.1 ((h x).1 (List.mem_cons_self)) with e | hx
      · exact e
      · rcases List.mem_cons.1 ((h y).2 (List.mem_cons_self)) with e | hy
        · exact e.symm
        · exact absurd (hm.1 x hx) (asymm _ _ (hl.1 y hy))
    subst hxy
    congr 1
    refine increasing_unique asymm hl.2 hm.2 fun z => ?_
    constructor
    · intro hz
      rcases List.mem_cons.1 ((h z).1 (List.mem_cons_of_mem _ hz)) with e | hz'
      · subst e; exact absurd (hl.1 _ hz) (asymm _ _ (hl.1 _ hz))
      · exact hz'
    · intro hz
      rcases List.mem_cons.1 ((h z).2 (List.mem_cons_of_mem _ hz)) with e | hz'
      · subst e; exact absurd (hm.1 _ hz) (asymm _ _ (hm.1 _ hz))
      · exact hz'

/-- The declarations of a plan, said without the store. -/
theorem recorded_iff {ops : List Op} (hans : answers [] ops = []) (urns : List (Nat × Str))
    (decls : List (Option (Kind × Nat × Nat × Str))) :
    Recorded ops urns decls ↔ urns = (run ops).toUrns ∧ decls = (run ops).toDecls := by
  have hord := Store.ordered_run ops
  obtain ⟨hu, he⟩ := Store.run_spec ops
  have urnsOf : ∀ a u, (a, u) ∈ (run ops).toUrns ↔ Op.urn u a ∈ ops := by
    intro a u
    rw [← firstUrn_of_ok hans, ← hu a, OMap.find?_iff hord.1]
    rfl
  have declsOf : ∀ k u a n, some (k, u, a, n) ∈ (run ops).toDecls ↔ ∃ m, Op.ext k u a m ∈ ops ∧ legalName k m = some n := by
    intro k u a n
    rw [← firstExt_of_ok hans, ← he a k, OMap.find?_iff hord.2]
    simp only [Store.toDecls, List.mem_map]
    constructor
    · rintro ⟨⟨⟨_, _⟩, _, _⟩, hm, he⟩
      cases he
      exact hm
    · intro hm
      exact ⟨_, hm, rfl⟩
  obtain ⟨s1, s2⟩ := C06_export_sorted ops
  rw [List.pairwise_map] at s1
  constructor
  · rintro ⟨h1, h2, h3, h4, h5⟩
    constructor
    · refine increasing_unique (R := fun x y : Nat × Str => x.1 < y.1) (fun x y h => Nat.lt_asymm h) h4 s1 ?_
      rintro ⟨a, u⟩
      rw [h1, urnsOf]
    · refine increasing_unique (R := DeclBefore) ?_ h5 s2 ?_
      · rintro x y ⟨k, u, a, n, l, v, b, m, rfl, rfl, h⟩ ⟨k', u', a', n', l', v', b', m', e1, e2, h'⟩
        cases e1
        cases e2
        rcases h with h | ⟨rfl, h⟩
        · rcases h' with h' | ⟨e, _⟩ <;> omega
        · rcases h' with h' | ⟨_, h'⟩
          · omega
          · revert h h'
            cases k <;> cases l <;> simp
      · rintro (_ | ⟨k, u, a, n⟩)
        · simp [h3, Store.toDecls]
        · rw [h2, declsOf]
  · rintro ⟨rfl, rfl⟩
    exact ⟨urnsOf, declsOf, by simp [Store.toDecls], s1, s2⟩

end Verif
