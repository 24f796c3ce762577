import Verif.Proofs.UnrelatedRead
import Verif.Proofs.UnrelatedWrite
import Verif.Proofs.PlanWhole
import Verif.Proofs.TypesErr
/-!
# The plan section stands by itself

The relations of a text depend on what comes before them only through the declarations.
-/

namespace Verif

set_option autoImplicit false

open StoreSpec UnrelSpec ChunkSpec SectionSpec

/-- A text whose last line, if any, is complete. -/
theorem physLines_append_complete (a b : Str) (h : a = [] ∨ a.getLast? = some '\n') :
    physLines (a ++ b) = physLines a ++ physLines b := by
  induction a with
  | nil => rfl
  | cons c a ih =>
    by_cases ha : a = []
    · subst ha
      rcases h with h | h
      · cases h
      · have : c = '\n' := by simpa using h
        subst this
        simp [physLines]
    · have hl : a = [] ∨ a.getLast? = some '\n' := by
        rcases h with h | h
        · cases h
        · right
          rw [← h]
          cases a with
          | nil => exact absurd rfl ha
          | cons x y => simp
      have hne : physLines a ≠ [] := physLines_ne_nil ha
      rw [List.cons_append]
      simp only [physLines]
      rw [ih hl]
      split
      · simp
      · cases hp : physLines a with
        | nil => exact absurd hp hne
        | cons l ls => simp

namespace PState
variable {L : Lang}

theorem runLines_mono (ls : List Str) (st st' : PState L) (h : runLines st ls = .ok st') : st.sec.rank ≤ st'.sec.rank := by
  fun_induction runLines st ls with
  | case1 st => cases h; exact Nat.le_refl _
  | case2 st f ls chunk he ih => exact ih h
  | case3 => cases h
  | case4 => cases h
  | case5 st f ls chunk he st1 hpl ih => exact Nat.le_trans (parseLine_sec_mono st st1 _ hpl).1 (ih h)

theorem rank_plan {s : Sec} (h : s ≠ .plan) : s.rank < Sec.plan.rank := by
  cases s <;> simp [Sec.rank] at h ⊢

/-- Lines before the plan section and lines after them. -/
theorem runLines_append (a b : List Str) (st s : PState L) (h : runLines st a = .ok s) (hs : s.sec ≠ .plan) :
    runLines st (a ++ b) = runLines s b := by
  induction a generalizing st with
  | nil => rw [runLines_nil] at h; cases h; rfl
  | cons f a ih =>
    have hp : st.sec ≠ .plan := by
      intro hp
      have := runLines_mono _ _ _ h
      have := rank_plan hs
      rw [hp] at *
      omega
    by_cases he : trimEnd f = []
    · rw [runLines_blank st f a (takeWhile_not_plan _ hp _ _) he] at h
      rw [List.cons_append, runLines_blank st f (a ++ b) (takeWhile_not_plan _ hp _ _) he]
      exact ih st h
    · rw [runLines_cons st f a (takeWhile_not_plan _ hp _ _) he] at h
      rw [List.cons_append, runLines_cons st f (a ++ b) (takeWhile_not_plan _ hp _ _) he]
      obtain ⟨s1, h1, h2⟩ := Res.bind_ok_iff.1 h
      rw [h1]
      exact ih s1 h2

theorem parseLine_tree (st st' : PState L) (c : Str) (h : st.parseLine c = .ok st') (hs : st.sec ≠ .plan) :
    st'.tree = st.tree := by
  simp only [parseLine] at h
  split at h
  · split at h
    · cases h
    · rename_i st2 next hsec
      split at h
      · cases h
      · cases h
        unfold sectionHeader at hsec
        split at hsec
        · cases hsec; rfl
        · split at hsec
          · cases hsec; rfl
          · split at hsec
            · split at hsec
              · split at hsec
                · cases hsec
                · cases hsec; rfl
              · cases hsec
            · cases hsec
  · split at h
    · split at h
      · cases h; rfl
      · cases h
    · simp only [versionLine] at h
      split at h
      · cases h; rfl
      · split at h
        · simp only [versionDetail] at h
          split at h
          · cases h
          · split at h
            · cases h
            · split at h
              · cases h; rfl
              · split at h
                · cases h; rfl
                · cases h
        · cases h
    · split at h
      · cases h
      · cases h
      · cases h; rfl
    · rename_i hp
      exact absurd hp hs

theorem runLines_tree (ls : List Str) (st st' : PState L) (h : runLines st ls = .ok st') (hs : st'.sec ≠ .plan) :
    st'.tree = st.tree := by
  fun_induction runLines st ls with
  | case1 st => cases h; rfl
  | case2 st f ls chunk he ih => exact ih h
  | case3 => cases h
  | case4 => cases h
  | case5 st f ls chunk he st1 hpl ih =>
    have hp : st.sec ≠ .plan := by
      intro hp
      have h1 := runLines_mono _ _ _ h
      have h2 := (parseLine_sec_mono st st1 _ hpl).1
      have h3 := rank_plan hs
      rw [hp] at h2
      omega
    rw [ih h, parseLine_tree st st1 _ hpl hp]

theorem sectionHeader_plan (st st' : PState L) (c : Str) :
    (∃ x, st.sectionHeader c = .error x ∧ st'.sectionHeader c = .error x) ∨
    (∃ s s' n, st.sectionHeader c = .ok (s, n) ∧ st'.sectionHeader c = .ok (s', n)) := by
  unfold sectionHeader
  split
  · exact Or.inr ⟨_, _, _, rfl, rfl⟩
  · split
    · exact Or.inr ⟨_, _, _, rfl, rfl⟩
    · split
      · split
        · split
          · exact Or.inl ⟨_, rfl, rfl⟩
          · exact Or.inr ⟨_, _, _, rfl, rfl⟩
        · exact Or.inl ⟨_, rfl, rfl⟩
      · exact Or.inl ⟨_, rfl, rfl⟩

/-- In the plan section only the tree changes, whatever else was read. -/
theorem parseLine_plan (v v' : Option Version) (e e' : L.Ext) (t : TreeBuilder L.Rel L.Add) (c : Str) :
    (∃ t', parseLine ⟨.plan, v, e, t⟩ c = .ok (⟨.plan, v, e, t'⟩ : PState L) ∧
      parseLine ⟨.plan, v', e', t⟩ c = .ok (⟨.plan, v', e', t'⟩ : PState L)) ∨
    (∃ x, parseLine ⟨.plan, v, e, t⟩ c = (.err x : Res PErr (PState L)) ∧
      parseLine ⟨.plan, v', e', t⟩ c = (.err x : Res PErr (PState L))) := by
  unfold parseLine
  dsimp only
  split
  · right
    rcases sectionHeader_plan (⟨.plan, v, e, t⟩ : PState L) ⟨.plan, v', e', t⟩ (indentedLine c).body with
      ⟨x, h1, h2⟩ | ⟨s, s', n, h1, h2⟩
    · rw [h1, h2]
      exact ⟨x, rfl, rfl⟩
    · rw [h1, h2]
      have : n.rank ≤ Sec.plan.rank := by cases n <;> simp [Sec.rank]
      simp only [this, if_true]
      exact ⟨_, rfl, rfl⟩
  · simp only [planLine]
    split
    · exact Or.inr ⟨_, rfl, rfl⟩
    · rename_i n hn
      cases t.addLine (indentedLine c).depth n with
      | error x => exact Or.inr ⟨_, rfl, rfl⟩
      | ok t' => exact Or.inl ⟨t', rfl, rfl⟩

theorem runLines_plan (v v' : Option Version) (e e' : L.Ext) (m : Nat) : ∀ (ls : List Str) (t : TreeBuilder L.Rel L.Add)
    (s : PState L), ls.length ≤ m → runLines (⟨.plan, v, e, t⟩ : PState L) ls = .ok s →
    s.version = v ∧ s.ext = e ∧ s.sec = .plan ∧
      runLines (⟨.plan, v', e', t⟩ : PState L) ls = .ok ⟨.plan, v', e', s.tree⟩ := by
  induction m with
  | zero =>
    intro ls t s hl h
    have : ls = [] := List.length_eq_zero_iff.1 (by omega)
    subst this
    rw [runLines_nil] at h
    cases h
    exact ⟨rfl, rfl, rfl, runLines_nil _⟩
  | succ m ih =>
    intro ls t s hl h
    cases ls with
    | nil =>
      rw [runLines_nil] at h
      cases h
      exact ⟨rfl, rfl, rfl, runLines_nil _⟩
    | cons f ls =>
      have hd : (ls.dropWhile (continues .plan f)).length ≤ m := by
        have := (List.dropWhile_sublist (continues .plan f) (l := ls)).length_le
        simp only [List.length_cons] at hl
        omega
      rw [runLines] at h ⊢
      dsimp only at h ⊢
      split
      · rename_i hb
        rw [if_pos hb] at h
        exact ih _ _ _ hd h
      · rename_i hb
        rw [if_neg hb] at h
        rcases parseLine_plan v v' e e' t (trimNl (f :: ls.takeWhile (continues .plan f)).flatten) with
          ⟨t', h1, h2⟩ | ⟨x, h1, h2⟩
        · rw [h1] at h
          rw [h2]
          exact ih _ _ _ hd h
        · rw [h1] at h
          cases h

theorem headersAre_nil {ls : List Str} {ss : List Sec} (h : HeadersAre ls ss) (e : ss = []) : ∀ l ∈ ls, ¬ IsHeader l := by
  induction h with
  | nil => simp
  | skip hl _ ih =>
    intro l hm
    rcases List.mem_cons.1 hm with rfl | hm
    · exact hl
    · exact ih e l hm
  | header _ _ _ => cases e

/-- The lines before a header of the plan section, and those from it on. -/
theorem runLines_split (a b : List Str) (f : Str) (hf : IsHeader f) (st s : PState L)
    (h : runLines st (a ++ f :: b) = .ok s) :
    ∃ s1, runLines st a = .ok s1 ∧ s1.sec ≠ .plan ∧ runLines s1 (f :: b) = .ok s := by
  have hnp : ∀ (a : List Str) (st : PState L), runLines st (a ++ f :: b) = .ok s → st.sec ≠ .plan := by
    intro a st h hp
    obtain ⟨ss, h1, _, h2, _⟩ := runLines_headers _ _ _ h
    have : ss = [] := by
      cases ss with
      | nil => rfl
      | cons x _ =>
        have := h2 x (by simp)
        rw [hp] at this
        cases x <;> simp [Sec.rank] at this
    exact headersAre_nil h1 this f (by simp) hf
  induction a generalizing st with
  | nil => exact ⟨st, runLines_nil st, hnp [] st h, h⟩
  | cons g a ih =>
    have hp := hnp _ st h
    rw [List.cons_append] at h
    by_cases he : trimEnd g = []
    · rw [runLines_blank st g _ (takeWhile_not_plan _ hp _ _) he] at h ⊢
      exact ih st h
    · rw [runLines_cons st g _ (takeWhile_not_plan _ hp _ _) he] at h ⊢
      obtain ⟨s1, h1, h2⟩ := Res.bind_ok_iff.1 h
      rw [h1]
      exact ih s1 h2

end PState

/-! ## From declarations to stores -/

theorem findByAnchor_iff {s : Store} {k : Kind} {a u : Nat} {n : Str} :
    s.findByAnchor k a = .ok (u, n) ↔ s.exts.find? (a, k) = some (u, n) := by
  unfold Store.findByAnchor
  cases s.exts.find? (a, k) <;> simp

theorem mem_toDecls {s : Store} (hs : s.Ordered) {k : Kind} {a u : Nat} {n : Str} :
    some (k, u, a, n) ∈ s.toDecls ↔ s.findByAnchor k a = .ok (u, n) := by
  rw [findByAnchor_iff, OMap.find?_iff hs.2]
  simp only [Store.toDecls, List.mem_map]
  constructor
  · rintro ⟨⟨⟨_, _⟩, _, _⟩, hm, he⟩
    cases he
    exact hm
  · intro hm
    exact ⟨_, hm, rfl⟩

theorem widens_of_decls {s s' : Store} (hs : s.Ordered) (hs' : s'.Ordered) (w : DeclsWiden s.toDecls s'.toDecls) :
    Widens s s' where
  keeps k a u n h := (mem_toDecls hs').1 (w.keeps k u a n ((mem_toDecls hs).2 h))
  fresh k a n h := by
    obtain ⟨u, hu⟩ := h
    rcases w.fresh k u a n ((mem_toDecls hs').2 hu) with h | h
    · exact Or.inl ⟨u, (mem_toDecls hs).1 h⟩
    · refine Or.inr fun b m hb => ?_
      obtain ⟨v, hv⟩ := hb
      exact h v b m ((mem_toDecls hs).2 hv)

theorem firstExt_planOps (us : List (Nat × Str)) (ds : List Store.Decl) (a : Nat) (k : Kind) :
    firstExt (planOps us ds) a k = firstExt (planOps [] ds) a k := by
  have : firstExt (us.map fun p => Op.urn p.2 p.1) a k = none := by
    induction us with
    | nil => rfl
    | cons p us ih => simpa [firstExt] using ih
  unfold firstExt planOps at *
  rw [List.findSome?_append, this]
  simp

theorem firstExt_append (h g : List Op) (a : Nat) (k : Kind) :
    firstExt (h ++ g) a k = (firstExt h a k).or (firstExt g a k) := by
  unfold firstExt
  rw [List.findSome?_append]

theorem firstExt_from {ds : List Store.Decl} {a : Nat} {k : Kind} {u : Nat} {n : Str}
    (h : firstExt (planOps [] ds) a k = some (u, n)) : ∃ m, some (k, u, a, m) ∈ ds ∧ legalName k m = some n := by
  obtain ⟨op, hm, he⟩ := List.exists_of_findSome?_eq_some h
  simp only [planOps, List.map_nil, List.nil_append, List.mem_map] at hm
  obtain ⟨d, hd, rfl⟩ := hm
  cases d with
  | none => cases he
  | some d =>
    obtain ⟨k', u', b, m⟩ := d
    dsimp only at he
    split at he
    · next hb =>
      obtain ⟨rfl, rfl⟩ := hb
      obtain ⟨n', h1, h2⟩ := Option.map_eq_some_iff.1 he
      cases h2
      exact ⟨m, hd, h1⟩
    · cases he

theorem findByAnchor_plan (us : List (Nat × Str)) (ds : List Store.Decl) (a : Nat) (k : Kind) (u : Nat) (n : Str) :
    (Store.fromExtensions us ds).1.findByAnchor k a = .ok (u, n) ↔ firstExt (planOps [] ds) a k = some (u, n) := by
  rw [Store.fromExtensions_spec, findByAnchor_iff, (Store.run_spec _).2, firstExt_planOps]

theorem planOps_append (ds more : List Store.Decl) : planOps [] (ds ++ more) = planOps [] ds ++ planOps [] more := by
  simp [planOps]

theorem widens_append (us us' : List (Nat × Str)) (ds more : List Store.Decl) (h : Unrelated ds more) :
    Widens (Store.fromExtensions us ds).1 (Store.fromExtensions us' (ds ++ more)).1 where
  keeps k a u n h := by
    rw [findByAnchor_plan] at h ⊢
    rw [planOps_append, firstExt_append, h]
    rfl
  fresh k a n hd := by
    obtain ⟨u, hu⟩ := hd
    rw [findByAnchor_plan, planOps_append, firstExt_append] at hu
    cases hf : firstExt (planOps [] ds) a k with
    | some p =>
      rw [hf] at hu
      cases hu
      exact Or.inl ⟨u, (findByAnchor_plan ..).2 hf⟩
    | none =>
      rw [hf, Option.none_or] at hu
      right
      rintro b m ⟨v, hv⟩
      rw [findByAnchor_plan] at hv
      obtain ⟨m0, hm, hm'⟩ := firstExt_from hv
      obtain ⟨n0, hn, hn'⟩ := firstExt_from hu
      exact h k u a n0 n v b m0 m hn hn' hm hm'

theorem planStore_ordered (us : List (Nat × Str)) (ds : List Store.Decl) : (Store.fromExtensions us ds).1.Ordered := by
  rw [Store.fromExtensions_spec]
  exact Store.ordered_run _

/-! ## Whole texts -/

/-- The line that starts the plan section. -/
theorem parseLine_planHeader {L : Lang} (st : PState L) (h : st.sec ≠ .plan) :
    st.parseLine (planHeader ++ ['\n']) = .ok { st with sec := .plan } := by
  rw [PState.parseLine_nl]
  have h1 : indentedLine planHeader = ⟨0, planHeader⟩ := by decide +kernel
  have h2 : (stripPrefix cs!"===" planHeader).isSome = true := by decide +kernel
  have h3 : planHeader ≠ extensionsHeader := by decide +kernel
  unfold PState.parseLine
  rw [h1]
  dsimp only
  rw [if_pos ⟨rfl, h2⟩]
  have : st.sectionHeader planHeader = .ok (st, .plan) := by
    unfold PState.sectionHeader
    rw [if_neg h3, if_pos rfl]
  rw [this]
  have : ¬ Sec.plan.rank ≤ st.sec.rank := by
    have := PState.rank_plan h
    omega
  simp only [if_neg this]

theorem physLines_planHeader (body : Str) :
    physLines (planHeader ++ ['\n'] ++ body) = (planHeader ++ ['\n']) :: physLines body := by
  have : planHeader = cs!"=== Plan" := rfl
  rw [this]
  simp [physLines]

theorem mapErr_ok_inv {ε ε' α : Type} {g : ε → ε'} {r : Res ε α} {a : α} (h : r.mapErr g = .ok a) : r = .ok a := by
  cases r <;> cases h
  rfl

theorem ext_ordered {ls : List Str} {s : PState planLang} (h : PState.runLines (PState.init : PState planLang) ls = .ok s) :
    (s.ext : ExtState).store.Ordered := by
  obtain ⟨_, _, _, ops, _, _, _, _, _, _, _, _, h4, _⟩ := initial_run _ _ _ rfl rfl rfl h
  obtain ⟨_, hst⟩ := StoreRun.run (past := []) h4
  rw [hst]
  exact Store.ordered_run _

variable [FTab]

theorem buildPlan_inv {reg : Registry ExtArgs (List Nat)} {s : PState planLang} {p : Plan} (h : buildPlan reg s = .ok p) :
    ∃ rels, convPlanRels (s.ext : ExtState).store reg s.tree.finish = .ok rels ∧
      p = ⟨s.version, (s.ext : ExtState).store.toUrns, (s.ext : ExtState).store.toDecls, rels⟩ := by
  unfold buildPlan at h
  generalize hc : convPlanRels (s.ext : ExtState).store reg s.tree.finish = c at h
  cases c with
  | err e => cases h
  | panic => cases h
  | ok rels => cases h; exact ⟨rels, rfl, rfl⟩

/-- What is written before the plan section matters only through what it declares. -/
theorem parsePlan_swap {reg : Registry ExtArgs (List Nat)} {pre pre' body : Str} {p d : Plan}
    (hp : pre = [] ∨ pre.getLast? = some '\n') (hp' : pre' = [] ∨ pre'.getLast? = some '\n')
    (h : parsePlan reg (pre ++ (planHeader ++ ['\n'] ++ body)) = .ok p)
    (h' : parsePlan reg (pre' ++ (planHeader ++ ['\n'])) = .ok d)
    (w : DeclsWiden p.decls d.decls) :
    parsePlan reg (pre' ++ (planHeader ++ ['\n'] ++ body)) = .ok { d with rels := p.rels } := by
  have hhead : IsHeader (planHeader ++ ['\n']) := ⟨cs!" Plan\n", rfl⟩
  have hne : trimEnd (planHeader ++ ['\n']) ≠ [] := by decide +kernel
  unfold parsePlan at h h' ⊢
  rw [PState.parseSections_eq] at h h' ⊢
  rw [physLines_append_complete _ _ hp, physLines_planHeader] at h
  rw [physLines_append_complete _ _ hp', physLines_planHeader]
  have e : physLines (planHeader ++ ['\n']) = [planHeader ++ ['\n']] := by
    have := physLines_planHeader []
    rwa [List.append_nil] at this
  rw [physLines_append_complete _ _ hp', e] at h'
  obtain ⟨s, hs, hb⟩ := Res.bind_ok_iff.1 h
  obtain ⟨t, ht, hb'⟩ := Res.bind_ok_iff.1 h'
  have hs := mapErr_ok_inv hs
  have ht := mapErr_ok_inv ht
  obtain ⟨s1, hs1, hsec, hs2⟩ := PState.runLines_split _ _ _ hhead _ _ hs
  obtain ⟨t1, ht1, htec, ht2⟩ := PState.runLines_split _ _ _ hhead _ _ ht
  rw [PState.runLines_cons _ _ _ (PState.takeWhile_not_plan _ hsec _ _) hne, parseLine_planHeader _ hsec] at hs2
  rw [PState.runLines_cons _ _ _ (PState.takeWhile_not_plan _ htec _ _) hne, parseLine_planHeader _ htec] at ht2
  have ht2 : PState.runLines { t1 with sec := .plan } [] = .ok t := ht2
  rw [PState.runLines_nil] at ht2
  cases ht2
  have htree1 := PState.runLines_tree _ _ _ hs1 hsec
  have htree2 := PState.runLines_tree _ _ _ ht1 htec
  obtain ⟨sec1, v1, e1, tr1⟩ := s1
  obtain ⟨sec2, v2, e2, tr2⟩ := t1
  dsimp only at htree1 htree2 hsec htec
  subst htree1
  subst htree2
  obtain ⟨hv, he, hsp, hrun⟩ := PState.runLines_plan v1 v2 e1 e2 _ _ _ _ (Nat.le_refl _) hs2
  rw [PState.runLines_append _ _ _ _ ht1 htec,
    PState.runLines_cons _ _ _ (PState.takeWhile_not_plan _ htec _ _) hne, parseLine_planHeader _ htec]
  have hrun' : ((Res.ok { sec := .plan, version := v2, ext := e2, tree := (PState.init : PState planLang).tree } :
      Res PErr (PState planLang)).bind fun st' => PState.runLines st' (physLines body)) =
      .ok ⟨.plan, v2, e2, s.tree⟩ := hrun
  rw [hrun']
  have ho := ext_ordered hs
  have ho' := ext_ordered ht
  obtain ⟨rels, hc, rfl⟩ := buildPlan_inv hb
  obtain ⟨rels', hc', rfl⟩ := buildPlan_inv hb'
  have hw := widens_of_decls ho ho' w
  have hk : Resolves (s.ext : ExtState).store (e2 : ExtState).store := fun k x nm a ha => hw.anchor ho ho' ha
  have hr := hk.planRels reg s.tree.finish rels hc
  show buildPlan reg ⟨.plan, v2, e2, s.tree⟩ = _
  unfold buildPlan
  dsimp only
  have hr' : convPlanRels (e2 : ExtState).store reg s.tree.finish = .ok rels := hr
  rw [hr']
  rfl

end Verif
