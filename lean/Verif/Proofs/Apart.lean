import Verif.Proofs.UnrelatedText
/-!
# The relations of a plan are read independently of each other
-/

namespace Verif

set_option autoImplicit false

open ChunkSpec SectionSpec

theorem trimEnd_cons {c : Char} (hc : isWs c = false) (s : Str) : trimEnd (c :: s) = c :: trimEnd s := by
  by_cases h : trimEnd s = []
  · have := trimEnd_append_ws [c] s ((trimEnd_eq_nil_iff s).1 h)
    rw [h]
    rw [show c :: s = [c] ++ s from rfl, this]
    exact trimEnd_clean [c] (fun d hd => by cases hd; exact hc)
  · exact trimEnd_append_ne [c] s h

theorem depth_zero {c : Char} (hc : isWs c = false) (s : Str) :
    (indentedLine (c :: s)).depth = 0 ∧ startsDash (indentedLine (c :: s)).body = startsDash (c :: trimEnd s) := by
  have hsp : c ≠ ' ' := by rintro rfl; revert hc; decide
  simp [indentedLine, trimEnd_cons hc, hsp]

namespace TreeBuilder
variable {ρ α : Type}

/-- The builder with further finished trees in front. -/
def after (fs : List (RNode ρ α)) (t : TreeBuilder ρ α) : TreeBuilder ρ α := ⟨t.current, fs ++ t.completed⟩

theorem after_finish (fs : List (RNode ρ α)) (t : TreeBuilder ρ α) : (t.after fs).finish = fs ++ t.finish := by
  simp [after, finish]

/-- Finished trees do not matter to further lines. -/
theorem addLine_after (fs : List (RNode ρ α)) (t : TreeBuilder ρ α) (d : Nat) (n : LineNode ρ α) :
    (t.after fs).addLine d n = match t.addLine d n with
      | .error e => .error e
      | .ok t' => .ok (t'.after fs) := by
  cases n with
  | relation r =>
    simp only [addLine, after]
    split
    · simp
    · rcases t.current.bind (updateAt (d - 1) (pushChild (.mk r [] []))) with _ | _ | _ <;> rfl
  | addendum a =>
    simp only [addLine, after]
    split
    · rfl
    · rcases t.current.bind (updateAt (d - 1) (pushAddendum a)) with _ | _ | _ <;> rfl

/-- A line that is not indented ends what came before it. -/
theorem addLine_top (t : TreeBuilder ρ α) (n : LineNode ρ α) :
    t.addLine 0 n = match (empty : TreeBuilder ρ α).addLine 0 n with
      | .error e => .error e
      | .ok t' => .ok (t'.after t.finish) := by
  cases n with
  | relation r => simp [addLine, after, empty, finish]
  | addendum a => simp [addLine]

end TreeBuilder

namespace PState
variable {L : Lang}

/-- What a line of the plan section says. -/
theorem parseLine_node (c : Str) :
    (∃ x, ∀ (v : Option Version) (e : L.Ext) (t : TreeBuilder L.Rel L.Add),
      parseLine (⟨.plan, v, e, t⟩ : PState L) c = .err x) ∨
    (∃ n, ∀ (v : Option Version) (e : L.Ext) (t : TreeBuilder L.Rel L.Add),
      parseLine (⟨.plan, v, e, t⟩ : PState L) c =
        match t.addLine (indentedLine c).depth n with
        | .error x => .err (.tree x)
        | .ok t => .ok ⟨.plan, v, e, t⟩) := by
  by_cases hh : (indentedLine c).depth = 0 ∧ (stripPrefix cs!"===" (indentedLine c).body).isSome
  · left
    cases hx : sectionHeader (⟨.plan, none, L.extInit, .empty⟩ : PState L) (indentedLine c).body with
    | error x =>
      refine ⟨x, fun v e t => ?_⟩
      unfold parseLine
      dsimp only
      rw [if_pos hh]
      rcases sectionHeader_plan (⟨.plan, none, L.extInit, .empty⟩ : PState L) ⟨.plan, v, e, t⟩ (indentedLine c).body with
        ⟨x', h1, h2⟩ | ⟨s, s', n, h1, h2⟩
      · rw [hx] at h1
        cases h1
        rw [h2]
      · rw [hx] at h1
        cases h1
    | ok r =>
      refine ⟨.sectionOrder, fun v e t => ?_⟩
      unfold parseLine
      dsimp only
      rw [if_pos hh]
      rcases sectionHeader_plan (⟨.plan, none, L.extInit, .empty⟩ : PState L) ⟨.plan, v, e, t⟩ (indentedLine c).body with
        ⟨x', h1, h2⟩ | ⟨s, s', n, h1, h2⟩
      · rw [hx] at h1
        cases h1
      · rw [h2]
        have : n.rank ≤ Sec.plan.rank := by cases n <;> simp [Sec.rank]
        simp only [this, if_true]
  · cases hn : (if (indentedLine c).depth = 0 then L.top (indentedLine c).body else L.node (indentedLine c).body) with
    | none =>
      refine Or.inl ⟨.relationSyntax, fun v e t => ?_⟩
      unfold parseLine
      dsimp only
      rw [if_neg hh]
      simp only [planLine, hn]
    | some n =>
      refine Or.inr ⟨n, fun v e t => ?_⟩
      unfold parseLine
      dsimp only
      rw [if_neg hh]
      simp only [planLine, hn]
      cases t.addLine (indentedLine c).depth n <;> rfl

/-- Finished trees do not matter to further lines. -/
theorem runLines_after (v : Option Version) (e : L.Ext) (fs : List (RNode L.Rel L.Add)) (m : Nat) :
    ∀ (ls : List Str) (t : TreeBuilder L.Rel L.Add), ls.length ≤ m →
    runLines (⟨.plan, v, e, t.after fs⟩ : PState L) ls =
      (runLines (⟨.plan, v, e, t⟩ : PState L) ls).map fun s => ⟨s.sec, s.version, s.ext, s.tree.after fs⟩ := by
  induction m with
  | zero =>
    intro ls t hl
    have : ls = [] := List.length_eq_zero_iff.1 (by omega)
    subst this
    rw [runLines_nil, runLines_nil]
    rfl
  | succ m ih =>
    intro ls t hl
    cases ls with
    | nil => rw [runLines_nil, runLines_nil]; rfl
    | cons f ls =>
      have hd : (ls.dropWhile (continues .plan f)).length ≤ m := by
        have := (List.dropWhile_sublist (continues .plan f) (l := ls)).length_le
        simp only [List.length_cons] at hl
        omega
      rw [runLines, runLines]
      dsimp only
      split
      · exact ih _ _ hd
      · rcases parseLine_node (L := L) (trimNl (f :: ls.takeWhile (continues .plan f)).flatten) with ⟨x, h⟩ | ⟨n, h⟩
        · rw [h, h]
          rfl
        · rw [h, h, TreeBuilder.addLine_after]
          cases t.addLine (indentedLine (trimNl (f :: ls.takeWhile (continues .plan f)).flatten)).depth n with
          | error x => rfl
          | ok t' => exact ih _ _ hd

/-- A line that is not indented starts anew. -/
theorem runLines_top (v : Option Version) (e : L.Ext) (t : TreeBuilder L.Rel L.Add) (f : Str) (ls : List Str)
    (hf : ∃ c r, f = c :: r ∧ isWs c = false) :
    runLines (⟨.plan, v, e, t⟩ : PState L) (f :: ls) =
      (runLines (⟨.plan, v, e, .empty⟩ : PState L) (f :: ls)).map
        fun s => ⟨s.sec, s.version, s.ext, s.tree.after t.finish⟩ := by
  rw [runLines, runLines]
  dsimp only
  have hb : ¬ (trim (trimNl (f :: ls.takeWhile (continues .plan f)).flatten)).isEmpty := by
    rw [trim_isEmpty_iff, trimEnd_trimNl]
    obtain ⟨c, r, rfl, hc⟩ := hf
    intro h
    have := (trimEnd_eq_nil_iff _).1 h c (by simp)
    rw [hc] at this
    cases this
  rw [if_neg hb, if_neg hb]
  have hdep : (indentedLine (trimNl (f :: ls.takeWhile (continues .plan f)).flatten)).depth = 0 := by
    rw [indentedLine_trimNl, List.flatten_cons]
    obtain ⟨c, r, rfl, hc⟩ := hf
    rw [List.cons_append]
    exact (depth_zero hc _).1
  rcases parseLine_node (L := L) (trimNl (f :: ls.takeWhile (continues .plan f)).flatten) with ⟨x, h⟩ | ⟨n, h⟩
  · rw [h, h]
    rfl
  · rw [h, h, hdep, TreeBuilder.addLine_top]
    cases (TreeBuilder.empty : TreeBuilder L.Rel L.Add).addLine 0 n with
    | error x => rfl
    | ok t' => exact runLines_after v e _ _ _ _ (Nat.le_refl _)

/-- Lines of the plan section, in two parts. -/
theorem runLines_plan_append (b : List Str) (hb : ∀ l, b.head? = some l → ∀ f, continues .plan f l = false) (m : Nat) :
    ∀ (a : List Str) (st : PState L), a.length ≤ m → st.sec = .plan →
    runLines st (a ++ b) = (runLines st a).bind fun s => runLines s b := by
  have htw : ∀ f, b.takeWhile (continues .plan f) = [] := by
    intro f
    cases b with
    | nil => rfl
    | cons l b => rw [List.takeWhile_cons, hb l rfl f]; rfl
  have hdw : ∀ f, b.dropWhile (continues .plan f) = b := by
    intro f
    cases b with
    | nil => rfl
    | cons l b => rw [List.dropWhile_cons, hb l rfl f]; rfl
  have ht : ∀ (f : Str) (a : List Str), (a ++ b).takeWhile (continues .plan f) = a.takeWhile (continues .plan f) := by
    intro f a
    induction a with
    | nil => rw [List.nil_append, htw]; rfl
    | cons x a ih => rw [List.cons_append, List.takeWhile_cons, List.takeWhile_cons, ih]
  have hdr : ∀ (f : Str) (a : List Str), (a ++ b).dropWhile (continues .plan f) = a.dropWhile (continues .plan f) ++ b := by
    intro f a
    induction a with
    | nil => rw [List.nil_append, hdw]; rfl
    | cons x a ih => rw [List.cons_append, List.dropWhile_cons, List.dropWhile_cons, ih]; split <;> rfl
  induction m with
  | zero =>
    intro a st hl hs
    have : a = [] := List.length_eq_zero_iff.1 (by omega)
    subst this
    rw [runLines_nil]
    rfl
  | succ m ih =>
    intro a st hl hs
    cases a with
    | nil => rw [runLines_nil]; rfl
    | cons f a =>
      have hd : (a.dropWhile (continues .plan f)).length ≤ m := by
        have := (List.dropWhile_sublist (continues .plan f) (l := a)).length_le
        simp only [List.length_cons] at hl
        omega
      obtain ⟨sec, v, e, t⟩ := st
      dsimp only at hs
      subst hs
      rw [List.cons_append, runLines, runLines]
      dsimp only
      rw [ht, hdr]
      split
      · exact ih _ _ hd rfl
      · rcases parseLine_node (L := L) (trimNl (f :: a.takeWhile (continues .plan f)).flatten) with ⟨x, h⟩ | ⟨n, h⟩
        · rw [h]
          rfl
        · rw [h]
          cases t.addLine (indentedLine (trimNl (f :: a.takeWhile (continues .plan f)).flatten)).depth n with
          | error x => rfl
          | ok t' => exact ih _ _ hd rfl

end PState

theorem continues_top {c : Char} (hc : isWs c = false) (r f : Str) : PState.continues .plan f (c :: r) = false := by
  have h := (depth_zero hc r).1
  unfold PState.continues
  rw [indentedLine_content, h]
  simp

theorem physLines_head {c : Char} (hc : isWs c = false) (s : Str) : ∃ r ls, physLines (c :: s) = (c :: r) :: ls := by
  have hn : c ≠ '\n' := by rintro rfl; revert hc; decide
  simp only [physLines, if_neg hn]
  cases physLines s with
  | nil => exact ⟨[], [], rfl⟩
  | cons l ls => exact ⟨l, ls, rfl⟩

theorem convPlanRels_append [FTab] (st : Store) (reg : Registry ExtArgs (List Nat)) (l m : List (RNode SLine SAddendum))
    (rels : List PlanRel) :
    convPlanRels st reg (l ++ m) = .ok rels ↔
      ∃ r1 r2, convPlanRels st reg l = .ok r1 ∧ convPlanRels st reg m = .ok r2 ∧ rels = r1 ++ r2 := by
  induction l generalizing rels with
  | nil =>
    constructor
    · intro h
      exact ⟨[], rels, rfl, h, rfl⟩
    · rintro ⟨r1, r2, h1, h2, rfl⟩
      cases h1
      exact h2
  | cons t l ih =>
    simp only [List.cons_append, convPlanRels, Res.bind_ok_iff, ih]
    constructor
    · rintro ⟨r, hr, rs, ⟨r1, r2, h1, h2, rfl⟩, h3⟩
      cases h3
      exact ⟨r :: r1, r2, ⟨r, hr, r1, h1, rfl⟩, h2, rfl⟩
    · rintro ⟨_, r2, ⟨r, hr, r1, h1, h3⟩, h2, rfl⟩
      cases h3
      exact ⟨r, hr, _, ⟨r1, r2, h1, h2, rfl⟩, rfl⟩

theorem buildPlan_of [FTab] {reg : Registry ExtArgs (List Nat)} {s : PState planLang} {rels : List PlanRel}
    (h : convPlanRels (s.ext : ExtState).store reg s.tree.finish = .ok rels) :
    buildPlan reg s = .ok ⟨s.version, (s.ext : ExtState).store.toUrns, (s.ext : ExtState).store.toDecls, rels⟩ := by
  unfold buildPlan
  rw [h]
  rfl

/-- A text as a start, the header of the plan section and lines of it. -/
theorem parsePlan_iff [FTab] {reg : Registry ExtArgs (List Nat)} {pre body : Str} {p : Plan}
    (hp : pre = [] ∨ pre.getLast? = some '\n') :
    parsePlan reg (pre ++ (planHeader ++ ['\n'] ++ body)) = .ok p ↔
      ∃ v e t, (∃ sec, sec ≠ .plan ∧
          PState.runLines (PState.init : PState planLang) (physLines pre) = .ok ⟨sec, v, e, .empty⟩) ∧
        PState.runLines (⟨.plan, v, e, .empty⟩ : PState planLang) (physLines body) = .ok ⟨.plan, v, e, t⟩ ∧
        buildPlan reg ⟨.plan, v, e, t⟩ = .ok p := by
  have hhead : IsHeader (planHeader ++ ['\n']) := ⟨cs!" Plan\n", rfl⟩
  have hne : trimEnd (planHeader ++ ['\n']) ≠ [] := by decide +kernel
  unfold parsePlan
  rw [PState.parseSections_eq, physLines_append_complete _ _ hp, physLines_planHeader]
  constructor
  · intro h
    obtain ⟨s, hs, hb⟩ := Res.bind_ok_iff.1 h
    have hs := mapErr_ok_inv hs
    obtain ⟨s1, hs1, hsec, hs2⟩ := PState.runLines_split _ _ _ hhead _ _ hs
    rw [PState.runLines_cons _ _ _ (PState.takeWhile_not_plan _ hsec _ _) hne, parseLine_planHeader _ hsec] at hs2
    have htree := PState.runLines_tree _ _ _ hs1 hsec
    obtain ⟨sec, v, e, tr⟩ := s1
    dsimp only at htree hsec
    subst htree
    obtain ⟨hv, he, hsp, -⟩ := PState.runLines_plan v v e e _ _ _ _ (Nat.le_refl _) hs2
    obtain ⟨sec', v', e', t'⟩ := s
    dsimp only at hv he hsp
    subst hv; subst he; subst hsp
    exact ⟨_, _, t', ⟨sec, hsec, hs1⟩, hs2, hb⟩
  · rintro ⟨v, e, t, ⟨sec, hsec, h1⟩, h2, h3⟩
    rw [PState.runLines_append _ _ _ _ h1 hsec,
      PState.runLines_cons _ _ _ (PState.takeWhile_not_plan _ hsec _ _) hne, parseLine_planHeader _ hsec]
    show ((PState.runLines (⟨.plan, v, e, .empty⟩ : PState planLang) (physLines body)).mapErr PlanErr.text).bind
      (buildPlan reg) = .ok p
    rw [h2]
    exact h3

theorem Res.map_ok_iff {ε α β : Type} {f : α → β} {r : Res ε α} {b : β} : r.map f = .ok b ↔ ∃ a, r = .ok a ∧ f a = b := by
  cases r <;> simp [Res.map]

/-- The relations of two texts one after the other. -/
theorem parsePlan_append [FTab] {reg : Registry ExtArgs (List Nat)} {pre a b : Str} {c : Char} {p : Plan}
    (hp : pre = [] ∨ pre.getLast? = some '\n') (ha : a = [] ∨ a.getLast? = some '\n') (hc : isWs c = false) :
    parsePlan reg (pre ++ (planHeader ++ ['\n'] ++ (a ++ c :: b))) = .ok p ↔
      ∃ q r, parsePlan reg (pre ++ (planHeader ++ ['\n'] ++ a)) = .ok q ∧
        parsePlan reg (pre ++ (planHeader ++ ['\n'] ++ c :: b)) = .ok r ∧
        p = ⟨q.version, q.urns, q.decls, q.rels ++ r.rels⟩ := by
  obtain ⟨f, ls, hphys⟩ := physLines_head hc b
  have happ : ∀ (v : Option Version) (e : planLang.Ext), PState.runLines (⟨.plan, v, e, .empty⟩ : PState planLang) (physLines (a ++ c :: b)) =
      (PState.runLines (⟨.plan, v, e, .empty⟩ : PState planLang) (physLines a)).bind fun s =>
        PState.runLines s (physLines (c :: b)) := by
    intro v e
    rw [physLines_append_complete _ _ ha]
    refine PState.runLines_plan_append _ ?_ _ _ _ (Nat.le_refl _) rfl
    intro l hl g
    rw [hphys] at hl
    cases hl
    exact continues_top hc _ _
  rw [parsePlan_iff hp]
  constructor
  · rintro ⟨v, e, t, h1, h2, h3⟩
    rw [happ] at h2
    obtain ⟨s, h4, h5⟩ := Res.bind_ok_iff.1 h2
    obtain ⟨hv, he, hsp, -⟩ := PState.runLines_plan v v e e _ _ _ _ (Nat.le_refl _) h4
    obtain ⟨sec', v', e', t'⟩ := s
    dsimp only at hv he hsp
    subst hv; subst he; subst hsp
    rw [hphys, PState.runLines_top _ _ _ _ _ ⟨c, f, rfl, hc⟩, ← hphys] at h5
    obtain ⟨s2, h6, h7⟩ := Res.map_ok_iff.1 h5
    obtain ⟨hv, he, hsp, -⟩ := PState.runLines_plan _ v' _ e' _ _ _ _ (Nat.le_refl _) h6
    obtain ⟨sec2, v2, e2, t2⟩ := s2
    dsimp only at hv he hsp
    subst hv; subst he; subst hsp
    cases h7
    obtain ⟨rels, hcv, rfl⟩ := buildPlan_inv h3
    rw [TreeBuilder.after_finish] at hcv
    obtain ⟨r1, r2, hr1, hr2, rfl⟩ := (convPlanRels_append _ _ _ _ _).1 hcv
    refine ⟨_, _, (parsePlan_iff hp).2 ⟨v2, e2, t', h1, h4, buildPlan_of hr1⟩,
      (parsePlan_iff hp).2 ⟨v2, e2, t2, h1, h6, buildPlan_of hr2⟩, rfl⟩
  · rintro ⟨q, r, hq, hr, rfl⟩
    obtain ⟨v, e, t, ⟨sec, hs, h1⟩, h2, h3⟩ := (parsePlan_iff hp).1 hq
    obtain ⟨v', e', t', ⟨sec', hs', h1'⟩, h2', h3'⟩ := (parsePlan_iff hp).1 hr
    rw [h1] at h1'
    cases h1'
    obtain ⟨r1, hr1, rfl⟩ := buildPlan_inv h3
    obtain ⟨r2, hr2, rfl⟩ := buildPlan_inv h3'
    refine ⟨v, e, t'.after t.finish, ⟨sec, hs, h1⟩, ?_, ?_⟩
    · rw [happ, h2]
      show PState.runLines (⟨.plan, v, e, t⟩ : PState planLang) (physLines (c :: b)) = _
      rw [hphys, PState.runLines_top _ _ _ _ _ ⟨c, f, rfl, hc⟩, ← hphys, h2']
      rfl
    · refine buildPlan_of ?_
      have : (t'.after t.finish).finish = t.finish ++ t'.finish := TreeBuilder.after_finish _ _
      dsimp only at hr1 hr2 ⊢
      rw [this]
      exact (convPlanRels_append _ _ _ _ _).2 ⟨r1, r2, hr1, hr2, rfl⟩

end Verif
