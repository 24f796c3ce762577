import Verif.Proofs.Silent
import Verif.Spec.Plan
/-!
# What can be written is kept as it is
-/

namespace Verif

set_option autoImplicit false

open SilentSpec StoreSpec TextSpec RelSpec PlanSpec

theorem keptLiteral_idem (l : Literal) : keptLiteral (keptLiteral l) = keptLiteral l := by
  obtain ⟨value, nullable, tvar⟩ := l
  cases value with
  | none => rfl
  | some v =>
    cases v <;> try rfl
    rename_i i
    obtain ⟨d, s, n, m⟩ := i
    cases m <;> rfl

mutual
theorem keptExpr_idem (e : Expr) : keptExpr (keptExpr e) = keptExpr e := by
  match e with
  | .missing => rfl
  | .other => rfl
  | .literal l => simp only [keptExpr, keptLiteral_idem]
  | .selection f => cases f <;> rfl
  | .call f args opts out => simp only [keptExpr, keptArgs_idem args]
  | .cast e t fb => simp only [keptExpr, keptExprOpt_idem e]
  | .ifThen ifs els => simp only [keptExpr, keptClauses_idem ifs, keptExprOpt_idem els]
theorem keptExprOpt_idem (e : Option Expr) : keptExprOpt (keptExprOpt e) = keptExprOpt e := by
  match e with
  | none => rfl
  | some e => simp only [keptExprOpt, keptExpr_idem e]
theorem keptArgs_idem (l : List Arg) : keptArgs (keptArgs l) = keptArgs l := by
  match l with
  | [] => rfl
  | .missing :: l => simp only [keptArgs, keptArgs_idem l]
  | .ty t :: l => simp only [keptArgs, keptArgs_idem l]
  | .enum s :: l => simp only [keptArgs, keptArgs_idem l]
  | .value e :: l => simp only [keptArgs, keptArgs_idem l, keptExpr_idem e]
theorem keptClauses_idem (l : List Clause) : keptClauses (keptClauses l) = keptClauses l := by
  match l with
  | [] => rfl
  | .mk c t :: l => simp only [keptClauses, keptClauses_idem l, keptExprOpt_idem c, keptExprOpt_idem t]
end

theorem map_keptExpr_idem (l : List Expr) : (l.map keptExpr).map keptExpr = l.map keptExpr := by
  rw [List.map_map]; exact List.map_congr_left fun e _ => keptExpr_idem e

theorem opt_keptExpr_idem (l : Option Expr) : (l.map keptExpr).map keptExpr = l.map keptExpr := by
  cases l with
  | none => rfl
  | some e => simp [keptExpr_idem]

theorem keptCommon_idem (c : Option Common) : keptCommon (keptCommon c) = keptCommon c := by cases c <;> rfl

theorem keptGrouping_plain (g : List Expr) (gs : List Grouping) (h : ∀ x ∈ gs, x.exprs = []) :
    keptGrouping g gs = (g.map keptExpr, gs.map fun x => ⟨x.refs, []⟩) := by
  unfold keptGrouping
  rw [if_neg]
  rintro ⟨-, x, hx, hne⟩
  exact hne (h x (List.mem_of_mem_head? hx))

theorem keptGrouping_exprs (g : List Expr) (gs : List Grouping) : ∀ x ∈ (keptGrouping g gs).2, x.exprs = [] := by
  unfold keptGrouping
  split <;>
  · intro x hx
    obtain ⟨y, -, rfl⟩ := List.mem_map.1 hx
    rfl

theorem keptGrouping_fst (g : List Expr) (gs : List Grouping) :
    (keptGrouping g gs).1.map keptExpr = (keptGrouping g gs).1 := by
  unfold keptGrouping
  split <;> exact map_keptExpr_idem _

theorem refs_only (gs : List Grouping) (h : ∀ x ∈ gs, x.exprs = []) :
    (gs.map fun x => (⟨x.refs, []⟩ : Grouping)) = gs := by
  have : (gs.map fun x => (⟨x.refs, []⟩ : Grouping)) = gs.map id := by
    refine List.map_congr_left fun x hx => ?_
    have := h x hx
    obtain ⟨r, e⟩ := x
    simp only at this
    subst this; rfl
  rw [this, List.map_id]

theorem keptMeasure_idem (ms : List Measure) :
    (ms.filterMap keptMeasure).filterMap keptMeasure = ms.filterMap keptMeasure := by
  rw [List.filterMap_filterMap]
  congr 1
  funext m
  obtain ⟨fn, rest⟩ := m
  cases fn with
  | none => rfl
  | some f => simp [keptMeasure, keptArgs_idem]

theorem keptCount_idem (c : Option Count) : (c.map keptCount).map keptCount = c.map keptCount := by
  cases c with
  | none => rfl
  | some c => cases c <;> simp [keptCount, keptExpr_idem]

theorem keptOp_idem (op : RelOp) : keptOp (keptOp op) = keptOp op := by
  cases op with
  | read c s f t a n =>
    have hs : (s.map keptSchema).map keptSchema = s.map keptSchema := by
      cases s with
      | none => rfl
      | some s => obtain ⟨names, struct⟩ := s; cases struct <;> rfl
    simp only [keptOp, keptCommon_idem, hs]
    cases t with
    | «virtual» rows rest =>
      simp only [keptRead, keptFilter, opt_keptExpr_idem, List.map_map]
      congr 2
      refine List.map_congr_left fun r _ => ?_
      exact map_keptExpr_idem r
    | named => rfl
    | extension => rfl
    | other => rfl
  | filter c e a => simp only [keptOp, keptCommon_idem, opt_keptExpr_idem]
  | project c es a => simp only [keptOp, keptCommon_idem, map_keptExpr_idem]
  | aggregate c g gs ms a =>
    simp only [keptOp, keptCommon_idem, keptMeasure_idem]
    rw [keptGrouping_plain _ _ (keptGrouping_exprs g gs), keptGrouping_fst, refs_only _ (keptGrouping_exprs g gs)]
  | sort c fs a =>
    simp only [keptOp, keptCommon_idem, List.map_map]
    congr 1
    refine List.map_congr_left fun f _ => ?_
    simp only [Function.comp_apply, opt_keptExpr_idem]
  | fetch c n m a => simp only [keptOp, keptCommon_idem, keptCount_idem]
  | join c t e p a => simp only [keptOp, keptCommon_idem, opt_keptExpr_idem]
  | set c op a => simp only [keptOp, keptCommon_idem]
  | cross c a => simp only [keptOp, keptCommon_idem]
  | ext k c d =>
    have : keptExtCommon (keptExtCommon c) = keptExtCommon c := by
      cases c with
      | none => rfl
      | some c =>
        obtain ⟨e, r⟩ := c
        cases e with
        | none => rfl
        | some e => cases e <;> rfl
    simp only [keptOp, this]
  | other n => rfl

mutual
theorem keptRel_idem (r : Rel) : keptRel (keptRel r) = keptRel r := by
  match r with
  | .node op ins => simp only [keptRel, keptOp_idem, keptInputs_idem ins]
theorem keptInputs_idem (l : List (Option Rel)) : keptInputs (keptInputs l) = keptInputs l := by
  match l with
  | [] => rfl
  | none :: l => simp only [keptInputs, keptInputs_idem l]
  | some r :: l => simp only [keptInputs, keptInputs_idem l, keptRel_idem r]
end

theorem kept_idem (p : Plan) : kept (kept p) = kept p := by
  simp only [kept, List.map_map]
  congr 1
  refine List.map_congr_left fun r _ => ?_
  cases r with
  | rel r => simp only [Function.comp_apply, keptTop, keptRel_idem]
  | root names r =>
    cases r with
    | none => rfl
    | some r => simp only [Function.comp_apply, keptTop, Option.map_some, keptRel_idem]
  | missing => rfl

/-! ## What can be written -/

section
variable [UTab] [FTab]


theorem keptLiteral_fix {st : Store} {l : Literal} (h : Survives st l) : keptLiteral l = l := by
  obtain ⟨value, nullable, tvar⟩ := l
  obtain ⟨h0, v, h1, h2⟩ := h
  simp only at h0 h1 h2
  subst h0 h1
  cases v <;> try rfl
  · rename_i i
    obtain ⟨p, hp, -⟩ := h2
    obtain ⟨d, s, n, m⟩ := i
    simp only at hp
    subst hp
    rfl
  · obtain ⟨-, rfl⟩ := h2
    rfl

mutual
theorem keptExpr_fix {st : Store} {e : Expr} (h : Faithful st e) : keptExpr e = e := by
  match e, h with
  | .literal l, h => rw [Faithful] at h; rw [keptExpr, keptLiteral_fix h]
  | .selection (.field i none), _ => rfl
  | .call f args opts (some t), h =>
    rw [Faithful] at h
    rw [keptExpr, keptArgs_fix h.2.2.2.1]
  | .cast (some e) (some t) fb, h =>
    rw [Faithful] at h
    rw [keptExpr, keptExprOpt, keptExpr_fix h.2.1]
  | .ifThen ifs (some e), h =>
    rw [Faithful] at h
    rw [keptExpr, keptExprOpt, keptClauses_fix h.2.1, keptExpr_fix h.2.2]
theorem keptArgs_fix {st : Store} {l : List Arg} (h : FaithfulArgs st l) : keptArgs l = l := by
  match l, h with
  | [], _ => rfl
  | .value e :: l, h =>
    rw [FaithfulArgs] at h
    rw [keptArgs, keptExpr_fix h.1, keptArgs_fix h.2]
theorem keptClauses_fix {st : Store} {l : List Clause} (h : FaithfulClauses st l) : keptClauses l = l := by
  match l, h with
  | [], _ => rfl
  | .mk (some c) (some r) :: l, h =>
    rw [FaithfulClauses] at h
    rw [keptClauses, keptExprOpt, keptExprOpt, keptExpr_fix h.1, keptExpr_fix h.2.1, keptClauses_fix h.2.2]
end

theorem map_keptExpr_fix {st : Store} {l : List Expr} (h : ∀ e ∈ l, Faithful st e) : l.map keptExpr = l := by
  rw [List.map_congr_left fun e he => show keptExpr e = id e from keptExpr_fix (h e he), List.map_id]

theorem opt_keptExpr_fix {st : Store} {l : Option Expr} (h : ∀ e, l = some e → Faithful st e) : l.map keptExpr = l := by
  cases l with
  | none => rfl
  | some e => simp [keptExpr_fix (h e rfl)]

omit [UTab] [FTab] in
theorem keptCommon_fix {c : Option Common} (h : hints c = 0) : keptCommon c = c := by
  cases c with
  | none => rfl
  | some c =>
    obtain ⟨e, r⟩ := c
    simp only [hints, Option.map_some, Option.getD_some] at h
    subst h; rfl

theorem keptCount_fix {st : Store} {o : Opts} {c : Option Count} (h : ∀ x, c = some x → CountOk st o x) :
    c.map keptCount = c := by
  cases c with
  | none => rfl
  | some c =>
    have := h c rfl
    cases c with
    | deprecated i => rfl
    | expr e =>
      rcases this with ⟨-, i, rfl, -⟩ | ⟨hf, -⟩
      · rfl
      · simp [keptCount, keptExpr_fix hf]

theorem keptOp_fix {env : Env} {ws : List Nat} {op : RelOp} (h : OpOk env ws op) : keptOp op = op := by
  cases op with
  | read c s f t a n =>
    obtain ⟨h1, rfl, ⟨cols, rfl, -⟩, h2, -⟩ := h
    simp only [keptOp, keptCommon_fix h1]
    cases t with
    | named names rest =>
      obtain ⟨-, -, rfl, rfl, -⟩ := h2
      rfl
    | «virtual» rows rest =>
      obtain ⟨rfl, h3, h4, -⟩ := h2
      simp only [keptFilter, keptRead, opt_keptExpr_fix h4]
      rw [List.map_congr_left fun r hr => show r.map keptExpr = id r from map_keptExpr_fix (h3 r hr), List.map_id]
      rfl
    | extension d =>
      cases d with
      | none => exact h2.elim
      | some d => obtain ⟨rfl, -⟩ := h2; rfl
    | other => exact h2.elim
  | filter c e a =>
    obtain ⟨h1, ⟨x, rfl, h2⟩, -⟩ := h
    simp [keptOp, keptCommon_fix h1, keptExpr_fix h2]
  | project c es a =>
    obtain ⟨h1, h2, -⟩ := h
    simp only [keptOp, keptCommon_fix h1, map_keptExpr_fix fun e he => (h2 e he).1]
  | aggregate c g gs ms a =>
    obtain ⟨h1, ⟨h2, h3, h4, -⟩, -⟩ := h
    have hg := fun x hx => (h2 x hx).1
    have hm : ms.filterMap keptMeasure = ms := by
      have : ∀ l : List Measure, (∀ m ∈ l, MeasureOk env.st m) → l.filterMap keptMeasure = l := by
        intro l
        induction l with
        | nil => intro _; rfl
        | cons m l ih =>
          intro hl
          obtain ⟨f, args, t, rfl, hf⟩ := hl _ (List.mem_cons_self ..)
          rw [Faithful] at hf
          rw [List.filterMap_cons, ih fun m hm => hl m (List.mem_cons_of_mem _ hm)]
          simp [keptMeasure, keptArgs_fix hf.2.2.2.1]
      exact this ms h4
    simp only [keptOp, keptCommon_fix h1, keptGrouping_plain g gs hg, map_keptExpr_fix h3, refs_only gs hg, hm]
  | sort c fs a =>
    obtain ⟨h1, -, h2, -⟩ := h
    have : (fs.map fun f => (⟨f.expr.map keptExpr, f.kind⟩ : SortField)) = fs := by
      rw [List.map_congr_left (g := id) fun f hf => ?_, List.map_id]
      obtain ⟨e, d, rfl, he, -⟩ := h2 f hf
      simp [keptExpr_fix he]
    simp only [keptOp, keptCommon_fix h1, this]
  | fetch c n m a =>
    obtain ⟨h1, h2, h3, -⟩ := h
    simp only [keptOp, keptCommon_fix h1, keptCount_fix h2, keptCount_fix h3]
  | join c t e p a =>
    obtain ⟨h1, -, ⟨x, rfl, h2⟩, h3, -⟩ := h
    simp [keptOp, keptCommon_fix h1, keptExpr_fix h2, opt_keptExpr_fix h3]
  | set c op a => simp only [keptOp, keptCommon_fix h.1]
  | cross c a => simp only [keptOp, keptCommon_fix h.1]
  | ext k c d =>
    obtain ⟨h1, h2, -⟩ := h
    have : keptExtCommon c = c := by
      cases c with
      | none => rfl
      | some c =>
        obtain ⟨e, r⟩ := c
        simp only [hints, Option.map_some, Option.getD_some] at h1
        subst h1
        cases e with
        | none => rfl
        | some e =>
          cases e with
          | direct => rfl
          | emit m => simp [mapping] at h2
    simp only [keptOp, this]
  | other n => exact h.elim

omit [UTab] [FTab] in
theorem keptInputs_some (l : List Rel) : keptInputs (l.map some) = l.map fun r => some (keptRel r) := by
  induction l with
  | nil => rfl
  | cons r l ih => simp [keptInputs, ih]

theorem keptRel_fix {env : Env} {r : Rel} (h : Supported env r) : keptRel r = r := by
  induction h with
  | node op inputs _ _ hop ih =>
    rw [keptRel, keptOp_fix hop, keptInputs_some]
    congr 1
    exact List.map_congr_left fun r hr => by rw [ih r hr]

theorem kept_fix {reg : Registry ExtArgs (List Nat)} {o : Opts} {p : Plan} (h : PlanOk reg o p) : kept p = p := by
  unfold kept
  have : p.rels.map keptTop = p.rels := by
    rw [List.map_congr_left (g := id) fun r hr => ?_, List.map_id]
    have := h.rels r hr
    match r, this with
    | .rel r, h => rw [keptTop, keptRel_fix h]; rfl
    | .root names (some r), h => rw [keptTop, Option.map_some, keptRel_fix h.2]; rfl
  rw [this]

end

end Verif
