import Verif.Spec.Silent
import Verif.Proofs.Complete
/-!
# What formatting leaves out without an error
-/

namespace Verif

set_option autoImplicit false

open SilentSpec

section
variable [UTab] [FTab]

theorem textLit_kept (st : Store) (o : Opts) (l : Literal) : textLit st o (keptLiteral l) = textLit st o l := by
  obtain ⟨value, nullable, tvar⟩ := l
  cases value with
  | none => rfl
  | some v =>
    cases v <;> try rfl
    rename_i i
    obtain ⟨d, s, n, m⟩ := i
    cases m <;> rfl

omit [UTab] [FTab] in
theorem textFieldRef_kept (f : FieldRef) : textFieldRef (keptRef f) = textFieldRef f := by cases f <;> rfl

mutual
theorem textExpr_kept (st : Store) (o : Opts) (e : Expr) : textExpr st o (keptExpr e) = textExpr st o e := by
  match e with
  | .missing => rfl
  | .other => rfl
  | .literal l => simp only [keptExpr, textExpr, textLit_kept]
  | .selection f => simp only [keptExpr, textExpr, textFieldRef_kept]
  | .call f args opts out => simp only [keptExpr, textExpr, textArgs_kept st o args]
  | .cast e t fb => simp only [keptExpr, textExpr, textExprReq_kept st o e]
  | .ifThen ifs els => simp only [keptExpr, textExpr, textClauses_kept st o ifs, textExprReq_kept st o els]
theorem textExprReq_kept (st : Store) (o : Opts) (e : Option Expr) :
    textExprReq st o (keptExprOpt e) = textExprReq st o e := by
  match e with
  | none => rfl
  | some e => simp only [keptExprOpt, textExprReq, textExpr_kept st o e]
theorem textArgs_kept (st : Store) (o : Opts) (l : List Arg) : textArgs st o (keptArgs l) = textArgs st o l := by
  match l with
  | [] => rfl
  | .missing :: l => simp only [keptArgs, textArgs, textArgs_kept st o l]
  | .ty t :: l => simp only [keptArgs, textArgs, textArgs_kept st o l]
  | .enum s :: l => simp only [keptArgs, textArgs, textArgs_kept st o l]
  | .value e :: l => simp only [keptArgs, textArgs, textArg, textArgs_kept st o l, textExpr_kept st o e]
theorem textClauses_kept (st : Store) (o : Opts) (l : List Clause) :
    textClauses st o (keptClauses l) = textClauses st o l := by
  match l with
  | [] => rfl
  | .mk c t :: l =>
    simp only [keptClauses, textClauses, textClauses_kept st o l, textExprReq_kept st o c, textExprReq_kept st o t]
end

theorem map_textExpr_kept (st : Store) (o : Opts) (l : List Expr) :
    (l.map keptExpr).map (textExpr st o) = l.map (textExpr st o) := by
  rw [List.map_map]
  exact List.map_congr_left fun e _ => textExpr_kept st o e

theorem opt_textExpr_kept (st : Store) (o : Opts) (e : Option Expr) :
    (e.map keptExpr).map (textExpr st o) = e.map (textExpr st o) := by
  cases e with
  | none => rfl
  | some e => simp [textExpr_kept]

omit [UTab] [FTab] in
theorem getEmit_kept (c : Option Common) : getEmit (keptCommon c) = getEmit c := by cases c <;> rfl

omit [FTab] in
theorem readColumns_kept (st : Store) (o : Opts) (s : Option NamedStruct) :
    readColumns st o (s.map keptSchema) = readColumns st o s := by
  cases s with
  | none => rfl
  | some s => obtain ⟨names, struct⟩ := s; cases struct <;> rfl

theorem headRead_kept (env : Env) (c : Option Common) (s : Option NamedStruct) (f : Option Expr) (t : ReadType)
    (a : Option AdvExt) :
    headRead env (keptCommon c) (s.map keptSchema) (keptFilter f t) (keptRead t) a = headRead env c s f t a := by
  cases t with
  | named names rest => simp only [headRead, keptRead, getEmit_kept, readColumns_kept]
  | extension d => simp only [headRead, keptRead, getEmit_kept, readColumns_kept]
  | other => simp only [headRead, keptRead, getEmit_kept, readColumns_kept]
  | «virtual» rows rest =>
    have h1 : (rows.map (·.map keptExpr)).map (fun r => textTuple (r.map (textExpr env.st env.o))) =
        rows.map fun r => textTuple (r.map (textExpr env.st env.o)) := by
      rw [List.map_map]
      refine List.map_congr_left fun r _ => ?_
      simp only [Function.comp_apply, map_textExpr_kept]
    have h2 : ((f.map keptExpr).toList.map fun e => textNamedArg cs!"filter" (textExpr env.st env.o e)) =
        f.toList.map fun e => textNamedArg cs!"filter" (textExpr env.st env.o e) := by
      cases f with
      | none => rfl
      | some e => simp [textExpr_kept]
    simp only [headRead, keptRead, keptFilter, getEmit_kept, readColumns_kept, h1, h2, List.length_map]

theorem place_get (e : Expr) (l : List Expr) (h : e ∈ l) : l[place e l]? = some e := by
  induction l with
  | nil => cases h
  | cons x l ih =>
    rw [place]
    split
    · next hx => rw [hx]; rfl
    · next hx =>
      rcases List.mem_cons.1 h with rfl | h
      · exact absurd rfl hx
      · simpa using ih h

theorem groupingValues_kept (st : Store) (o : Opts) (g : List Expr) (gs : List Grouping) :
    groupingValues st o (keptGrouping g gs).1 (keptGrouping g gs).2 = groupingValues st o g gs := by
  have hu : usesDeprecated g gs = decide (g = [] ∧ ∃ x ∈ gs.head?, x.exprs ≠ []) := by
    cases g with
    | cons => cases gs <;> simp [usesDeprecated]
    | nil => cases gs <;> simp [usesDeprecated]
  have hn : ∀ a b, (∀ x ∈ b, x.exprs = []) → usesDeprecated a b = false := by
    intro a b hb
    cases a with
    | cons => cases b <;> rfl
    | nil =>
      cases b with
      | nil => rfl
      | cons x b => simp [usesDeprecated, hb x (by simp)]
  unfold keptGrouping
  split
  · next h =>
    obtain ⟨hg, x, hx, hne⟩ := h
    have hgs : gs ≠ [] := by rintro rfl; cases hx
    unfold groupingValues
    rw [hn _ _ (by intro y hy; obtain ⟨z, -, rfl⟩ := List.mem_map.1 hy; rfl), hu,
      decide_eq_true ⟨hg, x, hx, hne⟩]
    simp only [Bool.false_eq_true, if_false, if_true, List.map_eq_nil_iff, hgs, map_textExpr_kept]
    have hf : firstSeen [] (gs.map (·.exprs)).flatten = (gs.flatMap (·.exprs)).eraseDups := by
      rw [firstSeen_eq, List.flatMap_def]
      congr 1
      exact List.filter_eq_self.2 (by simp)
    rw [hf]
    congr 1
    rw [List.map_map]
    refine List.map_congr_left fun y hy => ?_
    simp only [Function.comp_apply, List.map_map]
    refine List.map_congr_left fun e he => ?_
    have hm : e ∈ (gs.flatMap (·.exprs)).eraseDups := by
      rw [List.mem_eraseDups]
      exact List.mem_flatMap.2 ⟨y, hy, he⟩
    simp only [Function.comp_apply, List.getElem?_map, place_get e _ hm, Option.map_some, textExpr_kept]
    rfl
  · next h =>
    unfold groupingValues
    rw [hn _ _ (by intro y hy; obtain ⟨z, -, rfl⟩ := List.mem_map.1 hy; rfl), hu, decide_eq_false h]
    simp only [Bool.false_eq_true, if_false, List.map_eq_nil_iff, map_textExpr_kept]
    congr 1
    split
    · rfl
    · rw [List.map_map]
      refine List.map_congr_left fun y hy => ?_
      simp only [Function.comp_apply]
      refine List.map_congr_left fun i hi => ?_
      rw [List.getElem?_map, opt_textExpr_kept]

theorem measures_kept (st : Store) (o : Opts) (ms : List Measure) :
    ((ms.filterMap keptMeasure).filterMap fun m => m.fn.map (textAggFn st o)) =
      ms.filterMap fun m => m.fn.map (textAggFn st o) := by
  rw [List.filterMap_filterMap]
  congr 1
  funext m
  obtain ⟨fn, rest⟩ := m
  cases fn with
  | none => rfl
  | some f => simp [keptMeasure, textAggFn, textArgs_kept]

theorem count_kept (st : Store) (o : Opts) (n : Str) (c : Option Count) :
    ((c.map keptCount).toList.map fun c => textNamedArg n (textCount st o c)) =
      c.toList.map fun c => textNamedArg n (textCount st o c) := by
  cases c with
  | none => rfl
  | some c => cases c <;> simp [keptCount, textCount, textExpr_kept]

theorem relHead_kept (env : Env) (ws : List (Option Nat)) (op : RelOp) :
    relHead env ws (keptOp op) = relHead env ws op := by
  cases op with
  | read c s f t a n => exact headRead_kept env c s f t a
  | filter c e a => simp only [keptOp, relHead, getEmit_kept, opt_textExpr_kept]
  | project c es a => simp only [keptOp, relHead, getEmit_kept, map_textExpr_kept]
  | aggregate c g gs ms a =>
    simp only [keptOp, relHead, headAggregate, getEmit_kept, groupingValues_kept, measures_kept]
  | sort c fs a =>
    have : (fs.map fun f => (⟨f.expr.map keptExpr, f.kind⟩ : SortField)).map (textSortField env.st env.o) =
        fs.map (textSortField env.st env.o) := by
      rw [List.map_map]
      refine List.map_congr_left fun f _ => ?_
      simp only [Function.comp_apply, textSortField, opt_textExpr_kept]
    simp only [keptOp, relHead, getEmit_kept, this]
  | fetch c n m a => simp only [keptOp, relHead, getEmit_kept, count_kept]
  | join c t e p a =>
    have : ((p.map keptExpr).toList.map fun e => textNamedArg cs!"post_filter" (textExpr env.st env.o e)) =
        p.toList.map fun e => textNamedArg cs!"post_filter" (textExpr env.st env.o e) := by
      cases p with
      | none => rfl
      | some e => simp [textExpr_kept]
    simp only [keptOp, relHead, getEmit_kept, opt_textExpr_kept, this]
  | set c op a => simp only [keptOp, relHead, getEmit_kept]
  | cross c a => simp only [keptOp, relHead, getEmit_kept]
  | ext k c d => rfl
  | other n => rfl

omit [UTab] [FTab] in
theorem keepsInputs_kept (op : RelOp) : (keptOp op).keepsInputs = op.keepsInputs := by cases op <;> rfl

mutual
theorem relWidth_kept (env : Env) (r : Rel) : relWidth env (keptRel r) = relWidth env r := by
  match r with
  | .node op ins => simp only [keptRel, relWidth, inputWidths_kept env ins, relHead_kept]
theorem inputWidths_kept (env : Env) (l : List (Option Rel)) : inputWidths env (keptInputs l) = inputWidths env l := by
  match l with
  | [] => rfl
  | none :: l => simp only [keptInputs, inputWidths, inputWidths_kept env l]
  | some r :: l => simp only [keptInputs, inputWidths, inputWidths_kept env l, relWidth_kept env r]
end

mutual
theorem textRel_kept (env : Env) (n : Nat) (r : Rel) : textRel env n (keptRel r) = textRel env n r := by
  match r with
  | .node op ins =>
    simp only [keptRel, textRel, inputWidths_kept env ins, relHead_kept, keepsInputs_kept, textInputs_kept env (n + 1) ins]
theorem textInputs_kept (env : Env) (n : Nat) (l : List (Option Rel)) :
    textInputs env n (keptInputs l) = textInputs env n l := by
  match l with
  | [] => rfl
  | none :: l => simp only [keptInputs, textInputs, textInputs_kept env n l]
  | some r :: l => simp only [keptInputs, textInputs, textInputs_kept env n l, textRel_kept env n r]
end

theorem textPlanRel_kept (env : Env) (r : PlanRel) : textPlanRel env (keptTop r) = textPlanRel env r := by
  cases r with
  | rel r => simp only [keptTop, textPlanRel, textRel_kept]
  | root names r =>
    cases r with
    | none => rfl
    | some r => simp only [keptTop, textPlanRel, Option.map_some, textRel_kept]
  | missing => rfl

theorem textPlanRels_kept (env : Env) (l : List PlanRel) : textPlanRels env (l.map keptTop) = textPlanRels env l := by
  induction l with
  | nil => rfl
  | cons r l ih =>
    cases l with
    | nil => simp only [List.map_cons, List.map_nil, textPlanRels, textPlanRel_kept]
    | cons s l => simp only [List.map_cons, textPlanRels, textPlanRel_kept] at ih ⊢; rw [ih]

theorem textPlan_kept (reg : Registry ExtArgs (List Nat)) (o : Opts) (p : Plan) :
    textPlan reg o (kept p) = textPlan reg o p := by
  simp only [textPlan, kept, textPlanRels_kept]
  rfl
end

end Verif
