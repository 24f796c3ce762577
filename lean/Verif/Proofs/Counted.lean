import Verif.Model.Counted
/-!
# Counting attempts does not change what is matched
-/

set_option autoImplicit false

namespace Verif
namespace Counted
variable {α β : Type}

@[simp] theorem val_free (x : Option α) : (free x).val = x := rfl
@[simp] theorem tries_free (x : Option α) : (free x).tries = 0 := rfl
@[simp] theorem val_tick (m : Counted α) : (tick m).val = m.val := rfl
@[simp] theorem tries_tick (m : Counted α) : (tick m).tries = m.tries + 1 := rfl
@[simp] theorem val_pure (a : α) : (pure a : Counted α).val = some a := rfl
@[simp] theorem tries_pure (a : α) : (pure a : Counted α).tries = 0 := rfl
@[simp] theorem val_mapFst (f : α → β) (m : Counted (α × Str)) : (mapFst f m).val = Verif.mapFst f m.val := rfl
@[simp] theorem tries_mapFst (f : α → β) (m : Counted (α × Str)) : (mapFst f m).tries = m.tries := rfl
@[simp] theorem val_opt (p : Str → Counted (α × Str)) (s : Str) : (opt p s).val = some (pOpt (fun s => (p s).val) s) := rfl
@[simp] theorem tries_opt (p : Str → Counted (α × Str)) (s : Str) : (opt p s).tries = (p s).tries := rfl

@[simp] theorem val_bind (m : Counted α) (f : α → Counted β) : (m >>= f).val = m.val.bind fun a => (f a).val := by
  show (Counted.bind m f).val = _
  unfold Counted.bind
  cases m.val <;> rfl

theorem tries_bind (m : Counted α) (f : α → Counted β) :
    (m >>= f).tries = m.tries + (match m.val with | none => 0 | some a => (f a).tries) := by
  show (Counted.bind m f).tries = _
  unfold Counted.bind
  cases m.val <;> rfl

theorem tries_bind_none {m : Counted α} (f : α → Counted β) (h : m.val = none) : (m >>= f).tries = m.tries := by
  rw [tries_bind, h]; rfl

theorem tries_bind_some {m : Counted α} (f : α → Counted β) {a : α} (h : m.val = some a) :
    (m >>= f).tries = m.tries + (f a).tries := by
  rw [tries_bind, h]

@[simp] theorem val_or (m k : Counted α) : (m.or k).val = m.val.or k.val := by
  unfold Counted.or
  cases h : m.val <;> simp

theorem tries_or_some {m : Counted α} (k : Counted α) {a : α} (h : m.val = some a) : (m.or k).tries = m.tries := by
  unfold Counted.or; rw [h]

theorem tries_or_none {m : Counted α} (k : Counted α) (h : m.val = none) : (m.or k).tries = m.tries + k.tries := by
  unfold Counted.or; rw [h]

theorem tries_or_le (m k : Counted α) : (m.or k).tries ≤ m.tries + k.tries := by
  unfold Counted.or
  cases m.val with
  | none => exact Nat.le_refl _
  | some a => exact Nat.le_add_right _ _

theorem le_tries_or (m k : Counted α) : m.tries ≤ (m.or k).tries := by
  unfold Counted.or
  cases m.val with
  | none => exact Nat.le_add_right _ _
  | some a => exact Nat.le_refl _

section erase
variable {p : Str → Counted (α × Str)} {q : Str → Option (α × Str)} (h : ∀ s, (p s).val = q s)
include h

theorem val_starN (sep : Str → Option Str) : ∀ n s, (starN sep p n s).val = some (pStarN sep q n s)
  | 0, s => rfl
  | n + 1, s => by
    unfold starN pStarN
    cases sep s with
    | none => rfl
    | some s1 =>
      simp only [← h s1]
      cases (p s1).val with
      | none => rfl
      | some x => simp [val_starN sep n]

theorem val_sep1 (sep : Str → Option Str) (s : Str) : (sep1 sep p s).val = pSep1 sep q s := by
  unfold sep1 pSep1
  simp only [val_bind, h s]
  cases q s with
  | none => rfl
  | some x => simp [val_starN h]

theorem val_sep0 (sep : Str → Option Str) (s : Str) : (sep0 sep p s).val = some (pSep sep q s) := by
  unfold sep0 pSep
  rw [val_or, val_sep1 h]
  cases pSep1 sep q s <;> rfl

theorem val_manyN : ∀ n s, (manyN p n s).val = some (pManyN q n s)
  | 0, s => rfl
  | n + 1, s => by
    unfold manyN pManyN
    simp only [← h s]
    cases (p s).val with
    | none => rfl
    | some x => simp [val_manyN n]

theorem pOpt_congr (s : Str) : pOpt (fun s => (p s).val) s = pOpt q s := by
  simp only [pOpt, h]

end erase

section types
variable {p : Str → Counted (STy × Str)} {q : Str → Option (STy × Str)} (h : ∀ s, (p s).val = q s)
include h

theorem val_param (s : Str) : (param p s).val = pParamWith q s := by simp [param, pParamWith, h]

theorem val_paramsTail (s : Str) : (paramsTail p s).val = pParamsTail q s := by
  simp only [paramsTail, pParamsTail, val_bind, val_sep0 (val_param h), val_free, val_pure]; rfl

theorem val_params (s : Str) : (params p s).val = pParamsWith q s := by
  simp [params, pParamsWith, val_paramsTail h]

theorem val_listType (s : Str) : (listType p s).val = pListWith q s := by
  simp only [listType, pListWith, val_bind, val_free, val_pure, h]; rfl

theorem val_mapType (s : Str) : (mapType p s).val = pMapWith q s := by
  simp only [mapType, pMapWith, val_bind, val_free, val_pure, h]; rfl

theorem val_structType (s : Str) : (structType p s).val = pStructWith q s := by
  simp only [structType, pStructWith, val_bind, val_free, val_pure, val_paramsTail h]; rfl

theorem val_compound (s : Str) : (compound p s).val = pCompoundWith q s := by
  simp [compound, pCompoundWith, val_listType h, val_mapType h, val_structType h]

theorem val_user (s : Str) : (user p s).val = pUserWith q s := by
  simp only [user, pUserWith, val_bind, val_free, val_pure, val_opt, pOpt_congr (val_params h)]; rfl

end types

/-- The counting rule for types matches what the rule matches. -/
theorem val_typeN : ∀ n s, (typeN n s).val = pTypeN n s
  | 0, _ => rfl
  | n + 1, s => by
    simp [typeN, pTypeN, val_compound (val_typeN n), val_user (val_typeN n)]

theorem val_type (s : Str) : (type s).val = pType s := val_typeN _ s

section exprs
variable {p : Str → Counted (SExpr × Str)} {q : Str → Option (SExpr × Str)} (h : ∀ s, (p s).val = q s)
include h

theorem val_args (s : Str) : (args p s).val = pArgsWith q s := by
  simp only [args, pArgsWith, val_bind, val_sep0 h, val_free, val_pure]; rfl

theorem val_call (s : Str) : (call p s).val = pCallWith q s := by
  simp only [call, pCallWith, val_bind, val_args h, val_free, val_pure]; rfl

theorem val_clause (s : Str) : (clause p s).val = pClauseWith q s := by
  simp only [clause, pClauseWith, val_bind, h, val_free, val_pure]; rfl

theorem val_clauseComma (s : Str) : (clauseComma p s).val = pClauseComma q s := by
  simp only [clauseComma, pClauseComma, val_bind, val_clause h, val_free, val_pure]; rfl

theorem val_ifThen (s : Str) : (ifThen p s).val = pIfThenWith q s := by
  simp only [ifThen, pIfThenWith, val_bind, val_clauseComma h, val_manyN (val_clauseComma h), h, val_free, val_pure]; rfl

theorem val_cast (s : Str) : (cast p s).val = pCastWith q s := by
  simp only [cast, pCastWith, val_bind, h, val_free, val_pure]; rfl

end exprs

/-- The counting rule for expressions matches what the rule matches. -/
theorem val_exprN : ∀ n s, (exprN n s).val = pExprN n s
  | 0, _ => rfl
  | n + 1, s => by
    simp [exprN, pExprN, val_ifThen (val_exprN n), val_cast (val_exprN n), val_call (val_exprN n)]

theorem val_expr (s : Str) : (expr s).val = pExpr s := val_exprN _ s

section arguments
variable {p : Str → Counted (SArg × Str)} {q : Str → Option (SArg × Str)} (h : ∀ s, (p s).val = q s)
include h

theorem val_tuple1 (s : Str) : (tuple1 p s).val = pTuple1With q s := by
  simp only [tuple1, pTuple1With, val_bind, h, val_free, val_pure]; rfl

theorem val_tuple2 (s : Str) : (tuple2 p s).val = pTuple2With q s := by
  simp only [tuple2, pTuple2With, val_bind, val_sep1 h, val_free, Option.bind_eq_bind]
  cases lit cs!"(" s with
  | none => rfl
  | some s =>
    simp only [Option.bind_some]
    cases pSep1 spCommaSp q (skipSp s) with
    | none => rfl
    | some x =>
      simp only [Option.bind_some]
      by_cases hl : x.1.length < 2
      · simp [hl]
      · simp [hl]

theorem val_tuple (s : Str) : (tuple p s).val = pTupleWith q s := by
  simp [tuple, pTupleWith, val_tuple1 h, val_tuple2 h]

end arguments

/-- The counting rule for arguments matches what the rule matches. -/
theorem val_argN : ∀ n s, (argN n s).val = pArgN n s
  | 0, _ => rfl
  | n + 1, s => by simp [argN, pArgN, val_tuple (val_argN n)]

theorem val_arg (s : Str) : (arg s).val = pArg s := val_argN _ s

end Counted
end Verif
