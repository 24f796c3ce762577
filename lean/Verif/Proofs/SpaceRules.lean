import Verif.Proofs.Spaces
/-!
# The rules of a relation line do not see the width of spaces
-/

set_option autoImplicit false

namespace Verif
open SpaceSpec

theorem SimP.out {α : Type} {k : Nat} {x y : α × Str} (h : SimP k x y) :
    ∃ a r, x = (a, r) ∧ y = (a, squeeze r) ∧ wt r < k := ⟨x.1, x.2, rfl, h.1, h.2⟩

/-- A step through a rule that always matches. -/
macro "spair " h:term " => " a:ident r:ident hr:ident : tactic => `(tactic|
  (try dsimp only
   obtain ⟨$a:ident, $r:ident, e1, e2, $hr:ident⟩ := SimP.out $h
   rw [e1, e2]
   clear e1 e2
   try dsimp only))

/-- Bounds, with skipped spaces. -/
macro "wbound" : tactic => `(tactic| ((try simp only [wt_skip] at *); omega))

/-! ## Types -/

theorem simP_nullability (s : Str) : SimP (wt s + 1) (pNullability s) (pNullability (squeeze s)) := by
  cases s with
  | nil => exact ⟨rfl, by simp [pNullability]⟩
  | cons c s =>
    by_cases h1 : c = '?'
    · subst h1
      rw [squeeze_plain (by decide)]
      exact ⟨rfl, by simp [pNullability, wt_cons]; omega⟩
    · by_cases h2 : c = '⁉'
      · subst h2
        rw [squeeze_plain (by decide)]
        exact ⟨rfl, by simp [pNullability, wt_cons]; omega⟩
      · have e : ∀ t : Str, pNullability (c :: t) = (.required, c :: t) := by
          intro t; unfold pNullability; split
          · rename_i heq; exact absurd (List.cons.inj heq).1 h1
          · rename_i heq; exact absurd (List.cons.inj heq).1 h2
          · rfl
        have hh := squeeze_head (c :: s)
        cases hq : squeeze (c :: s) with
        | nil => rw [hq] at hh; cases hh
        | cons d t =>
          rw [hq] at hh
          simp only [List.head?_cons, Option.some.injEq] at hh
          subst hh
          rw [e, e]
          exact ⟨by rw [hq], by simp⟩

theorem sim_anchor (s : Str) : Sim (wt s) (pAnchor s) (pAnchor (squeeze s)) := by
  unfold pAnchor
  refine SimS.bind (simS_lit s _ (by decide) (by decide)) fun r hr => ?_
  rw [skip_squeeze]
  exact (sim_integer _).mono (by wbound)

theorem sim_urnAnchor (s : Str) : Sim (wt s) (pUrnAnchor s) (pUrnAnchor (squeeze s)) := by
  unfold pUrnAnchor
  refine SimS.bind (simS_lit s _ (by decide) (by decide)) fun r hr => ?_
  rw [skip_squeeze]
  exact (sim_integer _).mono (by wbound)

theorem sim_simpleType (s : Str) : Sim (wt s) (pSimpleType s) (pSimpleType (squeeze s)) := by
  unfold pSimpleType
  refine Sim.bind (sim_first s _ (by decide)) fun a r hr => ?_
  spair (simP_nullability r) => n r' hr'
  exact .some _ _ (by omega)

section Types
variable {k : Nat} {p q : Str → Option (STy × Str)} (H : Good k p q)
include H

theorem good_param : Good k (pParamWith p) (pParamWith q) := fun s hs =>
  ((H s hs).mapFst.or (sim_integer s).mapFst).or (sim_name s).mapFst

theorem sim_paramsTail (s : Str) (hs : wt s < k) : Sim (wt s) (pParamsTail p s) (pParamsTail q (squeeze s)) := by
  unfold pParamsTail
  spair (simP_sep simS_commaSp (good_param H) s hs) => a r hr
  refine SimS.bind (simS_lit r _ (by decide) (by decide)) fun r' hr' => ?_
  exact .some _ _ (by omega)

theorem sim_params (s : Str) (hs : wt s ≤ k) : Sim (wt s) (pParamsWith p s) (pParamsWith q (squeeze s)) := by
  unfold pParamsWith
  refine SimS.bind (simS_lit s _ (by decide) (by decide)) fun r hr => ?_
  exact (sim_paramsTail H r (by omega)).mono (by omega)

end Types

theorem sim_kwOpen (kw s : Str) (h : kw.all isIdentChar = true) (hn : kw ≠ []) :
    Sim (wt s) (pKwOpen kw s) (pKwOpen kw (squeeze s)) := by
  unfold pKwOpen
  refine SimS.bind (simS_litI s _ h hn) fun r hr => ?_
  spair (simP_nullability r) => n r' hr'
  refine SimS.bind (simS_lit r' _ (by decide) (by decide)) fun r'' hr'' => ?_
  exact .some _ _ (by omega)

theorem sim_intType (kw s : Str) (f : Nul → IntTok → STy) (h : kw.all isIdentChar = true) (hn : kw ≠ []) :
    Sim (wt s) (pIntType kw f s) (pIntType kw f (squeeze s)) := by
  unfold pIntType
  refine Sim.bind (sim_kwOpen kw s h hn) fun n r hr => ?_
  refine Sim.bind (sim_integer r) fun i r' hr' => ?_
  refine SimS.bind (simS_lit r' _ (by decide) (by decide)) fun r'' hr'' => ?_
  exact .some _ _ (by omega)

theorem skipUBang_squeeze (s : Str) : skipUBang (squeeze s) = squeeze (skipUBang s) ∧ wt (skipUBang s) ≤ wt s := by
  unfold skipUBang
  have h := simS_lit s cs!"u!" (by decide) (by decide)
  revert h
  generalize lit cs!"u!" s = x
  generalize lit cs!"u!" (squeeze s) = y
  intro h
  cases h with
  | none => exact ⟨rfl, by simp⟩
  | some r h => exact ⟨rfl, by simp; omega⟩

section Types
variable {k : Nat} {p q : Str → Option (STy × Str)} (H : Good k p q)
include H

theorem sim_listType (s : Str) (hs : wt s ≤ k) : Sim (wt s) (pListWith p s) (pListWith q (squeeze s)) := by
  unfold pListWith
  refine Sim.bind (sim_kwOpen _ s (by decide) (by decide)) fun n r hr => ?_
  refine Sim.bind (H r (by omega)) fun i r' hr' => ?_
  refine SimS.bind (simS_lit r' _ (by decide) (by decide)) fun r'' hr'' => ?_
  exact .some _ _ (by omega)

theorem sim_mapType (s : Str) (hs : wt s ≤ k) : Sim (wt s) (pMapWith p s) (pMapWith q (squeeze s)) := by
  unfold pMapWith
  refine Sim.bind (sim_kwOpen _ s (by decide) (by decide)) fun n r hr => ?_
  refine Sim.bind (H r (by omega)) fun i r' hr' => ?_
  refine SimS.bind (simS_lit r' _ (by decide) (by decide)) fun t ht => ?_
  rw [skip_squeeze]
  refine Sim.bind (H _ (by wbound)) fun b u hu => ?_
  refine SimS.bind (simS_lit u _ (by decide) (by decide)) fun v hv => ?_
  exact .some _ _ (by wbound)

theorem sim_structType (s : Str) (hs : wt s ≤ k) : Sim (wt s) (pStructWith p s) (pStructWith q (squeeze s)) := by
  unfold pStructWith
  refine Sim.bind (sim_kwOpen _ s (by decide) (by decide)) fun n r hr => ?_
  refine Sim.bind (sim_paramsTail H r (by omega)) fun i r' hr' => ?_
  exact .some _ _ (by omega)

theorem sim_compound (s : Str) (hs : wt s ≤ k) : Sim (wt s) (pCompoundWith p s) (pCompoundWith q (squeeze s)) := by
  unfold pCompoundWith
  exact ((((((sim_listType H s hs).or (sim_mapType H s hs)).or (sim_structType H s hs)).or
    (sim_intType _ s _ (by decide) (by decide))).or (sim_intType _ s _ (by decide) (by decide))).or
    (sim_intType _ s _ (by decide) (by decide))).or (sim_intType _ s _ (by decide) (by decide))

theorem sim_userType (s : Str) (hs : wt s ≤ k) : Sim (wt s) (pUserWith p s) (pUserWith q (squeeze s)) := by
  unfold pUserWith
  rw [(skipUBang_squeeze s).1]
  have hb := (skipUBang_squeeze s).2
  refine Sim.bind (sim_ident _) fun name r hr => ?_
  spair (simP_opt (k := wt r + 1) ((sim_anchor r).mono (by omega)) (by omega)) => a r1 h1
  spair (simP_opt (k := wt r1 + 1) ((sim_urnAnchor r1).mono (by omega)) (by omega)) => u r2 h2
  spair (simP_nullability r2) => n r3 h3
  spair (simP_opt (k := wt r3 + 1) ((sim_params H r3 (by omega)).mono (by omega)) (by omega)) => ps r4 h4
  exact .some _ _ (by omega)

end Types

theorem sim_typeN : ∀ (n m : Nat) (s : Str), wt s < n → wt s < m → Sim (wt s) (pTypeN n s) (pTypeN m (squeeze s)) := by
  intro n
  induction n with
  | zero => intro m s hn; omega
  | succ n ih =>
    intro m s hn hm
    obtain ⟨m, rfl⟩ : ∃ m', m = m' + 1 := ⟨m - 1, by omega⟩
    have H : Good (wt s) (pTypeN n) (pTypeN m) := fun t ht => ih m t (by omega) (by omega)
    simp only [pTypeN]
    exact ((sim_simpleType s).or (sim_compound H s (Nat.le_refl _))).or (sim_userType H s (Nat.le_refl _))

theorem sim_type (s : Str) : Sim (wt s) (pType s) (pType (squeeze s)) := by
  have h1 := wt_le_length s
  have h2 := wt_le_length (squeeze s)
  rw [wt_squeeze] at h2
  exact sim_typeN _ _ s (by omega) (by omega)

/-! ## Literals -/

theorem sim_value (s : Str) : Sim (wt s) (pValue s) (pValue (squeeze s)) :=
  ((((sim_float s).mapFst.or (sim_integer s).mapFst).or (sim_boolean s).mapFst).or (sim_string s).mapFst).or (simS_null s).tag

theorem sim_ascription (s : Str) : Sim (wt s) (pAscription s) (pAscription (squeeze s)) := by
  unfold pAscription
  refine SimS.bind (simS_lit s _ (by decide) (by decide)) fun r hr => ?_
  rw [skip_squeeze]
  exact (sim_type _).mono (by wbound)

theorem sim_literal (s : Str) : Sim (wt s) (pLiteral s) (pLiteral (squeeze s)) := by
  unfold pLiteral
  refine Sim.bind (sim_value s) fun v r hr => ?_
  spair (simP_opt (k := wt r + 1) ((sim_ascription r).mono (by omega)) (by omega)) => a r1 h1
  exact .some _ _ (by omega)

/-! ## Expressions -/

theorem sim_shortArg (s : Str) : Sim (wt s) (pShortArg s) (pShortArg (squeeze s)) := by
  unfold pShortArg
  refine Sim.or ?_ (sim_shortName s)
  have h := simS_lit s cs!"u!" (by decide) (by decide)
  revert h
  generalize lit cs!"u!" s = x
  generalize lit cs!"u!" (squeeze s) = y
  intro h
  cases h with
  | none => exact .none
  | some r h => exact ((sim_shortName r).mono (by omega)).mapFst

theorem sim_argSig (s : Str) : Sim (wt s) (pArgSig s) (pArgSig (squeeze s)) :=
  (sim_sep1 (k := wt s + 1) (fun t => simS_lit t cs!"_" (by decide) (by decide)) (fun t _ => sim_shortArg t) s
    (by omega)).mapFst

theorem sim_funSig (s : Str) : Sim (wt s) (pFunSig s) (pFunSig (squeeze s)) := by
  unfold pFunSig
  have h := sim_ident s
  revert h
  generalize pIdent s = x
  generalize pIdent (squeeze s) = y
  intro h
  cases h with
  | none => exact .none
  | some i r hr =>
    dsimp only
    have h := simS_lit r cs!":" (by decide) (by decide)
    revert h
    generalize lit cs!":" r = x
    generalize lit cs!":" (squeeze r) = y
    intro h
    cases h with
    | none => exact .some _ _ hr
    | some t ht =>
      dsimp only
      have h := sim_argSig t
      revert h
      generalize pArgSig t = x
      generalize pArgSig (squeeze t) = y
      intro h
      cases h with
      | none => exact .some _ _ (by omega)
      | some a u hu => exact .some _ _ (by omega)

theorem sim_ref (s : Str) : Sim (wt s) (pRef s) (pRef (squeeze s)) := by
  unfold pRef
  refine SimS.bind (simS_lit s _ (by decide) (by decide)) fun r hr => ?_
  exact (sim_integer _).mono (by omega)

theorem simP_behavior (s : Str) : SimP (wt s + 1) (pBehavior s) (pBehavior (squeeze s)) := by
  cases s with
  | nil => exact ⟨rfl, by simp [pBehavior]⟩
  | cons c s =>
    by_cases h1 : c = '?'
    · subst h1
      rw [squeeze_plain (by decide)]
      exact ⟨rfl, by simp [pBehavior, wt_cons]; omega⟩
    · by_cases h2 : c = '!'
      · subst h2
        rw [squeeze_plain (by decide)]
        exact ⟨rfl, by simp [pBehavior, wt_cons]; omega⟩
      · have e : ∀ t : Str, pBehavior (c :: t) = (.unspecified, c :: t) := by
          intro t; unfold pBehavior; split
          · rename_i heq; exact absurd (List.cons.inj heq).1 h1
          · rename_i heq; exact absurd (List.cons.inj heq).1 h2
          · rfl
        have hh := squeeze_head (c :: s)
        cases hq : squeeze (c :: s) with
        | nil => rw [hq] at hh; cases hh
        | cons d t =>
          rw [hq] at hh
          simp only [List.head?_cons, Option.some.injEq] at hh
          subst hh
          rw [e, e]
          exact ⟨by rw [hq], by simp⟩

section Exprs
variable {k : Nat} {p q : Str → Option (SExpr × Str)} (H : Good k p q)
include H

theorem sim_args (s : Str) (hs : wt s ≤ k) : Sim (wt s) (pArgsWith p s) (pArgsWith q (squeeze s)) := by
  unfold pArgsWith
  refine SimS.bind (simS_lit s _ (by decide) (by decide)) fun r hr => ?_
  spair (simP_sep simS_spCommaSp H r (by omega)) => a r1 h1
  refine SimS.bind (simS_lit r1 _ (by decide) (by decide)) fun r2 h2 => ?_
  exact .some _ _ (by omega)

theorem sim_call (s : Str) (hs : wt s ≤ k) : Sim (wt s) (pCallWith p s) (pCallWith q (squeeze s)) := by
  unfold pCallWith
  refine Sim.bind (sim_funSig s) fun name r hr => ?_
  dsimp only
  rw [skip_squeeze]
  spair (simP_opt (k := wt (skipSp r) + 1) ((sim_anchor (skipSp r)).mono (by omega)) (by omega)) => a r1 h1
  rw [skip_squeeze]
  spair (simP_opt (k := wt (skipSp r1) + 1) ((sim_urnAnchor (skipSp r1)).mono (by omega)) (by omega)) => u r2 h2
  rw [skip_squeeze]
  refine Sim.bind (sim_args H (skipSp r2) (by wbound)) fun args r3 h3 => ?_
  refine SimS.bind (simS_lit r3 _ (by decide) (by decide)) fun r4 h4 => ?_
  rw [skip_squeeze]
  refine Sim.bind (sim_type _) fun t r5 h5 => ?_
  exact .some _ _ (by wbound)

theorem sim_clause (s : Str) (hs : wt s < k) : Sim (wt s) (pClauseWith p s) (pClauseWith q (squeeze s)) := by
  unfold pClauseWith
  refine Sim.bind (H s hs) fun c r hr => ?_
  dsimp only
  rw [skip_squeeze]
  refine SimS.bind (simS_lit _ _ (by decide) (by decide)) fun r1 h1 => ?_
  rw [skip_squeeze]
  refine Sim.bind (H _ (by wbound)) fun x r2 h2 => ?_
  exact .some _ _ (by wbound)

theorem good_clauseComma : Good k (pClauseComma p) (pClauseComma q) := fun s hs => by
  unfold pClauseComma
  refine Sim.bind (sim_clause H s hs) fun c r hr => ?_
  dsimp only
  rw [skip_squeeze]
  refine SimS.bind (simS_lit _ _ (by decide) (by decide)) fun r1 h1 => ?_
  rw [skip_squeeze]
  exact .some _ _ (by wbound)

theorem sim_ifThen (s : Str) (hs : wt s ≤ k) : Sim (wt s) (pIfThenWith p s) (pIfThenWith q (squeeze s)) := by
  unfold pIfThenWith
  refine SimS.bind (simS_lit s _ (by decide) (by decide)) fun r hr => ?_
  rw [skip_squeeze]
  refine Sim.bind (good_clauseComma H (skipSp r) (by wbound)) fun x r1 h1 => ?_
  spair (simP_many' (good_clauseComma H) r1 (by wbound)) => xs r2 h2
  rw [skip_squeeze]
  refine SimS.bind (simS_lit _ _ (by decide) (by decide)) fun r3 h3 => ?_
  rw [skip_squeeze]
  refine SimS.bind (simS_lit _ _ (by decide) (by decide)) fun r4 h4 => ?_
  rw [skip_squeeze]
  refine Sim.bind (H _ (by wbound)) fun y r5 h5 => ?_
  refine SimS.bind (simS_lit _ _ (by decide) (by decide)) fun r6 h6 => ?_
  exact .some _ _ (by wbound)

theorem sim_cast (s : Str) (hs : wt s ≤ k) : Sim (wt s) (pCastWith p s) (pCastWith q (squeeze s)) := by
  unfold pCastWith
  refine SimS.bind (simS_lit s _ (by decide) (by decide)) fun r hr => ?_
  rw [skip_squeeze]
  refine Sim.bind (H _ (by wbound)) fun x r1 h1 => ?_
  dsimp only
  rw [skip_squeeze]
  refine SimS.bind (simS_lit _ _ (by decide) (by decide)) fun r3 h3 => ?_
  rw [skip_squeeze]
  refine SimS.bind (simS_lit _ _ (by decide) (by decide)) fun r4 h4 => ?_
  rw [skip_squeeze]
  spair (simP_behavior _) => fb r5 h5
  rw [skip_squeeze]
  refine Sim.bind (sim_type _) fun t r6 h6 => ?_
  exact .some _ _ (by wbound)

end Exprs

theorem sim_exprN : ∀ (n m : Nat) (s : Str), wt s < n → wt s < m → Sim (wt s) (pExprN n s) (pExprN m (squeeze s)) := by
  intro n
  induction n with
  | zero => intro m s hn; omega
  | succ n ih =>
    intro m s hn hm
    obtain ⟨m, rfl⟩ : ∃ m', m = m' + 1 := ⟨m - 1, by omega⟩
    have H : Good (wt s) (pExprN n) (pExprN m) := fun t ht => ih m t (by omega) (by omega)
    simp only [pExprN]
    exact ((((sim_ifThen H s (Nat.le_refl _)).or (sim_cast H s (Nat.le_refl _))).or (sim_call H s (Nat.le_refl _))).or
      (sim_ref s).mapFst).or (sim_literal s).mapFst

theorem sim_expr (s : Str) : Sim (wt s) (pExpr s) (pExpr (squeeze s)) := by
  have h1 := wt_le_length s
  have h2 := wt_le_length (squeeze s)
  rw [wt_squeeze] at h2
  exact sim_exprN _ _ s (by omega) (by omega)

theorem good_expr (k : Nat) : Good k pExpr pExpr := fun s _ => sim_expr s

/-! ## Extension arguments -/

theorem sim_enumValue (s : Str) : Sim (wt s) (pEnumValue s) (pEnumValue (squeeze s)) := by
  unfold pEnumValue
  refine SimS.bind (simS_lit s _ (by decide) (by decide)) fun r hr => ?_
  exact (sim_ident _).mono (by omega)

theorem simS_notAhead (c : Char) (s : Str) : SimS (wt s + 1) (notAhead c s) (notAhead c (squeeze s)) := by
  unfold notAhead
  rw [squeeze_head]
  split
  · exact .none
  · exact .some _ (by omega)

theorem sim_paramLit (s : Str) : Sim (wt s) (pParamLit s) (pParamLit (squeeze s)) := by
  unfold pParamLit
  refine Sim.bind (sim_value s) fun v r hr => ?_
  refine SimS.bind (simS_notAhead _ r) fun r1 h1 => ?_
  exact .some _ _ (by omega)

theorem sim_tuple0 (s : Str) : Sim (wt s) (pTuple0 s) (pTuple0 (squeeze s)) := by
  unfold pTuple0
  refine SimS.bind (simS_lit s _ (by decide) (by decide)) fun r hr => ?_
  rw [skip_squeeze]
  refine SimS.bind (simS_lit _ _ (by decide) (by decide)) fun r1 h1 => ?_
  exact .some _ _ (by wbound)

theorem sim_spComma (s : Str) : Sim (wt s) (spComma s) (spComma (squeeze s)) := by
  unfold spComma
  rw [skip_squeeze]
  have := (simS_lit (skipSp s) cs!"," (by decide) (by decide)).tag (a := ())
  rw [wt_skip] at this
  exact this

section Args
variable {k : Nat} {p q : Str → Option (SArg × Str)} (H : Good k p q)
include H

theorem sim_tuple1 (s : Str) (hs : wt s ≤ k) : Sim (wt s) (pTuple1With p s) (pTuple1With q (squeeze s)) := by
  unfold pTuple1With
  refine SimS.bind (simS_lit s _ (by decide) (by decide)) fun r hr => ?_
  rw [skip_squeeze]
  refine Sim.bind (H _ (by wbound)) fun a r1 h1 => ?_
  dsimp only
  rw [skip_squeeze]
  refine SimS.bind (simS_lit _ _ (by decide) (by decide)) fun r2 h2 => ?_
  rw [skip_squeeze]
  refine SimS.bind (simS_lit _ _ (by decide) (by decide)) fun r3 h3 => ?_
  exact .some _ _ (by wbound)

theorem sim_tuple2 (s : Str) (hs : wt s ≤ k) : Sim (wt s) (pTuple2With p s) (pTuple2With q (squeeze s)) := by
  unfold pTuple2With
  refine SimS.bind (simS_lit s _ (by decide) (by decide)) fun r hr => ?_
  rw [skip_squeeze]
  refine Sim.bind (sim_sep1 simS_spCommaSp H (skipSp r) (by wbound)) fun l r1 h1 => ?_
  dsimp only
  by_cases hl : l.length < 2
  · simp only [hl, if_true]; exact .none
  · simp only [hl, if_false]
    spair (simP_opt (k := wt r1 + 1) ((sim_spComma r1).mono (by omega)) (by omega)) => b r2 h2
    rw [skip_squeeze]
    refine SimS.bind (simS_lit _ _ (by decide) (by decide)) fun r3 h3 => ?_
    exact .some _ _ (by wbound)

theorem sim_tuple (s : Str) (hs : wt s ≤ k) : Sim (wt s) (pTupleWith p s) (pTupleWith q (squeeze s)) :=
  ((sim_tuple0 s).or (sim_tuple1 H s hs)).or (sim_tuple2 H s hs)

end Args

theorem sim_argN : ∀ (n m : Nat) (s : Str), wt s < n → wt s < m → Sim (wt s) (pArgN n s) (pArgN m (squeeze s)) := by
  intro n
  induction n with
  | zero => intro m s hn; omega
  | succ n ih =>
    intro m s hn hm
    obtain ⟨m, rfl⟩ : ∃ m', m = m' + 1 := ⟨m - 1, by omega⟩
    have H : Good (wt s) (pArgN n) (pArgN m) := fun t ht => ih m t (by omega) (by omega)
    simp only [pArgN]
    exact ((((sim_enumValue s).mapFst.or (sim_paramLit s).mapFst).or (sim_ref s).mapFst).or (sim_expr s).mapFst).or
      (sim_tuple H s (Nat.le_refl _)).mapFst

theorem sim_arg (s : Str) : Sim (wt s) (pArg s) (pArg (squeeze s)) := by
  have h1 := wt_le_length s
  have h2 := wt_le_length (squeeze s)
  rw [wt_squeeze] at h2
  exact sim_argN _ _ s (by omega) (by omega)

theorem sim_namedArg (s : Str) : Sim (wt s) (pNamedArg s) (pNamedArg (squeeze s)) := by
  unfold pNamedArg
  refine Sim.bind (sim_name s) fun n r hr => ?_
  dsimp only
  rw [skip_squeeze]
  refine SimS.bind (simS_lit _ _ (by decide) (by decide)) fun r1 h1 => ?_
  rw [skip_squeeze]
  refine Sim.bind (sim_arg _) fun a r2 h2 => ?_
  exact .some _ _ (by wbound)

theorem sim_commaNamed (s : Str) : Sim (wt s) (pCommaNamed s) (pCommaNamed (squeeze s)) := by
  unfold pCommaNamed
  refine SimS.bind (simS_spCommaSp s) fun r hr => ?_
  exact (sim_sep1 (k := wt r + 1) simS_spCommaSp (fun t _ => sim_namedArg t) r (by omega)).mono (by omega)

theorem sim_positional (s : Str) : Sim (wt s) (pPositional s) (pPositional (squeeze s)) := by
  unfold pPositional
  refine Sim.bind (sim_sep1 (k := wt s + 1) simS_spCommaSp (fun t _ => sim_arg t) s (by omega)) fun l r hr => ?_
  spair (simP_opt (k := wt r + 1) ((sim_commaNamed r).mono (by omega)) (by omega)) => n r1 h1
  exact .some _ _ (by omega)

theorem simP_extArgs (s : Str) : SimP (wt s + 1) (pExtArgs s) (pExtArgs (squeeze s)) := by
  unfold pExtArgs
  have h := ((simS_lit s cs!"_" (by decide) (by decide)).tag (a := ({} : SArgs))).or (sim_positional s) |>.or
    ((sim_sep1 (k := wt s + 1) simS_spCommaSp (fun t _ => sim_namedArg t) s (by omega)).mapFst
      (f := fun n => (⟨[], n⟩ : SArgs)))
  revert h
  generalize (((lit cs!"_" s).map fun r => (({} : SArgs), r)).or (pPositional s)).or
      (mapFst (fun n => (⟨[], n⟩ : SArgs)) (pSep1 spCommaSp pNamedArg s)) = x
  generalize (((lit cs!"_" (squeeze s)).map fun r => (({} : SArgs), r)).or (pPositional (squeeze s))).or
      (mapFst (fun n => (⟨[], n⟩ : SArgs)) (pSep1 spCommaSp pNamedArg (squeeze s))) = y
  intro h
  cases h with
  | none => exact ⟨rfl, by simp⟩
  | some a r h => exact ⟨rfl, Nat.lt_succ_of_lt h⟩

theorem sim_namedColumn (s : Str) : Sim (wt s) (pNamedColumn s) (pNamedColumn (squeeze s)) := by
  unfold pNamedColumn
  refine Sim.bind (sim_name s) fun n r hr => ?_
  refine SimS.bind (simS_lit _ _ (by decide) (by decide)) fun r1 h1 => ?_
  refine Sim.bind (sim_type _) fun a r2 h2 => ?_
  exact .some _ _ (by wbound)

theorem sim_extColumn (s : Str) : Sim (wt s) (pExtColumn s) (pExtColumn (squeeze s)) :=
  ((sim_namedColumn s).mapFst.or (sim_ref s).mapFst).or (sim_expr s).mapFst

end Verif
