import Verif.Proofs.SpaceRules
/-!
# Relation lines do not see the width of spaces
-/

set_option autoImplicit false

namespace Verif
open SpaceSpec

/-- A fixed text at this place. -/
macro "slit " r:ident h:ident : tactic => `(tactic|
  (try dsimp only
   try rw [skip_squeeze]
   refine SimS.bind (simS_lit _ _ (by decide) (by decide)) fun $r $h => ?_))

/-- A rule with a value at this place. -/
macro "srule " t:term " => " a:ident r:ident h:ident : tactic => `(tactic|
  (try dsimp only
   try rw [skip_squeeze]
   refine Sim.bind $t fun $a $r $h => ?_))

theorem simS_arrow (s : Str) : SimS (wt s) (pArrow s) (pArrow (squeeze s)) := by
  unfold pArrow
  rw [skip_squeeze]
  have := (simS_lit (skipSp s) cs!"=>" (by decide) (by decide)).skip
  rw [wt_skip] at this
  exact this

theorem simS_dot (s : Str) : SimS (wt s) (pDot s) (pDot (squeeze s)) := simS_lit s _ (by decide) (by decide)

theorem simP_columns (s : Str) : SimP (wt s + 1) (pColumns s) (pColumns (squeeze s)) :=
  simP_sep (k := wt s + 1) simS_commaSp (fun t _ => sim_namedColumn t) s (by omega)

theorem simP_refs (s : Str) : SimP (wt s + 1) (pRefs s) (pRefs (squeeze s)) :=
  simP_sep (k := wt s + 1) simS_spCommaSp (fun t _ => sim_ref t) s (by omega)

theorem sim_suffix (s : Str) : Sim (wt s) (pSuffix s) (pSuffix (squeeze s)) := by
  unfold pSuffix
  slit r hr
  rw [skip_squeeze]
  have h := (simP_refs (skipSp r)).some
  exact h.mono (by wbound)

theorem sim_implicit (s : Str) : Sim (wt s) (pImplicit s) (pImplicit (squeeze s)) := by
  unfold pImplicit
  slit r hr
  rw [skip_squeeze]
  spair (simP_columns (skipSp r)) => cols r1 h1
  exact .some _ _ (by wbound)

theorem simP_opt' {α : Type} {p q : Str → Option (α × Str)} {s : Str} (h : Sim (wt s) (p s) (q (squeeze s))) :
    SimP (wt s + 1) (pOpt p s) (pOpt q (squeeze s)) := simP_opt (h.mono (by omega)) (by omega)

theorem sim_direct (s : Str) : Sim (wt s) (pDirect s) (pDirect (squeeze s)) := by
  unfold pDirect
  slit r hr
  rw [skip_squeeze]
  spair (simP_columns (skipSp r)) => cols r1 h1
  spair (simP_opt' (sim_suffix r1)) => sf r2 h2
  exact .some _ _ (by wbound)

theorem sim_output (s : Str) : Sim (wt s) (pOutput s) (pOutput (squeeze s)) := (sim_implicit s).or (sim_direct s)

theorem sim_exprList (s : Str) : Sim (wt s) (pExprList s) (pExprList (squeeze s)) := by
  unfold pExprList
  srule (sim_expr s) => e r hr
  dsimp only
  rw [skip_squeeze]
  have h := simP_star' simS_commaSp (good_expr (wt r + 1)) (skipSp r) (by wbound)
  rw [h.1]
  have := h.2
  exact .some _ _ (by wbound)

theorem sim_read (s : Str) : Sim (wt s) (pRead s) (pRead (squeeze s)) := by
  unfold pRead
  slit r hr
  srule (sim_sep1 (k := wt r + 1) simS_dot (fun t _ => sim_name t) r (by omega)) => table r1 h1
  srule (sim_output (skipSp r1)) => out r2 h2
  slit r3 h3
  exact .some _ _ (by wbound)

theorem sim_readExt (s : Str) : Sim (wt s) (pReadExt s) (pReadExt (squeeze s)) := by
  unfold pReadExt
  slit r hr
  spair (simP_columns r) => cols r1 h1
  slit r3 h3
  exact .some _ _ (by wbound)

theorem simS_newline (s : Str) : SimS (wt s) (pNewline s) (pNewline (squeeze s)) :=
  ((simS_lit s _ (by decide) (by decide)).or (simS_lit s _ (by decide) (by decide))).or
    (simS_lit s _ (by decide) (by decide))

theorem dash_space (s : Str) : lit cs!"- " s = (lit cs!"-" s).bind (lit cs!" ") := by
  cases s with
  | nil => rfl
  | cons c s =>
    by_cases h : '-' = c
    · simp only [lit, if_pos h, Option.bind_some]
    · simp only [lit, if_neg h, Option.bind_none]

/-- A space and those after it. -/
theorem simS_spaces (s : Str) : SimS (wt s + 1) ((lit cs!" " s).map skipSp) ((lit cs!" " (squeeze s)).map skipSp) := by
  cases s with
  | nil => exact .none
  | cons c s =>
    by_cases h : c = ' '
    · subst h
      rw [squeeze_space]
      simp only [lit, if_true, Option.map_some, skip_squeeze, skip_skip]
      exact .some _ (by rw [wt_skip, wt_cons]; simp)
    · have hh := squeeze_head (c :: s)
      cases hq : squeeze (c :: s) with
      | nil => rw [hq] at hh; cases hh
      | cons d t =>
        rw [hq] at hh
        simp only [List.head?_cons, Option.some.injEq] at hh
        subst hh
        have h' : ¬ ' ' = d := fun e => h e.symm
        simp only [lit, if_neg h']
        exact .none

theorem simS_cont (s : Str) : SimS (wt s) (pCont s) (pCont (squeeze s)) := by
  unfold pCont
  rw [skip_squeeze]
  refine SimS.bindS (simS_newline (skipSp s)) fun r hr => ?_
  rw [skip_squeeze, dash_space, dash_space]
  have e : ∀ x : Option Str, (x.bind (lit cs!" ") >>= fun s => some (skipSp s)) =
      x >>= fun s => (lit cs!" " s).map skipSp := by
    intro x; cases x with
    | none => rfl
    | some t => simp only [Option.bind_some, Option.bind_eq_bind]; cases lit cs!" " t <;> rfl
  rw [e, e]
  refine SimS.bindS (simS_lit _ _ (by decide) (by decide)) fun r1 h1 => ?_
  exact (simS_spaces r1).mono (by wbound)

theorem contOrSp_squeeze (s : Str) : contOrSp (squeeze s) = squeeze (contOrSp s) ∧ wt (contOrSp s) ≤ wt s := by
  unfold contOrSp
  have h := simS_cont s
  revert h
  generalize pCont s = x
  generalize pCont (squeeze s) = y
  intro h
  cases h with
  | none => exact ⟨by simp [skip_squeeze], by simp [wt_skip]⟩
  | some r h => exact ⟨rfl, by simp; omega⟩

theorem contOr_squeeze (s : Str) : (pCont (squeeze s)).getD (squeeze s) = squeeze ((pCont s).getD s) ∧
    wt ((pCont s).getD s) ≤ wt s := by
  have h := simS_cont s
  revert h
  generalize pCont s = x
  generalize pCont (squeeze s) = y
  intro h
  cases h with
  | none => exact ⟨rfl, by simp⟩
  | some r h => exact ⟨rfl, by simp; omega⟩

theorem SimS.mapEq {k : Nat} {f : Str → Str} {x y : Option Str} (h : SimS k x y)
    (hf : ∀ s, f (squeeze s) = squeeze (f s) ∧ wt (f s) ≤ wt s) : SimS k (x.map f) (y.map f) := by
  cases h with
  | none => exact .none
  | some r h =>
    simp only [Option.map_some, (hf r).1]
    exact .some _ (by have := (hf r).2; omega)

theorem simS_relOpen (s : Str) : SimS (wt s) (relOpen s) (relOpen (squeeze s)) :=
  (simS_lit s _ (by decide) (by decide)).mapEq contOr_squeeze

theorem simS_relComma (s : Str) : SimS (wt s) (relComma s) (relComma (squeeze s)) := by
  unfold relComma
  rw [skip_squeeze]
  have := (simS_lit (skipSp s) cs!"," (by decide) (by decide)).mapEq contOrSp_squeeze
  rw [wt_skip] at this
  exact this

theorem simS_relArrow (s : Str) : SimS (wt s) (relArrow s) (relArrow (squeeze s)) := by
  unfold relArrow
  rw [(contOrSp_squeeze s).1]
  have := (simS_lit (contOrSp s) cs!"=>" (by decide) (by decide)).skip
  exact this.mono (contOrSp_squeeze s).2

theorem simS_relEnd (s : Str) : SimS (wt s + 1) (relEnd s) (relEnd (squeeze s)) := by
  unfold relEnd
  rw [skip_squeeze]
  by_cases h : skipSp s = []
  · rw [if_pos h, if_pos (by rw [h]; rfl)]
    exact .some [] (by simp [wt_nil])
  · rw [if_neg h, if_neg (by rw [squeeze_eq_nil]; exact h)]
    exact .none

theorem sim_row (s : Str) : Sim (wt s) (pRow s) (pRow (squeeze s)) := by
  unfold pRow
  slit r hr
  rw [skip_squeeze]
  spair (simP_opt' (sim_exprList (skipSp r))) => l r1 h1
  slit r2 h2
  exact .some _ _ (by wbound)

theorem sim_rows (s : Str) : Sim (wt s) (pRows s) (pRows (squeeze s)) :=
  (sim_sep1 (k := wt s + 1) simS_relComma (fun t _ => sim_row t) s (by omega)).or
    (simS_lit s _ (by decide) (by decide)).tag

theorem sim_vfilter (s : Str) : Sim (wt s) (pVFilter s) (pVFilter (squeeze s)) := by
  unfold pVFilter
  slit r hr
  slit r1 h1
  rw [skip_squeeze]
  exact (sim_expr _).mono (by wbound)

theorem sim_commaFilter (s : Str) : Sim (wt s) (pCommaFilter s) (pCommaFilter (squeeze s)) := by
  unfold pCommaFilter
  refine SimS.bind (simS_relComma s) fun r hr => ?_
  exact (sim_vfilter r).mono (by omega)

theorem sim_readVirtual (s : Str) : Sim (wt s) (pReadVirtual s) (pReadVirtual (squeeze s)) := by
  unfold pReadVirtual
  slit r hr
  refine SimS.bind (simS_relOpen r) fun r1 h1 => ?_
  srule (sim_rows r1) => rows r2 h2
  spair (simP_opt' (sim_commaFilter r2)) => f r3 h3
  refine SimS.bind (simS_relArrow r3) fun r4 h4 => ?_
  spair (simP_columns r4) => cols r5 h5
  slit r6 h6
  refine SimS.bind (simS_relEnd r6) fun r7 h7 => ?_
  exact .some _ _ (by first | omega | (dsimp only; omega))

theorem sim_refsClose (s : Str) : Sim (wt s) (pRefsClose s) (pRefsClose (squeeze s)) := by
  unfold pRefsClose
  spair (simP_refs s) => refs r h
  slit r1 h1
  exact .some _ _ (by first | omega | (dsimp only; omega))

theorem sim_filter (s : Str) : Sim (wt s) (pFilter s) (pFilter (squeeze s)) := by
  unfold pFilter
  slit r hr
  srule (sim_expr r) => e r1 h1
  refine SimS.bind (simS_arrow r1) fun r2 h2 => ?_
  srule (sim_refsClose r2) => refs r3 h3
  exact .some _ _ (by first | omega | (dsimp only; omega))

theorem sim_projArg (s : Str) : Sim (wt s) (pProjArg s) (pProjArg (squeeze s)) :=
  (sim_ref s).mapFst.or (sim_expr s).mapFst

theorem sim_project (s : Str) : Sim (wt s) (pProject s) (pProject (squeeze s)) := by
  unfold pProject
  slit r hr
  spair (simP_sep (k := wt r + 1) simS_spCommaSp (fun t _ => sim_projArg t) r (by omega)) => args r1 h1
  slit r2 h2
  exact .some _ _ (by first | omega | (dsimp only; omega))

theorem sim_parenSet (s : Str) : Sim (wt s) (pParenSet s) (pParenSet (squeeze s)) := by
  unfold pParenSet
  slit r hr
  srule (sim_exprList (skipSp r)) => l r1 h1
  slit r2 h2
  exact .some _ _ (by wbound)

theorem sim_groupingSet (s : Str) : Sim (wt s) (pGroupingSet s) (pGroupingSet (squeeze s)) :=
  (sim_parenSet s).or (simS_lit s _ (by decide) (by decide)).tag

theorem sim_groupingSets (s : Str) : Sim (wt s) (pGroupingSets s) (pGroupingSets (squeeze s)) := by
  unfold pGroupingSets
  srule (sim_groupingSet s) => e r hr
  dsimp only
  rw [skip_squeeze]
  have h := simP_star' (k := wt r + 1) simS_commaSp (fun t _ => sim_groupingSet t) (skipSp r) (by wbound)
  rw [h.1]
  have := h.2
  exact .some _ _ (by wbound)

theorem sim_groupBy (s : Str) : Sim (wt s) (pGroupBy s) (pGroupBy (squeeze s)) :=
  (sim_groupingSets s).mapFst.or (sim_exprList s).mapFst

theorem sim_aggregate (s : Str) : Sim (wt s) (pAggregate s) (pAggregate (squeeze s)) := by
  unfold pAggregate
  slit r hr
  srule (sim_groupBy r) => g r1 h1
  refine SimS.bind (simS_arrow r1) fun r2 h2 => ?_
  spair (simP_sep simS_spCommaSp (good_expr (wt r2 + 1)) r2 (by omega)) => outs r3 h3
  slit r4 h4
  exact .some _ _ (by first | omega | (dsimp only; omega))

theorem sim_sortField (s : Str) : Sim (wt s) (pSortField s) (pSortField (squeeze s)) := by
  unfold pSortField
  slit r hr
  srule (sim_expr (skipSp r)) => e r1 h1
  slit r2 h2
  srule (sim_first (skipSp r2) sortNames (by decide)) => d r3 h3
  slit r4 h4
  exact .some _ _ (by wbound)

theorem sim_sort (s : Str) : Sim (wt s) (pSort s) (pSort (squeeze s)) := by
  unfold pSort
  slit r hr
  spair (simP_sep (k := wt r + 1) simS_spCommaSp (fun t _ => sim_sortField t) r (by omega)) => args r1 h1
  refine SimS.bind (simS_arrow r1) fun r2 h2 => ?_
  srule (sim_refsClose r2) => refs r3 h3
  exact .some _ _ (by first | omega | (dsimp only; omega))

theorem sim_fetchValue (s : Str) : Sim (wt s) (pFetchValue s) (pFetchValue (squeeze s)) :=
  (sim_integer s).mapFst.or (sim_expr s).mapFst

theorem sim_fetchArg (s : Str) : Sim (wt s) (pFetchArg s) (pFetchArg (squeeze s)) := by
  unfold pFetchArg
  srule (sim_first s _ (by decide)) => n r hr
  slit r1 h1
  srule (sim_fetchValue (skipSp r1)) => v r2 h2
  exact .some _ _ (by wbound)

theorem sim_fetchArgs (s : Str) : Sim (wt s) (pFetchArgs s) (pFetchArgs (squeeze s)) :=
  (sim_sep1 (k := wt s + 1) simS_spCommaSp (fun t _ => sim_fetchArg t) s (by omega)).or
    (simS_lit s _ (by decide) (by decide)).tag

theorem sim_fetch (s : Str) : Sim (wt s) (pFetch s) (pFetch (squeeze s)) := by
  unfold pFetch
  slit r hr
  srule (sim_fetchArgs r) => a r1 h1
  refine SimS.bind (simS_arrow r1) fun r2 h2 => ?_
  srule (sim_refsClose r2) => refs r3 h3
  exact .some _ _ (by first | omega | (dsimp only; omega))

theorem sim_postFilter (s : Str) : Sim (wt s) (pPostFilter s) (pPostFilter (squeeze s)) := by
  unfold pPostFilter
  refine SimS.bind (simS_spCommaSp s) fun r hr => ?_
  slit r1 h1
  slit r2 h2
  rw [skip_squeeze]
  exact (sim_expr _).mono (by wbound)

theorem sim_join (s : Str) : Sim (wt s) (pJoin s) (pJoin (squeeze s)) := by
  unfold pJoin
  slit r hr
  srule (sim_first r joinNames (by decide)) => t r1 h1
  refine SimS.bind (simS_spCommaSp r1) fun r2 h2 => ?_
  srule (sim_expr r2) => e r3 h3
  spair (simP_opt' (sim_postFilter r3)) => post r4 h4
  refine SimS.bind (simS_arrow r4) fun r5 h5 => ?_
  srule (sim_refsClose r5) => refs r6 h6
  exact .some _ _ (by first | omega | (dsimp only; omega))

theorem sim_set (s : Str) : Sim (wt s) (pSet s) (pSet (squeeze s)) := by
  unfold pSet
  slit r hr
  srule (sim_first r setNames (by decide)) => t r1 h1
  refine SimS.bind (simS_arrow r1) fun r2 h2 => ?_
  srule (sim_refsClose r2) => refs r3 h3
  exact .some _ _ (by first | omega | (dsimp only; omega))

theorem sim_cross (s : Str) : Sim (wt s) (pCross s) (pCross (squeeze s)) := by
  unfold pCross
  slit r hr
  srule (sim_refsClose r) => refs r3 h3
  exact .some _ _ (by first | omega | (dsimp only; omega))

theorem sim_extKind (s : Str) : Sim (wt s) (pExtKind s) (pExtKind (squeeze s)) :=
  ((simS_lit s _ (by decide) (by decide)).tag.or (simS_lit s _ (by decide) (by decide)).tag).or
    (simS_lit s _ (by decide) (by decide)).tag

/-- What a name takes is left alone. -/
theorem name_taken {s a r : Str} (h : pName s = some (a, r)) : ∃ p, s = p ++ r ∧ squeeze s = p ++ squeeze r := by
  rw [pName_or] at h
  rcases Option.or_eq_some_iff.1 h with h | ⟨_, h⟩
  · cases s with
    | nil => cases h
    | cons c s =>
      simp only [pIdent] at h
      by_cases hc : isAlpha c = true
      · rw [if_pos hc] at h
        simp only [Option.some.injEq, Prod.mk.injEq] at h
        obtain ⟨_, rfl⟩ := h
        have hi : isIdentChar c = true := by simp [isIdentChar, isAlnum, hc]
        refine ⟨c :: s.takeWhile isIdentChar, by simp, ?_⟩
        have hr := squeeze_run (C := isIdentChar) (fun _ => ident_plain) s
        rw [squeeze_plain (ident_plain hi), ← hr.2, ← hr.1]
        simp
      · rw [if_neg hc] at h; cases h
  · unfold pQuotedName at h
    cases s with
    | nil => cases h
    | cons c s =>
      by_cases hc : '"' = c
      · subst hc
        simp only [lit, if_true] at h
        cases hp : pQuoted '"' s with
        | none => rw [hp] at h; cases h
        | some x =>
          obtain ⟨b, t⟩ := x
          rw [hp] at h
          simp only [Option.some.injEq, Prod.mk.injEq] at h
          obtain ⟨_, rfl⟩ := h
          obtain ⟨h1, h2, _⟩ := (quoted_squeeze '"' (.inr rfl) s.length s (Nat.le_refl _)).2 b t hp
          refine ⟨'"' :: (b ++ ['"']), by simp [← h2], ?_⟩
          have e : squeeze ('"' :: s) = '"' :: squeezeFrom (.within '"' false) s := by
            simp [squeeze, squeezeFrom]
          rw [e, h1]; simp
      · simp [lit, hc] at h

theorem sim_rawName (s : Str) : Sim (wt s) (pRawName s) (pRawName (squeeze s)) := by
  unfold pRawName
  have h := sim_name s
  cases hp : pName s with
  | none =>
    rw [hp] at h
    generalize pName (squeeze s) = y at h
    cases h with
    | none => exact .none
  | some x =>
    obtain ⟨a, r⟩ := x
    obtain ⟨p, h1, h2⟩ := name_taken hp
    rw [hp] at h
    generalize pName (squeeze s) = y at h
    cases h with
    | some _ _ hw =>
      simp only [Option.map_some]
      have e1 : s.take (s.length - r.length) = p := by rw [h1]; simp
      have e2 : (squeeze s).take ((squeeze s).length - (squeeze r).length) = p := by rw [h2]; simp
      rw [e1, e2]
      exact .some _ _ hw

theorem sim_extColumns (s : Str) : Sim (wt s) (pExtColumns s) (pExtColumns (squeeze s)) := by
  unfold pExtColumns
  refine SimS.bind (simS_arrow s) fun r hr => ?_
  have h := (simP_sep (k := wt r + 1) simS_spCommaSp (fun t _ => sim_extColumn t) r (by omega)).some
  exact h.mono (by omega)

theorem sim_extRel (s : Str) : Sim (wt s) (pExtRel s) (pExtRel (squeeze s)) := by
  unfold pExtRel
  srule (sim_extKind s) => k r hr
  slit r1 h1
  srule (sim_rawName r1) => name r2 h2
  slit r3 h3
  rw [skip_squeeze]
  spair (simP_extArgs (skipSp r3)) => args r4 h4
  spair (simP_opt' (sim_extColumns r4)) => cols r5 h5
  slit r6 h6
  exact .some _ _ (by wbound)

theorem sim_addKind (s : Str) : Sim (wt s) (pAddKind s) (pAddKind (squeeze s)) :=
  ((simS_lit s _ (by decide) (by decide)).tag.or (simS_lit s _ (by decide) (by decide)).tag).or
    (simS_lit s _ (by decide) (by decide)).tag

theorem sim_addendum (s : Str) : Sim (wt s) (pAddendum s) (pAddendum (squeeze s)) := by
  unfold pAddendum
  slit r hr
  srule (sim_addKind (skipSp r)) => k r1 h1
  slit r2 h2
  srule (sim_name r2) => name r3 h3
  slit r4 h4
  spair (simP_extArgs r4) => args r5 h5
  slit r6 h6
  exact .some _ _ (by wbound)

theorem sim_root (s : Str) : Sim (wt s) (pRoot s) (pRoot (squeeze s)) := by
  unfold pRoot
  slit r hr
  spair (simP_sep (k := wt r + 1) simS_spCommaSp (fun t _ => sim_name t) r (by omega)) => names r1 h1
  slit r2 h2
  exact .some _ _ (by first | omega | (dsimp only; omega))

theorem sim_relLine (s : Str) : Sim (wt s) (pRelLine s) (pRelLine (squeeze s)) :=
  (((((((((((sim_readExt s).or (sim_readVirtual s)).or (sim_read s)).or (sim_filter s)).or (sim_project s)).or
    (sim_aggregate s)).or (sim_sort s)).or (sim_fetch s)).or (sim_join s)).or (sim_set s)).or (sim_cross s)).or
    (sim_extRel s)

theorem nodeLine_squeeze (s : Str) : nodeLine (squeeze s) = nodeLine s := by
  unfold nodeLine
  have h1 := sim_relLine s
  have h2 := sim_addendum s
  revert h1 h2
  generalize pRelLine s = x1
  generalize pRelLine (squeeze s) = y1
  generalize pAddendum s = x2
  generalize pAddendum (squeeze s) = y2
  intro h1 h2
  cases h1 with
  | some a r h => rfl
  | none =>
    cases h2 with
    | none => rfl
    | some a r h => rfl

theorem topLine_squeeze (s : Str) : topLine (squeeze s) = topLine s := by
  unfold topLine
  have h1 := sim_root s
  rw [nodeLine_squeeze]
  revert h1
  generalize pRoot s = x1
  generalize pRoot (squeeze s) = y1
  intro h1
  cases h1 with
  | some a r h => rfl
  | none => rfl

end Verif
