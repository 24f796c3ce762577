import Verif.Proofs.Grammar
import Verif.Spec.PlanLines
/-!
# The relation rules accept only what the grammar derives
-/

namespace Verif

set_option autoImplicit false

open Grammar

/-! ## Arguments of extensions -/

theorem reads_enum : Reads (fun n x => x = '&' :: n ∧ Ident n) pEnumValue := by
  intro s a r h
  unfold pEnumValue at h
  simp only [Option.bind_eq_bind, Option.bind_eq_some_iff] at h
  obtain ⟨s1, h1, h⟩ := h
  obtain ⟨x, e, rfl, hx⟩ := reads_ident _ _ _ h
  exact ⟨_, by rw [lit_some h1, e]; rfl, rfl, hx⟩

theorem reads_paramLit : Reads ValueText pParamLit := by
  intro s a r h
  unfold pParamLit at h
  simp only [Option.bind_eq_bind, Option.bind_eq_some_iff] at h
  obtain ⟨⟨v, s1⟩, h1, s2, h2, h⟩ := h
  dsimp only at h2
  cases h
  unfold notAhead at h2
  split at h2
  · cases h2
  · cases h2; exact reads_value _ _ _ h1

section args
variable {p : Str → Option (SArg × Str)} (hp : Reads ArgText p)
include hp

theorem reads_tuple : Reads TupleText (pTupleWith p) := by
  unfold pTupleWith
  refine (Reads.orElse ?_ ?_).orElse ?_
  · intro s a r h
    unfold pTuple0 at h
    simp only [Option.bind_eq_bind, Option.bind_eq_some_iff] at h
    obtain ⟨s1, h1, s2, h2, h⟩ := h
    cases h
    obtain ⟨w, t, hw, e, e'⟩ := skipSp_cut s1
    rw [e] at h2
    exact ⟨_, by rw [lit_some h1, e', lit_some h2]; simp, .nil hw⟩
  · intro s a r h
    unfold pTuple1With at h
    simp only [Option.bind_eq_bind, Option.bind_eq_some_iff] at h
    obtain ⟨s1, h1, ⟨a', s2⟩, h2, s3, h3, s4, h4, h⟩ := h
    cases h
    dsimp only at h3
    obtain ⟨w, t, hw, e, e'⟩ := skipSp_cut s1
    obtain ⟨w2, t2, hw2, c2, c2'⟩ := skipSp_cut s2
    obtain ⟨w3, t3, hw3, c3, c3'⟩ := skipSp_cut s3
    rw [e] at h2
    rw [c2] at h3
    rw [c3] at h4
    obtain ⟨x, e2, hx⟩ := hp _ _ _ h2
    exact ⟨_, by rw [lit_some h1, e', e2, c2', lit_some h3, c3', lit_some h4]; simp, .one hw hx hw2 hw3⟩
  · intro s a r h
    unfold pTuple2With at h
    simp only [Option.bind_eq_bind, Option.bind_eq_some_iff] at h
    obtain ⟨s1, h1, ⟨l, s2⟩, h2, h⟩ := h
    dsimp only at h
    obtain ⟨w, t, hw, e, e'⟩ := skipSp_cut s1
    rw [e] at h2
    obtain ⟨x, e2, hx⟩ := Reads.sep1 skips_spComma hp _ _ _ h2
    split at h
    · simp at h
    next hl =>
    simp only [Option.pure_def, Option.bind_some, Option.bind_eq_some_iff] at h
    obtain ⟨s3, h3, h⟩ := h
    cases h
    have hc : ∃ c, s2 = c ++ (pOpt spComma s2).2 ∧ (c = [] ∨ ∃ u, Sp u ∧ c = u ++ [',']) := by
      unfold pOpt spComma
      obtain ⟨u, t', hu, c, c'⟩ := skipSp_cut s2
      rw [c]
      cases h5 : lit cs!"," t' with
      | none => exact ⟨[], rfl, .inl rfl⟩
      | some r' => exact ⟨u ++ [','], by rw [c', lit_some h5]; simp, .inr ⟨u, hu, rfl⟩⟩
    obtain ⟨c, ec, hc⟩ := hc
    obtain ⟨w3, t3, hw3, c3, c3'⟩ := skipSp_cut (pOpt spComma s2).2
    rw [c3] at h3
    exact ⟨_, by rw [lit_some h1, e', e2, ec, c3', lit_some h3]; simp, .many (by omega) hw hx hc hw3⟩

end args

theorem reads_argN : ∀ n, Reads ArgText (pArgN n)
  | 0 => by intro s a r h; cases h
  | n + 1 => by
    have ih := reads_argN n
    refine ((((reads_enum.mapFst _ ?_).orElse (reads_paramLit.mapFst _ fun _ _ => .lit)).orElse
      (reads_ref.mapFst _ fun _ _ => .ref)).orElse (reads_expr.mapFst _ fun _ _ => .expr)).orElse
      ((reads_tuple ih).mapFst _ fun _ _ => .tuple)
    rintro a x ⟨rfl, h⟩
    exact .enum h

theorem reads_arg : Reads ArgText pArg := fun s => reads_argN (s.length + 1) s

theorem reads_namedArg : Reads NamedArgText pNamedArg := by
  intro s a r h
  unfold pNamedArg at h
  simp only [Option.bind_eq_bind, Option.bind_eq_some_iff] at h
  obtain ⟨⟨n, s1⟩, h1, s2, h2, ⟨v, s3⟩, h3, h⟩ := h
  cases h
  dsimp only at h2
  obtain ⟨w1, t1, hw1, c1, c1'⟩ := skipSp_cut s1
  obtain ⟨w2, t2, hw2, c2, c2'⟩ := skipSp_cut s2
  rw [c1] at h2
  rw [c2] at h3
  obtain ⟨x, e1, hx⟩ := reads_name _ _ _ h1
  obtain ⟨y, e3, hy⟩ := reads_arg _ _ _ h3
  exact ⟨x ++ w1 ++ ['='] ++ w2 ++ y, by rw [e1, c1', lit_some h2, c2', e3]; simp, x, w1, w2, y, hx, hw1, hw2, hy, rfl⟩

theorem reads_positional : Reads ArgsText pPositional := by
  intro s a r h
  unfold pPositional at h
  simp only [Option.bind_eq_bind, Option.bind_eq_some_iff] at h
  obtain ⟨⟨l, s1⟩, h1, h⟩ := h
  cases h
  obtain ⟨x, e1, hx⟩ := Reads.sep1 skips_spComma reads_arg _ _ _ h1
  unfold pOpt
  cases h2 : pCommaNamed s1 with
  | none => exact ⟨x, e1, .positional hx⟩
  | some q =>
    obtain ⟨n, s2⟩ := q
    unfold pCommaNamed at h2
    simp only [Option.bind_eq_bind, Option.bind_eq_some_iff] at h2
    obtain ⟨s3, h3, h4⟩ := h2
    obtain ⟨m, e3, hm⟩ := skips_spComma _ _ h3
    obtain ⟨y, e4, hy⟩ := Reads.sep1 skips_spComma reads_namedArg _ _ _ h4
    exact ⟨_, by rw [e1, e3, e4]; simp, .both hx hm hy⟩

theorem extArgs_cut (s : Str) : ∃ x, s = x ++ (pExtArgs s).2 ∧ ArgsText (pExtArgs s).1 x := by
  unfold pExtArgs
  split
  · next a h =>
    obtain ⟨a, r⟩ := a
    rcases Option.or_eq_some_iff.1 h with h | ⟨-, h⟩
    · rcases Option.or_eq_some_iff.1 h with h | ⟨-, h⟩
      · obtain ⟨t, h1, h2⟩ := Option.map_eq_some_iff.1 h
        cases h2
        exact ⟨_, lit_some h1, .empty⟩
      · exact reads_positional _ _ _ h
    · exact (Reads.sep1 skips_spComma reads_namedArg).mapFst (H := ArgsText) _ (fun _ _ => .named) _ _ _ h
  · exact ⟨[], rfl, .nothing⟩

theorem reads_column : Reads ColumnText pNamedColumn := by
  intro s a r h
  unfold pNamedColumn at h
  simp only [Option.bind_eq_bind, Option.bind_eq_some_iff] at h
  obtain ⟨⟨n, s1⟩, h1, s2, h2, ⟨v, s3⟩, h3, h⟩ := h
  cases h
  dsimp only at h2
  obtain ⟨x, e1, hx⟩ := reads_name _ _ _ h1
  obtain ⟨y, e3, hy⟩ := reads_ty _ _ _ h3
  exact ⟨x ++ [':'] ++ y, by rw [e1, lit_some h2, e3]; simp, x, y, hx, hy, rfl⟩

theorem reads_extColumn : Reads ExtColumnText pExtColumn := by
  unfold pExtColumn
  exact ((reads_column.mapFst _ fun _ _ => .named).orElse (reads_ref.mapFst _ fun _ _ => .ref)).orElse
    (reads_expr.mapFst _ fun _ _ => .expr)

/-! ## Parts of relations -/

theorem columns_cut (s : Str) : ∃ x, s = x ++ (pColumns s).2 ∧ ColumnsText (pColumns s).1 x :=
  Reads.sep0 skips_comma reads_column rfl

theorem refs_cut (s : Str) : ∃ x, s = x ++ (pRefs s).2 ∧ RefsText (pRefs s).1 x :=
  Reads.sep0 skips_spComma reads_ref rfl

theorem refsClose_cut {s r : Str} {l : List IntTok} (h : pRefsClose s = some (l, r)) :
    ∃ x, s = x ++ (cs!"]" ++ r) ∧ RefsText l x := by
  unfold pRefsClose at h
  simp only [Option.bind_eq_bind, Option.bind_eq_some_iff] at h
  obtain ⟨s1, h1, h⟩ := h
  cases h
  obtain ⟨x, e, hx⟩ := refs_cut s
  exact ⟨x, by rw [e, lit_some h1], hx⟩

theorem reads_exprList : Reads ExprsText pExprList := by
  intro s a r h
  unfold pExprList at h
  simp only [Option.bind_eq_bind, Option.bind_eq_some_iff] at h
  obtain ⟨⟨e, s1⟩, h1, h⟩ := h
  cases h
  obtain ⟨w, t, hw, c, c'⟩ := skipSp_cut s1
  dsimp only
  rw [c]
  obtain ⟨x, e1, hx⟩ := reads_expr _ _ _ h1
  obtain ⟨y, e2, hy⟩ := Reads.star skips_comma reads_expr t.length t
  refine ⟨_, ?_, .mk hx hw hy⟩
  rw [e1, c']
  simp only [List.append_assoc]
  rw [← e2]

theorem reads_output : Reads OutputText pOutput := by
  unfold pOutput
  refine Reads.orElse ?_ ?_
  · intro s a r h
    unfold pImplicit at h
    simp only [Option.bind_eq_bind, Option.bind_eq_some_iff] at h
    obtain ⟨s1, h1, h⟩ := h
    cases h
    obtain ⟨w, t, hw, c, c'⟩ := skipSp_cut s1
    rw [c]
    obtain ⟨x, e, hx⟩ := columns_cut t
    exact ⟨_, by rw [lit_some h1, c']; simp only [List.append_assoc]; rw [← e], .implicit hw hx⟩
  · intro s a r h
    unfold pDirect at h
    simp only [Option.bind_eq_bind, Option.bind_eq_some_iff] at h
    obtain ⟨s1, h1, h⟩ := h
    obtain ⟨w, t, hw, c, c'⟩ := skipSp_cut s1
    rw [c] at h
    obtain ⟨x, e, hx⟩ := columns_cut t
    generalize pColumns t = q at h e hx
    obtain ⟨cols, s2⟩ := q
    dsimp only at h e hx
    cases h
    unfold pOpt
    cases h2 : pSuffix s2 with
    | none => exact ⟨_, by rw [lit_some h1, c', e]; simp, .direct hw hx⟩
    | some q =>
      obtain ⟨refs, s3⟩ := q
      unfold pSuffix at h2
      simp only [Option.bind_eq_bind, Option.bind_eq_some_iff] at h2
      obtain ⟨s4, h4, h2⟩ := h2
      obtain ⟨w2, t2, hw2, c2, c2'⟩ := skipSp_cut s2
      obtain ⟨w4, t4, hw4, c4, c4'⟩ := skipSp_cut s4
      rw [c2] at h4
      rw [c4] at h2
      obtain ⟨y, e4, hy⟩ := refs_cut t4
      generalize pRefs t4 = q at h2 e4 hy
      obtain ⟨l, s5⟩ := q
      cases h2
      exact ⟨_, by rw [lit_some h1, c', e, c2', lit_some h4, c4', e4]; simp, .emit hw hx hw2 hw4 hy⟩

/-! ## Lines -/

theorem reads_read : Reads RelText pRead := by
  intro s a r h
  unfold pRead at h
  simp only [Option.bind_eq_bind, Option.bind_eq_some_iff] at h
  obtain ⟨s1, h1, ⟨t, s2⟩, h2, h⟩ := h
  obtain ⟨w, t', hw, c, c'⟩ := skipSp_cut s2
  dsimp only at h
  rw [c] at h
  obtain ⟨⟨out, s3⟩, h3, s4, h4, h⟩ := h
  cases h
  dsimp only at h4
  obtain ⟨x, e2, hx⟩ := Reads.sep1 (skips_lit cs!".") reads_name _ _ _ h2
  obtain ⟨y, e3, hy⟩ := reads_output _ _ _ h3
  exact ⟨_, by rw [lit_some h1, e2, c', e3, lit_some h4]; simp, .read hx hw hy⟩

theorem reads_readExt : Reads RelText pReadExt := by
  intro s a r h
  unfold pReadExt at h
  simp only [Option.bind_eq_bind, Option.bind_eq_some_iff] at h
  obtain ⟨s1, h1, s2, h2, h⟩ := h
  cases h
  obtain ⟨x, e, hx⟩ := columns_cut s1
  exact ⟨_, by rw [lit_some h1, e, lit_some h2]; simp, .readExt hx⟩

theorem skips_newline : Skips (fun nl => nl = cs!"\n" ∨ nl = cs!"\r\n" ∨ nl = cs!"\r") pNewline := by
  intro s r h
  unfold pNewline at h
  rcases Option.or_eq_some_iff.1 h with h | ⟨-, h⟩
  · rcases Option.or_eq_some_iff.1 h with h | ⟨-, h⟩
    · exact ⟨_, lit_some h, .inl rfl⟩
    · exact ⟨_, lit_some h, .inr (.inl rfl)⟩
  · exact ⟨_, lit_some h, .inr (.inr rfl)⟩

theorem skips_cont : Skips ContText pCont := by
  intro s r h
  unfold pCont at h
  simp only [Option.bind_eq_bind, Option.bind_eq_some_iff] at h
  obtain ⟨s1, h1, s2, h2, h⟩ := h
  obtain ⟨w, t, hw, c, c'⟩ := skipSp_cut s
  obtain ⟨w1, t1, hw1, c1, c1'⟩ := skipSp_cut s1
  obtain ⟨w2, t2, hw2, c2, c2'⟩ := skipSp_cut s2
  rw [c] at h1
  rw [c1] at h2
  rw [c2] at h
  cases h
  obtain ⟨nl, e1, hnl⟩ := skips_newline _ _ h1
  exact ⟨w ++ nl ++ w1 ++ cs!"- " ++ w2, by rw [c', e1, c1', lit_some h2, c2']; simp,
    w, nl, w1, w2, hw, hnl, hw1, hw2, rfl⟩

theorem contOrSp_cut (s : Str) : ∃ m t, (ContText m ∨ Sp m) ∧ contOrSp s = t ∧ s = m ++ t := by
  unfold contOrSp
  cases h : pCont s with
  | none =>
    obtain ⟨w, t, hw, c, c'⟩ := skipSp_cut s
    exact ⟨w, t, .inr hw, c, c'⟩
  | some r =>
    obtain ⟨m, e, hm⟩ := skips_cont _ _ h
    exact ⟨m, r, .inl hm, rfl, e⟩

theorem skips_relComma : Skips RelComma relComma := by
  intro s r h
  unfold relComma at h
  obtain ⟨t, h1, h2⟩ := Option.map_eq_some_iff.1 h
  obtain ⟨v, u, hv, e1, e1'⟩ := skipSp_cut s
  obtain ⟨w, u', hw, e2, e2'⟩ := contOrSp_cut t
  rw [e1] at h1
  rw [e2] at h2; subst h2
  exact ⟨v ++ ',' :: w, by rw [e1', lit_some h1, e2']; simp, v, w, hv, hw, rfl⟩

theorem reads_row : Reads RowText pRow := by
  intro s a r h
  unfold pRow at h
  simp only [Option.bind_eq_bind, Option.bind_eq_some_iff] at h
  obtain ⟨s1, h1, h⟩ := h
  obtain ⟨w, t, hw, c, c'⟩ := skipSp_cut s1
  rw [c] at h
  generalize hq : pOpt pExprList t = q at h
  obtain ⟨l, s2⟩ := q
  obtain ⟨w2, t2, hw2, c2, c2'⟩ := skipSp_cut s2
  dsimp only at h
  rw [c2] at h
  obtain ⟨s3, h3, h⟩ := h
  cases h
  obtain ⟨x, e, hx⟩ := reads_exprList.opt hq
  cases hx with
  | none => exact ⟨_, by rw [lit_some h1, c', e, c2', lit_some h3]; simp, .nil hw hw2⟩
  | some hx => exact ⟨_, by rw [lit_some h1, c', e, c2', lit_some h3]; simp, .some hw hx hw2⟩

theorem reads_rows : Reads RowsText pRows := by
  intro s a r h
  unfold pRows at h
  rcases Option.or_eq_some_iff.1 h with h | ⟨-, h⟩
  · obtain ⟨x, e, hx⟩ := Reads.sep1 skips_relComma reads_row _ _ _ h
    exact ⟨x, e, .rows hx⟩
  · obtain ⟨t, h1, h2⟩ := Option.map_eq_some_iff.1 h
    cases h2
    exact ⟨_, lit_some h1, .empty⟩

theorem reads_vfilter : Reads VFilterText pCommaFilter := by
  intro s a r h
  unfold pCommaFilter pVFilter at h
  simp only [Option.bind_eq_bind, Option.bind_eq_some_iff] at h
  obtain ⟨s1, h1, s2, h2, s3, h3, h⟩ := h
  obtain ⟨w2, t2, hw2, c2, c2'⟩ := skipSp_cut s2
  obtain ⟨w3, t3, hw3, c3, c3'⟩ := skipSp_cut s3
  rw [c2] at h3
  rw [c3] at h
  obtain ⟨m, e1, hm⟩ := skips_relComma _ _ h1
  obtain ⟨y, e, hy⟩ := reads_expr _ _ _ h
  exact ⟨m ++ cs!"filter" ++ w2 ++ ['='] ++ w3 ++ y, by rw [e1, lit_some h2, c2', lit_some h3, c3', e]; simp,
    m, w2, w3, y, hm, hw2, hw3, hy, rfl⟩

/-- A match of `Read:Virtual` extends to the end. -/
theorem readVirtual_rest {s r : Str} {l : SLine} (h : pReadVirtual s = some (l, r)) : r = [] := by
  unfold pReadVirtual at h
  simp only [Option.bind_eq_bind, Option.bind_eq_some_iff] at h
  obtain ⟨s1, h1, s2, h2, ⟨rows, s3⟩, h3, s4, h4, s5, h5, s6, h6, h⟩ := h
  cases h
  unfold relEnd at h6
  split at h6
  · cases h6; rfl
  · cases h6

theorem reads_readVirtual : Reads RelText pReadVirtual := by
  intro s a r h
  have hr := readVirtual_rest h
  unfold pReadVirtual at h
  simp only [Option.bind_eq_bind, Option.bind_eq_some_iff] at h
  obtain ⟨s1, h1, s2, h2, ⟨rows, s3⟩, h3, h⟩ := h
  dsimp only at h
  generalize hq : pOpt pCommaFilter s3 = q at h
  obtain ⟨f, s4⟩ := q
  dsimp only at h
  obtain ⟨s5, h5, h⟩ := h
  obtain ⟨z, ez, hz⟩ := columns_cut s5
  generalize pColumns s5 = q at h ez hz
  obtain ⟨cols, s6⟩ := q
  dsimp only at h ez hz
  obtain ⟨s7, h7, s8, h8, h⟩ := h
  cases h
  have hk : ∃ k, s1 = cs!"[" ++ (k ++ s2) ∧ (k = [] ∨ ContText k) := by
    unfold relOpen at h2
    obtain ⟨t, h9, h10⟩ := Option.map_eq_some_iff.1 h2
    cases hc : pCont t with
    | none =>
      rw [hc] at h10
      cases h10
      exact ⟨[], by rw [lit_some h9]; rfl, .inl rfl⟩
    | some t' =>
      rw [hc] at h10
      cases h10
      obtain ⟨k, e, hk⟩ := skips_cont _ _ hc
      exact ⟨k, by rw [lit_some h9, e]; rfl, .inr hk⟩
  obtain ⟨k, ek, hk⟩ := hk
  obtain ⟨x, e3, hx⟩ := reads_rows _ _ _ h3
  obtain ⟨y, e4, hy⟩ := reads_vfilter.opt hq
  have hm : ∃ m w, s4 = m ++ (cs!"=>" ++ (w ++ s5)) ∧ (ContText m ∨ Sp m) ∧ Sp w := by
    unfold relArrow at h5
    obtain ⟨t, h9, h10⟩ := Option.map_eq_some_iff.1 h5
    obtain ⟨m, t', hm, c, c'⟩ := contOrSp_cut s4
    obtain ⟨w, t2, hw, c2, c2'⟩ := skipSp_cut t
    rw [c] at h9
    rw [c2] at h10
    cases h10
    exact ⟨m, w, by rw [c', lit_some h9, c2'], hm, hw⟩
  obtain ⟨m, w, em, hm, hw⟩ := hm
  obtain ⟨v, t, hv, c, c'⟩ := skipSp_cut s7
  have ht : t = [] := by
    unfold relEnd at h8
    split at h8
    · next hh => rw [← c, hh]
    · cases h8
  subst hr ht
  refine ⟨_, ?_, .readVirtual hk hx hy hm hw hz hv⟩
  rw [lit_some h1, ek, e3, e4, em, ez, lit_some h7, c']
  simp

theorem reads_filter : Reads RelText pFilter := by
  intro s a r h
  unfold pFilter at h
  simp only [Option.bind_eq_bind, Option.bind_eq_some_iff] at h
  obtain ⟨s1, h1, ⟨e, s2⟩, h2, s3, h3, ⟨l, s4⟩, h4, h⟩ := h
  cases h
  dsimp only at *
  obtain ⟨x, e2, hx⟩ := reads_expr _ _ _ h2
  obtain ⟨m, e3, hm⟩ := skips_arrow _ _ h3
  obtain ⟨y, e4, hy⟩ := refsClose_cut h4
  exact ⟨_, by rw [lit_some h1, e2, e3, e4]; simp, .filter hx hm hy⟩

theorem mapFst_ne_ref {α : Type} {f : α → SExpr} {p : Option (α × Str)} {e : SExpr} {r : Str} (hf : ∀ a i, f a ≠ .ref i)
    (h : mapFst f p = some (e, r)) (i : IntTok) : e ≠ .ref i := by
  cases p with
  | none => cases h
  | some a => cases h; exact hf _ i

/-- Where no reference can be read, the expression that is read is not one. -/
theorem pExpr_not_ref {s r : Str} {e : SExpr} (hn : mapFst SProj.ref (pRef s) = none) (h : pExpr s = some (e, r))
    (i : IntTok) : e ≠ .ref i := by
  have hr : pRef s = none := by
    cases hp : pRef s with
    | none => rfl
    | some a => rw [hp] at hn; cases hn
  unfold pExpr pExprN at h
  rcases Option.or_eq_some_iff.1 h with h | ⟨-, h⟩
  · rcases Option.or_eq_some_iff.1 h with h | ⟨-, h⟩
    · rcases Option.or_eq_some_iff.1 h with h | ⟨-, h⟩
      · rcases Option.or_eq_some_iff.1 h with h | ⟨-, h⟩
        · unfold pIfThenWith at h
          simp only [Option.bind_eq_bind, Option.bind_eq_some_iff] at h
          obtain ⟨_, -, _, -, _, -, _, -, _, -, _, -, h⟩ := h
          cases h
          exact fun h => by cases h
        · unfold pCastWith at h
          simp only [Option.bind_eq_bind, Option.bind_eq_some_iff] at h
          obtain ⟨_, -, _, -, _, -, _, -, _, -, h⟩ := h
          cases h
          exact fun h => by cases h
      · unfold pCallWith at h
        simp only [Option.bind_eq_bind, Option.bind_eq_some_iff] at h
        obtain ⟨_, -, _, -, _, -, _, -, h⟩ := h
        cases h
        exact fun h => by cases h
    · rw [hr] at h; cases h
  · exact mapFst_ne_ref (by simp) h i

theorem reads_projArg : Reads ProjText pProjArg := by
  intro s a r h
  unfold pProjArg at h
  rcases Option.or_eq_some_iff.1 h with h | ⟨hn, h⟩
  · exact reads_ref.mapFst SProj.ref (fun _ _ => .ref) _ _ _ h
  · cases he : pExpr s with
    | none => rw [he] at h; cases h
    | some er =>
      obtain ⟨e, r'⟩ := er
      rw [he] at h
      cases h
      obtain ⟨x, hx, ht⟩ := reads_expr _ _ _ he
      exact ⟨x, hx, .expr (pExpr_not_ref hn he) ht⟩

theorem reads_project : Reads RelText pProject := by
  intro s a r h
  unfold pProject at h
  simp only [Option.bind_eq_bind, Option.bind_eq_some_iff] at h
  obtain ⟨s1, h1, h⟩ := h
  generalize hq : pSep spCommaSp pProjArg s1 = q at h
  obtain ⟨l, s2⟩ := q
  dsimp only at h
  obtain ⟨s3, h3, h⟩ := h
  cases h
  obtain ⟨x, e, hx⟩ := Reads.sep0 skips_spComma reads_projArg hq
  exact ⟨_, by rw [lit_some h1, e, lit_some h3]; simp, .project hx⟩

theorem reads_groupingSet : Reads SetText pGroupingSet := by
  unfold pGroupingSet
  refine Reads.orElse ?_ ?_
  · intro s a r h
    unfold pParenSet at h
    simp only [Option.bind_eq_bind, Option.bind_eq_some_iff] at h
    obtain ⟨s1, h1, h⟩ := h
    obtain ⟨w, t, hw, c, c'⟩ := skipSp_cut s1
    rw [c] at h
    obtain ⟨⟨l, s2⟩, h2, h⟩ := h
    obtain ⟨w2, t2, hw2, c2, c2'⟩ := skipSp_cut s2
    dsimp only at h
    rw [c2] at h
    obtain ⟨s3, h3, h⟩ := h
    cases h
    obtain ⟨x, e, hx⟩ := reads_exprList _ _ _ h2
    exact ⟨_, by rw [lit_some h1, c', e, c2', lit_some h3]; simp, .exprs hw hx hw2⟩
  · intro s a r h
    obtain ⟨t, h1, h2⟩ := Option.map_eq_some_iff.1 h
    cases h2
    exact ⟨_, lit_some h1, .empty⟩

theorem reads_groupingSets : Reads (Loose Comma SetText) pGroupingSets := by
  intro s a r h
  unfold pGroupingSets at h
  simp only [Option.bind_eq_bind, Option.bind_eq_some_iff] at h
  obtain ⟨⟨e, s1⟩, h1, h⟩ := h
  cases h
  obtain ⟨w, t, hw, c, c'⟩ := skipSp_cut s1
  dsimp only
  rw [c]
  obtain ⟨x, e1, hx⟩ := reads_groupingSet _ _ _ h1
  obtain ⟨y, e2, hy⟩ := Reads.star skips_comma reads_groupingSet t.length t
  refine ⟨_, ?_, .mk hx hw hy⟩
  rw [e1, c']
  simp only [List.append_assoc]
  rw [← e2]

theorem reads_groupBy : Reads GroupText pGroupBy := by
  unfold pGroupBy
  exact (reads_groupingSets.mapFst _ fun _ _ => .sets).orElse (reads_exprList.mapFst _ fun _ _ => .exprs)

theorem reads_aggregate : Reads RelText pAggregate := by
  intro s a r h
  unfold pAggregate at h
  simp only [Option.bind_eq_bind, Option.bind_eq_some_iff] at h
  obtain ⟨s1, h1, ⟨g, s2⟩, h2, s3, h3, h⟩ := h
  dsimp only at *
  generalize hq : pSep spCommaSp pExpr s3 = q at h
  obtain ⟨l, s4⟩ := q
  dsimp only at h
  obtain ⟨s5, h5, h⟩ := h
  cases h
  obtain ⟨x, e2, hx⟩ := reads_groupBy _ _ _ h2
  obtain ⟨m, e3, hm⟩ := skips_arrow _ _ h3
  obtain ⟨y, e4, hy⟩ := Reads.sep0 skips_spComma reads_expr hq
  exact ⟨_, by rw [lit_some h1, e2, e3, e4, lit_some h5]; simp, .aggregate hx hm hy⟩

theorem reads_sortField : Reads SortText pSortField := by
  intro s a r h
  unfold pSortField at h
  simp only [Option.bind_eq_bind, Option.bind_eq_some_iff] at h
  obtain ⟨s1, h1, ⟨e, s2⟩, h2, s3, h3, ⟨d, s4⟩, h4, s5, h5, h⟩ := h
  cases h
  dsimp only at *
  obtain ⟨w1, t1, hw1, c1, c1'⟩ := skipSp_cut s1
  obtain ⟨w2, t2, hw2, c2, c2'⟩ := skipSp_cut s2
  obtain ⟨w3, t3, hw3, c3, c3'⟩ := skipSp_cut s3
  obtain ⟨w4, t4, hw4, c4, c4'⟩ := skipSp_cut s4
  rw [c1] at h2
  rw [c2] at h3
  rw [c3] at h4
  rw [c4] at h5
  obtain ⟨x, e2, hx⟩ := reads_expr _ _ _ h2
  obtain ⟨y, e4, rfl, hy⟩ := reads_first _ _ _ _ h4
  exact ⟨['('] ++ w1 ++ x ++ w2 ++ [','] ++ w3 ++ d ++ w4 ++ [')'],
    by rw [lit_some h1, c1', e2, c2', lit_some h3, c3', e4, c4', lit_some h5]; simp,
    w1, x, w2, w3, w4, hw1, hx, hw2, hw3, hy, hw4, rfl⟩

theorem reads_sort : Reads RelText pSort := by
  intro s a r h
  unfold pSort at h
  simp only [Option.bind_eq_bind, Option.bind_eq_some_iff] at h
  obtain ⟨s1, h1, h⟩ := h
  generalize hq : pSep spCommaSp pSortField s1 = q at h
  obtain ⟨l, s2⟩ := q
  dsimp only at h
  obtain ⟨s3, h3, ⟨refs, s4⟩, h4, h⟩ := h
  cases h
  obtain ⟨x, e, hx⟩ := Reads.sep0 skips_spComma reads_sortField hq
  obtain ⟨m, e3, hm⟩ := skips_arrow _ _ h3
  obtain ⟨y, e4, hy⟩ := refsClose_cut h4
  exact ⟨_, by rw [lit_some h1, e, e3, e4]; simp, .sort hx hm hy⟩

/-- Where an integer stands, one can be read. -/
theorem pInteger_begins {i : IntTok} {y r : Str} (h : Grammar.IntText i y) : pInteger (y ++ r) ≠ none := by
  have key : ∀ {n : Nat} {ds : Str}, Digits n ds → ∃ d, pDigits (ds ++ r) = some d := by
    intro n ds hd
    obtain ⟨hne, hds, -⟩ := hd
    cases ds with
    | nil => exact absurd rfl hne
    | cons d ds =>
      have hd : isDigit d = true := by
        have := hds d (by simp)
        unfold Digit at this
        unfold isDigit
        simp only [Bool.and_eq_true, decide_eq_true_eq]
        exact this
      unfold pDigits
      simp only [List.cons_append, List.takeWhile_cons, hd, if_true, List.isEmpty_cons, Bool.false_eq_true, if_false]
      exact ⟨_, rfl⟩
  cases h with
  | @pos n _ h =>
    obtain ⟨d, hd⟩ := key h
    have hm : pMinus (y ++ r) = (false, y ++ r) := by
      unfold pMinus
      split
      · next s heq =>
        cases y with
        | nil => exact absurd rfl h.1
        | cons c ds =>
          have := h.2.1 c (by simp)
          rw [(List.cons.inj heq).1] at this
          exact absurd this (by simp [Digit])
      · rfl
    simp [pInteger, hm, hd]
  | @neg n ds h =>
    obtain ⟨d, hd⟩ := key h
    simp [pInteger, pMinus, hd]

theorem reads_fetchValue : Reads FetchValueText pFetchValue := by
  intro s a r h
  unfold pFetchValue at h
  rcases Option.or_eq_some_iff.1 h with h | ⟨hn, h⟩
  · exact reads_int.mapFst SFetch.int (fun _ _ => .int) _ _ _ h
  · cases he : pExpr s with
    | none => rw [he] at h; cases h
    | some er =>
      obtain ⟨e, r'⟩ := er
      rw [he] at h
      cases h
      obtain ⟨x, hx, ht⟩ := reads_expr _ _ _ he
      refine ⟨x, hx, .expr ?_ ht⟩
      intro i y z hy e
      refine pInteger_begins (r := z ++ r) hy ?_
      rw [hx, e, List.append_assoc] at hn
      cases hp : pInteger (y ++ (z ++ r)) with
      | none => rfl
      | some a => rw [hp] at hn; cases hn

theorem reads_fetchArg : Reads FetchArgText pFetchArg := by
  intro s a r h
  unfold pFetchArg at h
  simp only [Option.bind_eq_bind, Option.bind_eq_some_iff] at h
  obtain ⟨⟨n, s1⟩, h1, s2, h2, ⟨v, s3⟩, h3, h⟩ := h
  cases h
  dsimp only at *
  obtain ⟨w1, t1, hw1, c1, c1'⟩ := skipSp_cut s1
  obtain ⟨w2, t2, hw2, c2, c2'⟩ := skipSp_cut s2
  rw [c1] at h2
  rw [c2] at h3
  obtain ⟨x, e1, rfl, hx⟩ := reads_first _ _ _ _ h1
  obtain ⟨y, e3, hy⟩ := reads_fetchValue _ _ _ h3
  exact ⟨n ++ w1 ++ ['='] ++ w2 ++ y, by rw [e1, c1', lit_some h2, c2', e3]; simp, w1, w2, y,
    by simpa using hx, hw1, hw2, hy, rfl⟩

theorem reads_fetchArgs : Reads FetchArgsText pFetchArgs := by
  intro s a r h
  unfold pFetchArgs at h
  rcases Option.or_eq_some_iff.1 h with h | ⟨-, h⟩
  · obtain ⟨x, e, hx⟩ := Reads.sep1 skips_spComma reads_fetchArg _ _ _ h
    exact ⟨x, e, .args hx⟩
  · obtain ⟨t, h1, h2⟩ := Option.map_eq_some_iff.1 h
    cases h2
    exact ⟨_, lit_some h1, .empty⟩

theorem reads_fetch : Reads RelText pFetch := by
  intro s a r h
  unfold pFetch at h
  simp only [Option.bind_eq_bind, Option.bind_eq_some_iff] at h
  obtain ⟨s1, h1, ⟨e, s2⟩, h2, s3, h3, ⟨l, s4⟩, h4, h⟩ := h
  cases h
  dsimp only at *
  obtain ⟨x, e2, hx⟩ := reads_fetchArgs _ _ _ h2
  obtain ⟨m, e3, hm⟩ := skips_arrow _ _ h3
  obtain ⟨y, e4, hy⟩ := refsClose_cut h4
  exact ⟨_, by rw [lit_some h1, e2, e3, e4]; simp, .fetch hx hm hy⟩

theorem reads_postFilter : Reads PostFilterText pPostFilter := by
  intro s a r h
  unfold pPostFilter at h
  simp only [Option.bind_eq_bind, Option.bind_eq_some_iff] at h
  obtain ⟨s1, h1, s2, h2, s3, h3, h⟩ := h
  obtain ⟨w2, t2, hw2, c2, c2'⟩ := skipSp_cut s2
  obtain ⟨w3, t3, hw3, c3, c3'⟩ := skipSp_cut s3
  rw [c2] at h3
  rw [c3] at h
  obtain ⟨m, e1, hm⟩ := skips_spComma _ _ h1
  obtain ⟨y, e, hy⟩ := reads_expr _ _ _ h
  exact ⟨m ++ cs!"post_filter" ++ w2 ++ ['='] ++ w3 ++ y, by rw [e1, lit_some h2, c2', lit_some h3, c3', e]; simp,
    m, w2, w3, y, hm, hw2, hw3, hy, rfl⟩

theorem reads_join : Reads RelText pJoin := by
  intro s a r h
  unfold pJoin at h
  simp only [Option.bind_eq_bind, Option.bind_eq_some_iff] at h
  obtain ⟨s1, h1, ⟨t, s2⟩, h2, s3, h3, ⟨e, s4⟩, h4, h⟩ := h
  dsimp only at *
  generalize hq : pOpt pPostFilter s4 = q at h
  obtain ⟨post, s5⟩ := q
  obtain ⟨s6, h6, ⟨l, s7⟩, h7, h⟩ := h
  cases h
  dsimp only at *
  obtain ⟨x2, e2, rfl, hx2⟩ := reads_first _ _ _ _ h2
  obtain ⟨x3, e3, hx3⟩ := skips_spComma _ _ h3
  obtain ⟨x4, e4, hx4⟩ := reads_expr _ _ _ h4
  obtain ⟨x5, e5, hx5⟩ := reads_postFilter.opt hq
  obtain ⟨x6, e6, hx6⟩ := skips_arrow _ _ h6
  obtain ⟨x7, e7, hx7⟩ := refsClose_cut h7
  exact ⟨_, by rw [lit_some h1, e2, e3, e4, e5, e6, e7]; simp, .join hx2 hx3 hx4 hx5 hx6 hx7⟩

theorem reads_set : Reads RelText pSet := by
  intro s a r h
  unfold pSet at h
  simp only [Option.bind_eq_bind, Option.bind_eq_some_iff] at h
  obtain ⟨s1, h1, ⟨t, s2⟩, h2, s3, h3, ⟨l, s4⟩, h4, h⟩ := h
  cases h
  dsimp only at *
  obtain ⟨x2, e2, rfl, hx2⟩ := reads_first _ _ _ _ h2
  obtain ⟨x3, e3, hx3⟩ := skips_arrow _ _ h3
  obtain ⟨x4, e4, hx4⟩ := refsClose_cut h4
  exact ⟨_, by rw [lit_some h1, e2, e3, e4]; simp, .set hx2 hx3 hx4⟩

theorem reads_cross : Reads RelText pCross := by
  intro s a r h
  unfold pCross at h
  simp only [Option.bind_eq_bind, Option.bind_eq_some_iff] at h
  obtain ⟨s1, h1, ⟨l, s2⟩, h2, h⟩ := h
  cases h
  obtain ⟨x2, e2, hx2⟩ := refsClose_cut h2
  exact ⟨_, by rw [lit_some h1, e2]; simp, .cross hx2⟩

theorem reads_extKind : Reads (fun k x => x = kindKw k) pExtKind := by
  intro s a r h
  unfold pExtKind at h
  rcases Option.or_eq_some_iff.1 h with h | ⟨-, h⟩
  · rcases Option.or_eq_some_iff.1 h with h | ⟨-, h⟩
    · obtain ⟨t, h1, h2⟩ := Option.map_eq_some_iff.1 h
      cases h2; exact ⟨_, lit_some h1, rfl⟩
    · obtain ⟨t, h1, h2⟩ := Option.map_eq_some_iff.1 h
      cases h2; exact ⟨_, lit_some h1, rfl⟩
  · obtain ⟨t, h1, h2⟩ := Option.map_eq_some_iff.1 h
    cases h2; exact ⟨_, lit_some h1, rfl⟩

theorem reads_rawName : Reads (fun raw x => raw = x ∧ ∃ n, NameText n raw) pRawName := by
  intro s a r h
  unfold pRawName at h
  obtain ⟨⟨n, t⟩, h1, h2⟩ := Option.map_eq_some_iff.1 h
  cases h2
  obtain ⟨x, e, hx⟩ := reads_name _ _ _ h1
  subst e
  simp only [List.length_append, Nat.add_sub_cancel, List.take_left']
  exact ⟨x, rfl, rfl, n, hx⟩

theorem reads_extColumns : Reads ExtColumnsText pExtColumns := by
  intro s a r h
  unfold pExtColumns at h
  simp only [Option.bind_eq_bind, Option.bind_eq_some_iff] at h
  obtain ⟨s1, h1, h⟩ := h
  obtain ⟨m, e, hm⟩ := skips_arrow _ _ h1
  obtain ⟨y, e2, hy⟩ := Reads.sep0 skips_spComma reads_extColumn (Option.some.inj h)
  exact ⟨m ++ y, by rw [e, e2]; simp, m, y, hm, hy, rfl⟩

theorem reads_extRel : Reads RelText pExtRel := by
  intro s a r h
  unfold pExtRel at h
  simp only [Option.bind_eq_bind, Option.bind_eq_some_iff] at h
  obtain ⟨⟨k, s1⟩, h1, s2, h2, ⟨name, s3⟩, h3, s4, h4, h⟩ := h
  dsimp only at *
  obtain ⟨w, t, hw, c, c'⟩ := skipSp_cut s4
  rw [c] at h
  obtain ⟨x5, e5, hx5⟩ := extArgs_cut t
  generalize pExtArgs t = q at h e5 hx5
  obtain ⟨args, s5⟩ := q
  dsimp only at *
  generalize hq : pOpt pExtColumns s5 = q at h
  obtain ⟨cols, s6⟩ := q
  obtain ⟨s7, h7, h⟩ := h
  cases h
  dsimp only at *
  obtain ⟨x1, e1, rfl⟩ := reads_extKind _ _ _ h1
  obtain ⟨x3, e3, rfl, n, hn⟩ := reads_rawName _ _ _ h3
  obtain ⟨x6, e6, hx6⟩ := reads_extColumns.opt hq
  exact ⟨_, by rw [e1, lit_some h2, e3, lit_some h4, c', e5, e6, lit_some h7]; simp, .ext hn hw hx5 hx6⟩

theorem reads_addKind : Reads (fun k x => x = addKw k) pAddKind := by
  intro s a r h
  unfold pAddKind at h
  rcases Option.or_eq_some_iff.1 h with h | ⟨-, h⟩
  · rcases Option.or_eq_some_iff.1 h with h | ⟨-, h⟩
    · obtain ⟨t, h1, h2⟩ := Option.map_eq_some_iff.1 h
      cases h2; exact ⟨_, lit_some h1, rfl⟩
    · obtain ⟨t, h1, h2⟩ := Option.map_eq_some_iff.1 h
      cases h2; exact ⟨_, lit_some h1, rfl⟩
  · obtain ⟨t, h1, h2⟩ := Option.map_eq_some_iff.1 h
    cases h2; exact ⟨_, lit_some h1, rfl⟩

theorem reads_addendum : Reads AddText pAddendum := by
  intro s a r h
  unfold pAddendum at h
  simp only [Option.bind_eq_bind, Option.bind_eq_some_iff] at h
  obtain ⟨s1, h1, ⟨k, s2⟩, h2, s3, h3, ⟨n, s4⟩, h4, s5, h5, s6, h6, h⟩ := h
  cases h
  dsimp only at *
  obtain ⟨w, t, hw, c, c'⟩ := skipSp_cut s1
  rw [c] at h2
  obtain ⟨x2, e2, rfl⟩ := reads_addKind _ _ _ h2
  obtain ⟨x4, e4, hx4⟩ := reads_name _ _ _ h4
  obtain ⟨x5, e5, hx5⟩ := extArgs_cut s5
  exact ⟨['+'] ++ w ++ addKw k ++ [':'] ++ x4 ++ ['['] ++ x5 ++ [']'],
    by rw [lit_some h1, c', e2, lit_some h3, e4, lit_some h5, e5, lit_some h6]; simp, w, x4, x5, hw, hx4, hx5, rfl⟩

theorem reads_root : Reads RelText pRoot := by
  intro s a r h
  unfold pRoot at h
  simp only [Option.bind_eq_bind, Option.bind_eq_some_iff] at h
  obtain ⟨s1, h1, h⟩ := h
  generalize hq : pSep spCommaSp pName s1 = q at h
  obtain ⟨l, s2⟩ := q
  dsimp only at h
  obtain ⟨s3, h3, h⟩ := h
  cases h
  obtain ⟨x, e, hx⟩ := Reads.sep0 skips_spComma reads_name hq
  exact ⟨_, by rw [lit_some h1, e, lit_some h3]; simp, .root hx⟩

theorem reads_relLine : Reads RelText pRelLine := by
  unfold pRelLine
  exact ((((((((((reads_readExt.orElse reads_readVirtual).orElse reads_read).orElse reads_filter).orElse
    reads_project).orElse reads_aggregate).orElse reads_sort).orElse reads_fetch).orElse reads_join).orElse
    reads_set).orElse reads_cross).orElse reads_extRel

theorem pRelLine_virtual (y : Str) :
    pRelLine (cs!"Read:Virtual" ++ y) = pReadVirtual (cs!"Read:Virtual" ++ y) := by
  unfold pRelLine
  have h1 : pReadExt (cs!"Read:Virtual" ++ y) = none := by simp [pReadExt]
  have h2 : (((((((((pRead (cs!"Read:Virtual" ++ y)).or (pFilter (cs!"Read:Virtual" ++ y))).or
      (pProject (cs!"Read:Virtual" ++ y))).or (pAggregate (cs!"Read:Virtual" ++ y))).or
      (pSort (cs!"Read:Virtual" ++ y))).or (pFetch (cs!"Read:Virtual" ++ y))).or
      (pJoin (cs!"Read:Virtual" ++ y))).or (pSet (cs!"Read:Virtual" ++ y))).or
      (pCross (cs!"Read:Virtual" ++ y))).or (pExtRel (cs!"Read:Virtual" ++ y)) = none := by
    simp [pRead, pFilter, pProject, pAggregate, pSort, pFetch, pJoin, pSet, pCross, pExtRel, pExtKind]
  simp only [Option.or_eq_none_iff] at h2
  obtain ⟨⟨⟨⟨⟨⟨⟨⟨⟨a1, a2⟩, a3⟩, a4⟩, a5⟩, a6⟩, a7⟩, a8⟩, a9⟩, a10⟩ := h2
  simp only [h1, a1, a2, a3, a4, a5, a6, a7, a8, a9, a10, Option.none_or, Option.or_none]

theorem nodeLine_grammar {s : Str} {n : LineNode SLine SAddendum} (h : nodeLine s = some n) :
    ∃ x rest, s = x ++ rest ∧ NodeText n x ∧ TailOk n rest := by
  unfold nodeLine at h
  split at h
  · next r h1 =>
    cases h
    obtain ⟨l, r⟩ := r
    obtain ⟨x, e, hx⟩ := reads_relLine _ _ _ h1
    refine ⟨x, _, e, .relation hx, ?_⟩
    cases l with
    | readVirtual rows f cols =>
      cases hx
      rw [e, List.append_assoc, pRelLine_virtual] at h1
      exact readVirtual_rest h1
    | _ => trivial
  · obtain ⟨⟨a, r⟩, h1, h2⟩ := Option.map_eq_some_iff.1 h
    cases h2
    obtain ⟨x, e, hx⟩ := reads_addendum _ _ _ h1
    exact ⟨x, _, e, .addendum hx, trivial⟩

theorem topLine_grammar {s : Str} {n : LineNode SLine SAddendum} (h : topLine s = some n) :
    ∃ x rest, s = x ++ rest ∧ NodeText n x ∧ TailOk n rest := by
  unfold topLine at h
  split at h
  · next r h1 =>
    cases h
    obtain ⟨l, r⟩ := r
    obtain ⟨x, e, hx⟩ := reads_root _ _ _ h1
    refine ⟨x, _, e, .relation hx, ?_⟩
    unfold pRoot at h1
    simp only [Option.bind_eq_bind, Option.bind_eq_some_iff] at h1
    obtain ⟨s1, -, s2, -, h1⟩ := h1
    cases h1
    trivial
  · exact nodeLine_grammar h

end Verif
