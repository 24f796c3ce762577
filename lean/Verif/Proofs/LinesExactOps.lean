import Verif.Proofs.LinesExact
import Verif.Spec.LinesExact
/-!
# Filters, crosses, sets, joins and sorts whose lines survive
-/

namespace Verif
open StoreSpec TextSpec RelSpec

set_option autoImplicit false

theorem line_text (o : Opts) (h : Head) : (textHeader o 0 h).text = headBody o 0 h := by
  rw [textHeader_text]
  simp [indentAt]

theorem kids_some (kids : List (Rel × Nat)) : (kids.map fun k => some k.2) = (kids.map (·.2)).map some := by simp

theorem total_kids (kids : List (Rel × Nat)) : totalWidth (kids.map fun k => some k.2) = (kids.map (·.2)).sum := by
  rw [kids_some, totalWidth_some]

theorem oneKid_ok {kids : List (Rel × Nat)} {r : Rel} (h : oneChild (kids.map (·.1)) = .ok r) : ∃ n, kids = [(r, n)] := by
  match kids with
  | [] => cases h
  | [(q, n)] => cases h; exact ⟨n, rfl⟩
  | _ :: _ :: _ => cases h

theorem hints_mk (e : Emit) : hints (mkCommon e) = 0 := rfl

theorem hints_conv {refs : List IntTok} {n : Nat} {p : Option Common × Nat} (h : convEmit refs n = .ok p) : hints p.1 = 0 := by
  obtain ⟨m, _, h12⟩ := Res.bind_ok_iff.1 h
  cases h12
  rfl

theorem ite_avoid {α : Type} {p : Prop} [Decidable p] {a b x : α} (ha : a ≠ x) (hb : b ≠ x) : (if p then a else b) ≠ x := by
  split
  · exact ha
  · exact hb

theorem setName_ne (s : Str) : SetOp.ofName s ≠ some .unspecified := by
  unfold SetOp.ofName
  iterate 8 refine ite_avoid (fun h => nomatch h) ?_
  exact fun h => nomatch h

theorem joinName_ne (s : Str) : JoinType.ofName s ≠ some .unspecified := by
  unfold JoinType.ofName
  iterate 12 refine ite_avoid (fun h => nomatch h) ?_
  exact fun h => nomatch h

theorem sortName_ne (s : Str) : SortDir.ofName s ≠ some .unspecified ∧ SortDir.ofName s ≠ some .clustered := by
  unfold SortDir.ofName
  constructor
  all_goals
    iterate 4 refine ite_avoid (fun h => nomatch h) ?_
    exact fun h => nomatch h

theorem standardAdv_nil (reg : Registry ExtArgs (List Nat)) : standardAdv reg [] = .ok none := by
  simp [standardAdv, standardLoop, Res.bind]

/-- The columns made of what is read are the columns of the relation. -/
theorem convEmit_shown {n k : Nat} {c : Option Common} {refs : List IntTok} {p : Option Common × Nat}
    (hr : InRange n (shown n c)) {r : Str} (hp : pRefsClose (refsText (shown n c) ++ [']']) = some (refs, r))
    (hc : convEmit refs k = .ok p) : p.1 = mkCommon (makeEmit (shown n c) k) := by
  rw [pRefsClose_text] at hp
  cases hp
  rw [convEmit_text (InRange.i32 hr)] at hc
  cases hc
  rfl

theorem kept_back [UTab] [FTab] {env : Env} {kids : List (Rel × Nat)} {op : RelOp} (h : LineKept env kids op) :
    LineBack env kids op := by
  obtain ⟨line, rest, op', ins, w, -, -, h1, h2, h3⟩ := h
  exact ⟨line, rest, op', ins, w, h1, h2, h3⟩

section
variable [UTab] [FTab] (hA : AsciiPrintable) (hF : FloatsShown) {h : List Op} {o : Opts} {reg : Registry ExtArgs (List Nat)}
  (ho : o.showEmit = false)
include hA hF ho

theorem filter_kept (kids : List (Rel × Nat)) (c : Option Common) (cond : Option Expr)
    (hn : Countable reg (kids.map (·.2)) (.filter c cond none)) :
    (LineBack ⟨run h, o, reg⟩ kids (.filter c cond none) → SurvivesLine (run h) o (kids.map (·.2)) (.filter c cond none)) ∧
      (SurvivesLine (run h) o (kids.map (·.2)) (.filter c cond none) → LineKept ⟨run h, o, reg⟩ kids (.filter c cond none)) := by
  have hn2 : (kids.map (·.2)).sum + (shown (kids.map (·.2)).sum c).length ≤ 2 ^ 31 := hn.2
  have hb : (textHeader o 0 (relHead ⟨run h, o, reg⟩ (kids.map fun k => some k.2) (.filter c cond none))).text =
      cs!"Filter[" ++ ((Out.expect cs!"FilterRel" (cond.map (textExpr (run h) o))).text ++ endText o (kids.map (·.2)).sum c) := by
    rw [line_text, headBody_end (n := (kids.map (·.2)).sum) (c := c) 0 _ _ _ rfl rfl (by simp only [relHead, total_kids]) rfl]
    simp [relHead, textArgList, Out.sep]
  constructor
  · rintro ⟨line, rest, op', ins, w, h1, h2, h3⟩
    simp only at h1 h2
    rw [hb, pRelLine_filter_eq] at h1
    unfold pFilter at h1
    rw [lit_append] at h1
    simp only [Option.bind_eq_bind, Option.bind_some, Option.bind_eq_some_iff] at h1
    obtain ⟨⟨s, s1⟩, h4, s2, h5, ⟨refs, s3⟩, h6, h7⟩ := h1
    cases h7
    simp only [convLine, standardAdv_nil, Res.bind, convBody] at h2
    obtain ⟨r, k1, h2⟩ := Res.bind_ok_iff.1 h2
    obtain ⟨e, k2, h2⟩ := Res.bind_ok_iff.1 h2
    obtain ⟨p, k3, h2⟩ := Res.bind_ok_iff.1 h2
    cases h2
    rw [dropPanics_ok] at k2
    obtain ⟨n, rfl⟩ := oneKid_ok k1
    simp only [OpEquiv, List.map_cons, List.map_nil, List.sum_cons, List.sum_nil, Nat.add_zero] at h3 h4 hn2
    obtain ⟨h8, h9, rfl, -⟩ := h3
    obtain ⟨h10, rfl⟩ := expr_in_line hA hF (exprFollow_end o n c) h4 k2
    have hR := end_read ho hn2 h5 h6
    refine ⟨rfl, by rw [h9, hints_conv k3], ⟨e, rfl, h10⟩, ?_⟩
    simpa [Among] using hR.2
  · rintro ⟨hl, hh, ⟨e, rfl, he⟩, hr⟩
    obtain ⟨s, hs1, hs2⟩ := survivor hA he
    have hR : InRange (kids.map (·.2)).sum (shown (kids.map (·.2)).sum c) := ⟨hn2, hr⟩
    obtain ⟨r, n, rfl⟩ : ∃ r n, kids = [(r, n)] := oneKid rfl hl
    simp only [List.map_cons, List.map_nil, List.sum_cons, List.sum_nil, Nat.add_zero] at hR hn2
    refine ⟨.filter s ((shown n c).map IntTok.ofInt), [], .filter (mkCommon (makeEmit (shown n c) n)) (some e) none, [some r],
      (shown n c).length, by simp, by simp [outWidth, directWidth, common], ?_, ?_, ?_⟩
    · rw [hb, pRelLine_filter_eq]
      simp only [List.map_cons, List.map_nil, List.sum_cons, List.sum_nil, Nat.add_zero, end_text ho hR]
      exact pFilter_text (hs2 _ (exprFollow_tail _))
    · simp [convLine, standardAdv_nil, Res.bind, convBody, oneChild, hs1, dropPanics, convEmit_text (n := n) (InRange.i32 hR)]
    · simp only [OpEquiv, List.map_cons, List.map_nil, List.sum_cons, List.sum_nil, Nat.add_zero]
      exact ⟨(shown_makeEmit (by omega)).symm, hh, trivial, trivial⟩

theorem filter_exact (kids : List (Rel × Nat)) (c : Option Common) (cond : Option Expr)
    (hn : Countable reg (kids.map (·.2)) (.filter c cond none)) :
    LineBack ⟨run h, o, reg⟩ kids (.filter c cond none) ↔ SurvivesLine (run h) o (kids.map (·.2)) (.filter c cond none) :=
  ⟨(filter_kept hA hF ho kids c cond hn).1, fun hs => kept_back ((filter_kept hA hF ho kids c cond hn).2 hs)⟩

omit hA hF in
theorem cross_kept (kids : List (Rel × Nat)) (c : Option Common)
    (hn : Countable reg (kids.map (·.2)) (.cross c none)) :
    (LineBack ⟨run h, o, reg⟩ kids (.cross c none) → SurvivesLine (run h) o (kids.map (·.2)) (.cross c none)) ∧
      (SurvivesLine (run h) o (kids.map (·.2)) (.cross c none) → LineKept ⟨run h, o, reg⟩ kids (.cross c none)) := by
  have hn2 : (kids.map (·.2)).sum + (shown (kids.map (·.2)).sum c).length ≤ 2 ^ 31 := hn.2
  have hb : (textHeader o 0 (relHead ⟨run h, o, reg⟩ (kids.map fun k => some k.2) (.cross c none))).text =
      cs!"Cross[" ++ (colsText o (kids.map (·.2)).sum c ++ [']']) := by
    rw [line_text]
    simp [headBody, relHead, total_kids, colsText]
  constructor
  · rintro ⟨line, rest, op', ins, w, h1, h2, h3⟩
    simp only at h1 h2
    rw [hb, pRelLine_cross_eq] at h1
    unfold pCross at h1
    rw [lit_append] at h1
    simp only [Option.bind_eq_bind, Option.bind_some, Option.bind_eq_some_iff] at h1
    obtain ⟨⟨refs, s3⟩, h6, h7⟩ := h1
    cases h7
    have hR := cols_of_read ho h6
    simp only [convLine, standardAdv_nil, Res.bind, convBody] at h2
    rcases kids with _ | ⟨⟨l, v⟩, _ | ⟨⟨r, u⟩, _ | ⟨_, _⟩⟩⟩
    · cases h2
    · cases h2
    · simp only [List.map_cons, List.map_nil] at h2
      obtain ⟨p, k3, h2⟩ := Res.bind_ok_iff.1 h2
      cases h2
      simp only [OpEquiv] at h3
      exact ⟨rfl, by rw [h3.2.1, hints_conv k3], hR⟩
    · cases h2
  · rintro ⟨hl, hh, hr⟩
    have hR : InRange (kids.map (·.2)).sum (shown (kids.map (·.2)).sum c) := ⟨hn2, hr⟩
    obtain ⟨l, r, v, u, rfl⟩ := twoKids rfl hl
    simp only [List.map_cons, List.map_nil, List.sum_cons, List.sum_nil, Nat.add_zero] at hR hn2 hb
    refine ⟨.cross ((shown (v + u) c).map IntTok.ofInt), [], .cross (mkCommon (makeEmit (shown (v + u) c) (v + u))) none,
      [some l, some r], (shown (v + u) c).length, by simp, by simp [outWidth, directWidth, common], ?_, ?_, ?_⟩
    · simp only [List.map_cons, List.map_nil]
      rw [hb, pRelLine_cross_eq, colsText, implicitCols_refs ho _ _ hR]
      simp [pCross, lit, pRefsClose_text]
    · simp [convLine, standardAdv_nil, Res.bind, convBody, convEmit_text (n := v + u) (InRange.i32 hR)]
    · simp only [OpEquiv, List.map_cons, List.map_nil, List.sum_cons, List.sum_nil, Nat.add_zero]
      exact ⟨(shown_makeEmit (by omega)).symm, hh, trivial⟩

omit hA hF in
theorem cross_exact (kids : List (Rel × Nat)) (c : Option Common)
    (hn : Countable reg (kids.map (·.2)) (.cross c none)) :
    LineBack ⟨run h, o, reg⟩ kids (.cross c none) ↔ SurvivesLine (run h) o (kids.map (·.2)) (.cross c none) :=
  ⟨(cross_kept ho kids c hn).1, fun hs => kept_back ((cross_kept ho kids c hn).2 hs)⟩

omit hA hF in
theorem set_kept (kids : List (Rel × Nat)) (c : Option Common) (op : EnumVal SetOp)
    (hn : Countable reg (kids.map (·.2)) (.set c op none)) :
    (LineBack ⟨run h, o, reg⟩ kids (.set c op none) → SurvivesLine (run h) o (kids.map (·.2)) (.set c op none)) ∧
      (SurvivesLine (run h) o (kids.map (·.2)) (.set c op none) → LineKept ⟨run h, o, reg⟩ kids (.set c op none)) := by
  have hn2 : (kids.map (·.2)).headD 0 + (shown ((kids.map (·.2)).headD 0) c).length ≤ 2 ^ 31 := hn.2
  have hb : 2 ≤ kids.length → (∀ w ∈ kids.map (·.2), w = (kids.map (·.2)).headD 0) →
      (textHeader o 0 (relHead ⟨run h, o, reg⟩ (kids.map fun k => some k.2) (.set c op none))).text =
      cs!"Set[" ++ ((textSetOp op).text ++ endText o ((kids.map (·.2)).headD 0) c) := by
    intro hl hw
    rw [line_text, headBody_end (n := (kids.map (·.2)).headD 0) (c := c) 0 _ _ _ rfl rfl ?_ rfl]
    · simp [relHead, textArgList, Out.sep]
    · simp only [relHead]
      rw [if_neg (by simp; rintro rfl; simp at hl), total_kids, sum_const hw, List.length_map, List.length_map,
        Nat.mul_div_cancel_left _ (by omega)]
  have hpre : ∃ x, (textHeader o 0 (relHead ⟨run h, o, reg⟩ (kids.map fun k => some k.2) (.set c op none))).text =
      cs!"Set[" ++ x := by
    rw [line_text, headBody_end (n := _) (c := c) 0 _ _ _ rfl rfl rfl rfl]
    exact ⟨_, rfl⟩
  constructor
  · rintro ⟨line, rest, op', ins, w, h1, h2, h3⟩
    simp only at h1 h2
    obtain ⟨x, hx⟩ := hpre
    have h0 := h1
    rw [hx, pRelLine_set_eq] at h1
    unfold pSet at h1
    rw [lit_append] at h1
    simp only [Option.bind_eq_bind, Option.bind_some, Option.bind_eq_some_iff] at h1
    obtain ⟨⟨t, s1⟩, h4, s2, h5, ⟨refs, s3⟩, h6, h7⟩ := h1
    cases h7
    simp only [convLine, standardAdv_nil, Res.bind, convSet] at h2
    split at h2
    · cases h2
    rename_i hl
    simp only [List.length_map] at hl
    split at h2
    · cases h2
    rename_i v l hv
    split at h2
    · rename_i hall
      obtain ⟨q, k1, h2⟩ := Res.bind_ok_iff.1 h2
      obtain ⟨p, k2, h2⟩ := Res.bind_ok_iff.1 h2
      cases h2
      simp only [OpEquiv] at h3
      obtain ⟨h8, h9, rfl, -⟩ := h3
      have hw : ∀ w ∈ kids.map (·.2), w = (kids.map (·.2)).headD 0 := by
        rw [hv]
        simp only [List.all_eq_true, decide_eq_true_eq] at hall
        intro y hy
        rcases List.mem_cons.1 hy with rfl | hy
        · rfl
        · exact hall y hy
      have hq : q ≠ .unspecified := by
        rintro rfl
        exact setName_ne _ (grammarName_ok.1 k1)
      obtain ⟨name, hn1, hn3⟩ : ∃ name, q.spell = some name ∧ firstOf (cs!"&" ++ name) setNames = true := by
        cases q with
        | unspecified => exact absurd rfl hq
        | _ => exact ⟨_, rfl, by decide⟩
      rw [hb (by omega) hw, pRelLine_set_eq] at h0
      unfold pSet at h0
      rw [lit_append] at h0
      have ht : (textSetOp (.known q)).text = cs!"&" ++ name := by simp [textSetOp, textVariant, hn1]
      rw [ht] at h0
      simp only [Option.bind_eq_bind, Option.bind_some] at h0
      rw [pFirst_firstOf (rest := endText o ((kids.map (·.2)).headD 0) c) hn3 ((nextNot_cons _ _ _).2 (by decide))] at h0
      simp only [Option.bind_some, Option.bind_eq_some_iff] at h0
      obtain ⟨s2, h5, ⟨refs, s3⟩, h6, h7⟩ := h0
      have hR := end_read ho hn2 h5 h6
      refine ⟨by simp only [List.length_map]; omega, by rw [h9, hints_conv k2], ⟨q, rfl, hq⟩, hw, hR.2⟩
    · cases h2
  · rintro ⟨hl, hh, ⟨t, rfl, ht⟩, hw, hr⟩
    have hR : InRange ((kids.map (·.2)).headD 0) (shown ((kids.map (·.2)).headD 0) c) := ⟨hn2, hr⟩
    obtain ⟨name, hn1, hn2, hn3⟩ : ∃ name, t.spell = some name ∧ SetOp.ofName (trimAmp (cs!"&" ++ name)) = some t ∧
        firstOf (cs!"&" ++ name) setNames = true := by
      cases t with
      | unspecified => exact absurd rfl ht
      | _ => exact ⟨_, rfl, by decide, by decide⟩
    simp only [List.length_map] at hl
    refine ⟨.set (cs!"&" ++ name) ((shown ((kids.map (·.2)).headD 0) c).map IntTok.ofInt), [],
      .set (mkCommon (makeEmit (shown ((kids.map (·.2)).headD 0) c) ((kids.map (·.2)).headD 0))) (.known t) none,
      (kids.map (·.1)).map some, (shown ((kids.map (·.2)).headD 0) c).length, by simp, by simp [outWidth, directWidth, common], ?_, ?_, ?_⟩
    · have h4 : (textSetOp (.known t)).text = cs!"&" ++ name := by simp [textSetOp, textVariant, hn1]
      rw [hb hl hw, pRelLine_set_eq, h4, end_text ho hR]
      exact pSet_text (pFirst_firstOf hn3 ((nextNot_cons _ _ _).2 (by decide)))
    · simp only [convLine, standardAdv_nil, Res.bind]
      unfold convSet
      rw [if_neg (by simp; omega)]
      cases hv : kids.map (·.2) with
      | nil => simp at hv; subst hv; simp at hl
      | cons w l =>
        rw [hv] at hw hR
        have hall : l.all (fun x => decide (x = w)) = true := by
          simp only [List.all_eq_true, decide_eq_true_eq]
          intro x hx
          exact hw x (by simp [hx])
        simp only [List.headD_cons] at hR ⊢
        rw [if_pos hall, hn2]
        simp [grammarName, Res.bind, convEmit_text (n := w) (InRange.i32 hR)]
    · simp only [OpEquiv]
      exact ⟨(shown_makeEmit (by have := hR.1; omega)).symm, hh, trivial, trivial⟩

omit hA hF in
theorem set_exact (kids : List (Rel × Nat)) (c : Option Common) (op : EnumVal SetOp)
    (hn : Countable reg (kids.map (·.2)) (.set c op none)) :
    LineBack ⟨run h, o, reg⟩ kids (.set c op none) ↔ SurvivesLine (run h) o (kids.map (·.2)) (.set c op none) :=
  ⟨(set_kept ho kids c op hn).1, fun hs => kept_back ((set_kept ho kids c op hn).2 hs)⟩

theorem join_kept (kids : List (Rel × Nat)) (c : Option Common) (ty : EnumVal JoinType) (cond post : Option Expr)
    (hn : Countable reg (kids.map (·.2)) (.join c ty cond post none)) :
    (LineBack ⟨run h, o, reg⟩ kids (.join c ty cond post none) → SurvivesLine (run h) o (kids.map (·.2)) (.join c ty cond post none)) ∧
      (SurvivesLine (run h) o (kids.map (·.2)) (.join c ty cond post none) → LineKept ⟨run h, o, reg⟩ kids (.join c ty cond post none)) := by
  have hb : ∀ l v r u t name e, kids = [(l, v), (r, u)] → ty = .known t → t.spell = some name → cond = some e →
      (textHeader o 0 (relHead ⟨run h, o, reg⟩ (kids.map fun k => some k.2) (.join c ty cond post none))).text =
      cs!"Join[" ++ ((cs!"&" ++ name) ++ (cs!", " ++ ((textExpr (run h) o e).text ++
        (postStr (run h) o post ++ endText o (joinColumns t v u) c)))) := by
    rintro l v r u t name e rfl rfl hname rfl
    rw [line_text, headBody_end (n := joinColumns t v u) (c := c) 0 _ _ _ rfl rfl
      (by simp [relHead, EnumVal.joinType, widthAt, joinColumns_eq]) rfl]
    cases post <;> simp [relHead, textArgList, textJoinType, textVariant, hname, Out.sep, Out.expect, postStr, textNamedArg]
  have hpre : ∃ x, (textHeader o 0 (relHead ⟨run h, o, reg⟩ (kids.map fun k => some k.2) (.join c ty cond post none))).text =
      cs!"Join[" ++ x := by
    rw [line_text, headBody_end (n := _) (c := c) 0 _ _ _ rfl rfl rfl rfl]
    exact ⟨_, rfl⟩
  have hfol : ∀ n, ExprFollow (postStr (run h) o post ++ endText o n c) := by
    intro n
    cases post with
    | none => exact exprFollow_end o n c
    | some x => exact exprFollow_comma _
  constructor
  · rintro ⟨line, rest, op', ins, w, h1, h2, h3⟩
    simp only at h1 h2
    obtain ⟨x, hx⟩ := hpre
    have h0 := h1
    rw [hx, pRelLine_join_eq] at h1
    unfold pJoin at h1
    rw [lit_append] at h1
    simp only [Option.bind_eq_bind, Option.bind_some, Option.bind_eq_some_iff] at h1
    obtain ⟨⟨t, s1⟩, _, s2, _, ⟨s, s3⟩, _, s4, _, ⟨refs, s5⟩, _, h7⟩ := h1
    cases h7
    simp only [convLine, standardAdv_nil, Res.bind, convBody] at h2
    rcases kids with _ | ⟨⟨l, v⟩, _ | ⟨⟨r, u⟩, _ | ⟨_, _⟩⟩⟩
    · cases h2
    · cases h2
    · simp only [List.map_cons, List.map_nil] at h2
      obtain ⟨q, k1, h2⟩ := Res.bind_ok_iff.1 h2
      obtain ⟨e, k2, h2⟩ := Res.bind_ok_iff.1 h2
      obtain ⟨po, k3, h2⟩ := Res.bind_ok_iff.1 h2
      obtain ⟨p, k4, h2⟩ := Res.bind_ok_iff.1 h2
      cases h2
      simp only [OpEquiv] at h3
      obtain ⟨h8, h9, rfl, rfl, rfl, -⟩ := h3
      rw [dropPanics_ok] at k2 k3
      have hq : q ≠ .unspecified := by
        rintro rfl
        exact joinName_ne _ (grammarName_ok.1 k1)
      obtain ⟨name, hn1, hn3⟩ : ∃ name, q.spell = some name ∧ firstOf (cs!"&" ++ name) joinNames = true := by
        cases q with
        | unspecified => exact absurd rfl hq
        | _ => exact ⟨_, rfl, by decide⟩
      rw [hb l v r u q name e rfl rfl hn1 rfl, pRelLine_join_eq] at h0
      unfold pJoin at h0
      rw [lit_append] at h0
      simp only [Option.bind_eq_bind, Option.bind_some] at h0
      rw [pFirst_firstOf (rest := cs!", " ++ ((textExpr (run h) o e).text ++ (postStr (run h) o post ++ endText o (joinColumns q v u) c)))
        hn3 ((nextNot_cons _ _ _).2 (by decide))] at h0
      simp only [Option.bind_some] at h0
      rw [spCommaSp_skip] at h0
      simp only [Option.bind_some, Option.bind_eq_some_iff] at h0
      obtain ⟨⟨s', s3'⟩, g1, s4', g2, ⟨refs', s5'⟩, g3, g4⟩ := h0
      injection g4 with g4
      injection g4 with g4 g5
      injection g4 with g6 g7 g8 g9
      subst g7
      simp only at g1 g2 g3 g8 g9
      obtain ⟨hse, rfl⟩ := expr_in_line_skip hA hF (hfol _) g1 k2
      have hpost : (∀ x, post = some x → SurvivesExpr (run h) o x) ∧
          (pOpt pPostFilter (postStr (run h) o post ++ endText o (joinColumns q v u) c)).2 = endText o (joinColumns q v u) c := by
        rw [← g8] at k3
        cases post with
        | none =>
          refine ⟨fun x hx => (by cases hx), ?_⟩
          simp [postStr, pOpt, pPostFilter, spCommaSp_end]
        | some y =>
          cases hpp : pPostFilter (postStr (run h) o (some y) ++ endText o (joinColumns q v u) c) with
          | none => simp [pOpt, hpp, convOpt] at k3
          | some z =>
            obtain ⟨z, q1⟩ := z
            simp only [pOpt, hpp, convOpt] at k3
            obtain ⟨y', k5, k6⟩ := Res.bind_ok_iff.1 k3
            cases k6
            have hx : postStr (run h) o (some y) ++ endText o (joinColumns q v u) c =
                cs!", " ++ (cs!"post_filter" ++ (cs!"=" ++ ((textExpr (run h) o y).text ++ endText o (joinColumns q v u) c))) := by
              simp [postStr]
            have hpp' := hpp
            rw [hx] at hpp'
            unfold pPostFilter at hpp'
            rw [spCommaSp_skip] at hpp'
            simp only [Option.bind_eq_bind, Option.bind_some] at hpp'
            rw [show ∀ t, skipSp (cs!"post_filter" ++ t) = cs!"post_filter" ++ t from fun t => skipSp_cons _ _ (by decide),
              lit_append] at hpp'
            simp only [Option.bind_some] at hpp'
            rw [show ∀ t, skipSp (cs!"=" ++ t) = cs!"=" ++ t from fun t => skipSp_cons _ _ (by decide), lit_append] at hpp'
            simp only [Option.bind_some] at hpp'
            obtain ⟨k7, k8⟩ := expr_in_line_skip hA hF (exprFollow_end o _ c) hpp' k5
            refine ⟨fun x hx => (by cases hx; exact k7), ?_⟩
            simp [pOpt, hpp, k8]
      rw [hpost.2] at g2
      have hn2 : joinColumns q v u + (shown (joinColumns q v u) c).length ≤ 2 ^ 31 := hn.2
      have hs : v + u ≤ 2 ^ 31 := by simpa using hn.1
      have hR := end_read ho hn2 g2 g3
      refine ⟨rfl, by rw [h9, hints_conv k4], ⟨q, rfl, hq, hR.2, ?_⟩, ⟨e, rfl, hse⟩, hpost.1⟩
      intro hid
      simp only [List.map_cons, List.map_nil, List.getD_cons_zero, List.getD_cons_succ, List.sum_cons, List.sum_nil,
        Nat.add_zero] at hid ⊢
      rw [end_text ho hR, pArrow_tail] at g2
      cases g2
      rw [g9] at g3
      have hp1 := convEmit_shown hR g3 k4
      simp only [directWidth, List.map_cons, List.map_nil, List.getD_cons_zero, List.getD_cons_succ] at h8
      rw [hp1, hid] at h8
      have hd : makeEmit (identity (v + u)) ((([v, u] : List Nat)).sum) = .direct := by
        simp only [List.sum_cons, List.sum_nil, Nat.add_zero]
        exact (makeEmit_direct_iff hs).2 rfl
      rw [hd] at h8
      have h10 : (identity (v + u)).length = (identity (joinColumns q v u)).length := congrArg List.length h8
      simpa [identity] using h10.symm
    · cases h2
  · rintro ⟨hl, hh, ⟨t, rfl, ht, hr, hid⟩, ⟨e, rfl, he⟩, hp⟩
    obtain ⟨l, r, v, u, rfl⟩ := twoKids rfl hl
    have hR : InRange (joinColumns t v u) (shown (joinColumns t v u) c) := ⟨hn.2, hr⟩
    have hs : v + u ≤ 2 ^ 31 := by simpa using hn.1
    simp only [List.map_cons, List.map_nil, List.getD_cons_zero, List.getD_cons_succ, List.sum_cons, List.sum_nil,
      Nat.add_zero] at hid
    obtain ⟨name, hn1, hn2, hn3⟩ : ∃ name, t.spell = some name ∧ JoinType.ofName (trimAmp (cs!"&" ++ name)) = some t ∧
        firstOf (cs!"&" ++ name) joinNames = true := by
      cases t with
      | unspecified => exact absurd rfl ht
      | _ => exact ⟨_, rfl, by decide, by decide⟩
    obtain ⟨s, hs1, hs2⟩ := survivor hA he
    obtain ⟨sp, hp1, hp2⟩ : ∃ sp, convOpt (convExpr (run h)) sp = .ok post ∧
        pOpt pPostFilter (postStr (run h) o post ++ endText o (joinColumns t v u) c) = (sp, endText o (joinColumns t v u) c) := by
      cases post with
      | none => exact ⟨none, rfl, by simp [postStr, pOpt, pPostFilter, spCommaSp_end]⟩
      | some y =>
        obtain ⟨sy, hy1, hy2⟩ := survivor hA (hp y rfl)
        have hst := survivor_starts hA hF (hp y rfl)
        refine ⟨some sy, by simp [convOpt, hy1, Res.bind], ?_⟩
        have hx : postStr (run h) o (some y) ++ endText o (joinColumns t v u) c =
            cs!", " ++ (cs!"post_filter" ++ (cs!"=" ++ ((textExpr (run h) o y).text ++ endText o (joinColumns t v u) c))) := by
          simp [postStr]
        have h4 : pPostFilter (postStr (run h) o (some y) ++ endText o (joinColumns t v u) c) =
            some (sy, endText o (joinColumns t v u) c) := by
          rw [hx]
          unfold pPostFilter
          rw [spCommaSp_skip]
          simp only [Option.bind_eq_bind, Option.bind_some]
          rw [show ∀ t, skipSp (cs!"post_filter" ++ t) = cs!"post_filter" ++ t from fun t => skipSp_cons _ _ (by decide), lit_append]
          simp only [Option.bind_some]
          rw [show ∀ t, skipSp (cs!"=" ++ t) = cs!"=" ++ t from fun t => skipSp_cons _ _ (by decide), lit_append]
          simp only [Option.bind_some]
          rw [hst.skip]
          exact hy2 _ (exprFollow_end o _ c)
        simp [pOpt, h4]
    refine ⟨.join (cs!"&" ++ name) s sp ((shown (joinColumns t v u) c).map IntTok.ofInt), [],
      .join (mkCommon (makeEmit (shown (joinColumns t v u) c) (v + u))) (.known t) (some e) post none,
      [some l, some r], (shown (joinColumns t v u) c).length, by simp, by simp [outWidth, directWidth, common], ?_, ?_, ?_⟩
    · rw [hb l v r u t name e rfl rfl hn1 rfl, pRelLine_join_eq]
      unfold pJoin
      rw [lit_append]
      simp only [Option.bind_eq_bind, Option.bind_some]
      rw [pFirst_firstOf (rest := cs!", " ++ ((textExpr (run h) o e).text ++ (postStr (run h) o post ++ endText o (joinColumns t v u) c)))
        hn3 ((nextNot_cons _ _ _).2 (by decide))]
      simp only [Option.bind_some]
      rw [spCommaSp_skip, (survivor_starts hA hF he).skip]
      simp only [Option.bind_some]
      rw [hs2 _ (hfol _)]
      simp only [Option.bind_some]
      rw [hp2, end_text ho hR]
      simp [pArrow_tail, pRefsClose_text]
    · simp [convLine, standardAdv_nil, Res.bind, convBody, hs1, dropPanics, grammarName, hp1,
        convEmit_text (n := v + u) (InRange.i32 hR)] at hn2 ⊢
      simp [hn2]
    · simp only [OpEquiv, directWidth, List.map_cons, List.map_nil, List.getD_cons_zero, List.getD_cons_succ]
      refine ⟨?_, hh, trivial, trivial, trivial, trivial⟩
      rcases makeEmit_cases (shown (joinColumns t v u) c) (v + u) with h3 | h3
      · have h4 := (makeEmit_direct_iff (m := shown (joinColumns t v u) c) hs).1 h3
        rw [hid h4, ← hid h4, hid h4, shown_makeEmit hs]
      · rw [h3]
        rfl

theorem join_exact (kids : List (Rel × Nat)) (c : Option Common) (ty : EnumVal JoinType) (cond post : Option Expr)
    (hn : Countable reg (kids.map (·.2)) (.join c ty cond post none)) :
    LineBack ⟨run h, o, reg⟩ kids (.join c ty cond post none) ↔ SurvivesLine (run h) o (kids.map (·.2)) (.join c ty cond post none) :=
  ⟨(join_kept hA hF ho kids c ty cond post hn).1, fun hs => kept_back ((join_kept hA hF ho kids c ty cond post hn).2 hs)⟩

omit ho in
theorem sort_field {f : SortField} {s : SExpr × Str} {rest r : Str}
    (hp : pSortField ((textSortField (run h) o f).text ++ rest) = some (s, r)) (hc : convSortField (run h) s = .ok f) :
    SurvivesSort (run h) o f ∧ r = rest := by
  unfold convSortField at hc
  obtain ⟨e, k1, hc⟩ := Res.bind_ok_iff.1 hc
  rw [dropPanics_ok] at k1
  cases hd : SortDir.ofName (trimAmp s.2) with
  | none => rw [hd] at hc; cases hc
  | some d =>
    rw [hd] at hc
    cases hc
    have hd1 : d ≠ .unspecified := by rintro rfl; exact (sortName_ne _).1 hd
    have hd2 : d ≠ .clustered := by rintro rfl; exact (sortName_ne _).2 hd
    obtain ⟨name, hn1, hn3⟩ : ∃ name, d.spell = some name ∧ firstOf (cs!"&" ++ name) sortNames = true := by
      cases d with
      | unspecified => exact absurd rfl hd1
      | clustered => exact absurd rfl hd2
      | _ => exact ⟨_, rfl, by decide⟩
    have hx : (textSortField (run h) o ⟨some e, some (.direction (.known d))⟩).text ++ rest =
        cs!"(" ++ ((textExpr (run h) o e).text ++ (cs!"," ++ (' ' :: ((cs!"&" ++ name) ++ (cs!")" ++ rest))))) := by
      simp [textSortField, textTuple, Out.expect, textSortKind, textVariant, hn1, Out.sep]
    rw [hx] at hp
    unfold pSortField at hp
    rw [lit_append] at hp
    simp only [Option.bind_eq_bind, Option.bind_some, Option.bind_eq_some_iff] at hp
    obtain ⟨⟨s1, s2⟩, g1, s3, g2, ⟨d', s4⟩, g3, s5, g4, g5⟩ := hp
    cases g5
    have hfo : ExprFollow (cs!"," ++ (' ' :: ((cs!"&" ++ name) ++ (cs!")" ++ rest)))) := exprFollow_comma _
    obtain ⟨h1, rfl⟩ := expr_in_line_skip hA hF hfo g1 k1
    simp only at g2 g3 g4
    rw [show ∀ t, skipSp (cs!"," ++ t) = cs!"," ++ t from fun t => skipSp_cons _ _ (by decide), lit_append] at g2
    cases g2
    rw [skipSp_space, show ∀ t, skipSp ((cs!"&" ++ name) ++ t) = (cs!"&" ++ name) ++ t from fun t => skipSp_cons _ _ (by decide),
      pFirst_firstOf (rest := cs!")" ++ rest) hn3 ((nextNot_cons _ _ _).2 (by decide))] at g3
    cases g3
    rw [show ∀ t, skipSp (cs!")" ++ t) = cs!")" ++ t from fun t => skipSp_cons _ _ (by decide), lit_append] at g4
    cases g4
    exact ⟨⟨e, d, rfl, h1, hd1, hd2⟩, rfl⟩

omit ho in
theorem sort_field_read {f : SortField} (hs : SurvivesSort (run h) o f) :
    ∃ s, convSortField (run h) s = .ok f ∧ ∀ rest, pSortField ((textSortField (run h) o f).text ++ rest) = some (s, rest) := by
  obtain ⟨e, d, rfl, he, hd1, hd2⟩ := hs
  obtain ⟨s, k1, k2⟩ := survivor hA he
  obtain ⟨name, hn1, hn2, hn3⟩ : ∃ name, d.spell = some name ∧ SortDir.ofName (trimAmp (cs!"&" ++ name)) = some d ∧
      firstOf (cs!"&" ++ name) sortNames = true := by
    cases d with
    | unspecified => exact absurd rfl hd1
    | clustered => exact absurd rfl hd2
    | _ => exact ⟨_, rfl, by decide, by decide⟩
  refine ⟨(s, cs!"&" ++ name), by simp only [convSortField, k1, dropPanics, Res.bind, hn2], fun rest => ?_⟩
  have hx : (textSortField (run h) o ⟨some e, some (.direction (.known d))⟩).text ++ rest =
      cs!"(" ++ ((textExpr (run h) o e).text ++ (cs!"," ++ (' ' :: ((cs!"&" ++ name) ++ (cs!")" ++ rest))))) := by
    simp [textSortField, textTuple, Out.expect, textSortKind, textVariant, hn1, Out.sep]
  rw [hx]
  unfold pSortField
  rw [lit_append]
  simp only [Option.bind_eq_bind, Option.bind_some]
  have hfo : ExprFollow (cs!"," ++ (' ' :: ((cs!"&" ++ name) ++ (cs!")" ++ rest)))) := exprFollow_comma _
  rw [(survivor_starts hA hF he).skip, k2 _ hfo]
  simp only [Option.bind_some]
  rw [show ∀ t, skipSp (cs!"," ++ t) = cs!"," ++ t from fun t => skipSp_cons _ _ (by decide), lit_append]
  simp only [Option.bind_some]
  rw [skipSp_space, show ∀ t, skipSp ((cs!"&" ++ name) ++ t) = (cs!"&" ++ name) ++ t from fun t => skipSp_cons _ _ (by decide),
    pFirst_firstOf (rest := cs!")" ++ rest) hn3 ((nextNot_cons _ _ _).2 (by decide))]
  simp only [Option.bind_some]
  rw [show ∀ t, skipSp (cs!")" ++ t) = cs!")" ++ t from fun t => skipSp_cons _ _ (by decide), lit_append]
  rfl

omit hA hF ho in
theorem sort_starts (st : Store) (o : Opts) (f : SortField) : Starts (textSortField st o f).text :=
  ⟨'(', _, by simp [textSortField, textTuple]; rfl, by decide⟩

omit ho in
theorem sort_star (n : Nat) (c : Option Common) : ∀ (sorts : List SortField) (fuel : Nat) (fields : List (SExpr × Str)) (r : Str),
    pStarN spCommaSp pSortField fuel ((sorts.map fun f => (textSortField (run h) o f).text).flatMap (cs!", " ++ ·) ++ endText o n c) =
      (fields, r) → convSortFields (run h) fields = .ok sorts → (∀ f ∈ sorts, SurvivesSort (run h) o f) ∧ r = endText o n c
  | [], fuel, fields, r, hp, _ => by
    rw [List.map_nil, List.flatMap_nil, List.nil_append, pStarN_stop _ _ _ (spCommaSp_end o n c)] at hp
    cases hp
    exact ⟨fun f hf => (nomatch hf), rfl⟩
  | f :: sorts, fuel, fields, r, hp, hc => by
    cases fields with
    | nil => cases hc
    | cons s fields =>
      rw [convSortFields] at hc
      obtain ⟨f', k1, hc⟩ := Res.bind_ok_iff.1 hc
      obtain ⟨l', k2, hc⟩ := Res.bind_ok_iff.1 hc
      cases hc
      cases fuel with
      | zero => simp [pStarN] at hp
      | succ fuel =>
        rw [List.map_cons, List.flatMap_cons, List.append_assoc, List.append_assoc, pStarN, spCommaSp_starts (sort_starts _ _ _)] at hp
        simp only at hp
        split at hp
        · cases hp
        · next a s2 he =>
          simp only [Prod.mk.injEq, List.cons.injEq] at hp
          obtain ⟨⟨rfl, hss⟩, hr⟩ := hp
          obtain ⟨g1, rfl⟩ := sort_field hA hF he k1
          obtain ⟨g2, g3⟩ := sort_star n c sorts fuel _ _ (Prod.ext hss hr) k2
          refine ⟨?_, g3⟩
          intro y hy
          rcases List.mem_cons.1 hy with rfl | hy
          · exact g1
          · exact g2 y hy

theorem sort_kept (kids : List (Rel × Nat)) (c : Option Common) (sorts : List SortField)
    (hn : Countable reg (kids.map (·.2)) (.sort c sorts none)) :
    (LineBack ⟨run h, o, reg⟩ kids (.sort c sorts none) → SurvivesLine (run h) o (kids.map (·.2)) (.sort c sorts none)) ∧
      (SurvivesLine (run h) o (kids.map (·.2)) (.sort c sorts none) → LineKept ⟨run h, o, reg⟩ kids (.sort c sorts none)) := by
  have hn2 : (kids.map (·.2)).sum + (shown (kids.map (·.2)).sum c).length ≤ 2 ^ 31 := hn.2
  have hb : (textHeader o 0 (relHead ⟨run h, o, reg⟩ (kids.map fun k => some k.2) (.sort c sorts none))).text =
      cs!"Sort[" ++ ((textArgList (sorts.map (textSortField (run h) o)) []).text ++ endText o (kids.map (·.2)).sum c) := by
    rw [line_text, headBody_end (n := (kids.map (·.2)).sum) (c := c) 0 _ _ _ rfl rfl (by simp only [relHead, total_kids]) rfl]
    rfl
  have htx : ∀ f l, (textArgList ((f :: l : List SortField).map (textSortField (run h) o)) []).text =
      (textSortField (run h) o f).text ++ (l.map fun f => (textSortField (run h) o f).text).flatMap (cs!", " ++ ·) := by
    intro f l
    have : (textArgList ((f :: l : List SortField).map (textSortField (run h) o)) []).text =
        joinS cs!", " ((f :: l : List SortField).map fun f => (textSortField (run h) o f).text) := by
      simp only [textArgList, List.map_eq_nil_iff, List.append_nil, Out.text_sep, List.map_map]
      simp [Out.text_sep, Function.comp_def]
    rw [this, List.map_cons, joinS_cons]
  constructor
  · rintro ⟨line, rest, op', ins, w, h1, h2, h3⟩
    simp only at h1 h2
    rw [hb, pRelLine_sort_eq] at h1
    unfold pSort at h1
    rw [lit_append] at h1
    simp only [Option.bind_eq_bind, Option.bind_some, Option.bind_eq_some_iff] at h1
    obtain ⟨s2, h5, ⟨refs, s3⟩, h6, h7⟩ := h1
    cases h7
    simp only [convLine, standardAdv_nil, Res.bind, convBody] at h2
    obtain ⟨r, k1, h2⟩ := Res.bind_ok_iff.1 h2
    obtain ⟨l, k2, h2⟩ := Res.bind_ok_iff.1 h2
    obtain ⟨p, k3, h2⟩ := Res.bind_ok_iff.1 h2
    cases h2
    obtain ⟨n, rfl⟩ := oneKid_ok k1
    simp only [OpEquiv, List.map_cons, List.map_nil, List.sum_cons, List.sum_nil, Nat.add_zero] at h3 h5 k2 hn2
    obtain ⟨h8, h9, rfl, -⟩ := h3
    cases sorts with
    | nil =>
      exfalso
      have : (textArgList (([] : List SortField).map (textSortField (run h) o)) []).text = cs!"_" := by simp [textArgList]
      rw [this] at h5
      simp [pSep, pSep1, pSortField, lit, pArrow, skipSp] at h5
    | cons f l =>
      rw [htx, List.append_assoc] at h5 k2
      unfold pSep pSep1 at h5 k2
      cases hp : pSortField ((textSortField (run h) o f).text ++
          ((l.map fun f => (textSortField (run h) o f).text).flatMap (cs!", " ++ ·) ++ endText o n c)) with
      | none => rw [hp] at k2; cases k2
      | some a =>
        obtain ⟨a, t⟩ := a
        rw [hp] at k2 h5
        simp only [convSortFields] at k2 h5
        obtain ⟨f', q1, k2⟩ := Res.bind_ok_iff.1 k2
        obtain ⟨l', q2, k2⟩ := Res.bind_ok_iff.1 k2
        cases k2
        obtain ⟨g1, rfl⟩ := sort_field hA hF hp q1
        obtain ⟨g2, g3⟩ := sort_star hA hF n c l _ _ _ rfl q2
        rw [g3] at h5
        have hR := end_read ho hn2 h5 h6
        refine ⟨rfl, by rw [h9, hints_conv k3], by simp, ?_, by simpa [Among] using hR.2⟩
        intro y hy
        rcases List.mem_cons.1 hy with rfl | hy
        · exact g1
        · exact g2 y hy
  · rintro ⟨hl, hh, hne, hs, hr⟩
    have hR : InRange (kids.map (·.2)).sum (shown (kids.map (·.2)).sum c) := ⟨hn2, hr⟩
    obtain ⟨r, n, rfl⟩ : ∃ r n, kids = [(r, n)] := oneKid rfl hl
    simp only [List.map_cons, List.map_nil, List.sum_cons, List.sum_nil, Nat.add_zero] at hR hn2
    obtain ⟨tree, htree⟩ : ∃ tree : SortField → SExpr × Str, ∀ f ∈ sorts, convSortField (run h) (tree f) = .ok f ∧
        ∀ rest, pSortField ((textSortField (run h) o f).text ++ rest) = some (tree f, rest) := by
      have : ∀ f, ∃ s, f ∈ sorts → convSortField (run h) s = .ok f ∧
          ∀ rest, pSortField ((textSortField (run h) o f).text ++ rest) = some (s, rest) := by
        intro f
        by_cases hf : f ∈ sorts
        · obtain ⟨s, h1, h2⟩ := sort_field_read hA hF (hs f hf)
          exact ⟨s, fun _ => ⟨h1, h2⟩⟩
        · exact ⟨(.ref (.ofInt 0), []), fun h => absurd h hf⟩
      exact ⟨fun f => Classical.choose (this f), fun f hf => Classical.choose_spec (this f) hf⟩
    refine ⟨.sort (sorts.map tree) ((shown n c).map IntTok.ofInt), [], .sort (mkCommon (makeEmit (shown n c) n)) sorts none, [some r],
      (shown n c).length, by simp, by simp [outWidth, directWidth, common], ?_, ?_, ?_⟩
    · rw [hb, pRelLine_sort_eq]
      simp only [List.map_cons, List.map_nil, List.sum_cons, List.sum_nil, Nat.add_zero, end_text ho hR]
      have h3 := pSort_text (m := shown n c) (items := sorts.map fun f => ((textSortField (run h) o f).text, tree f))
        (by
          intro i hi
          obtain ⟨f, hf, rfl⟩ := List.mem_map.1 hi
          exact ⟨sort_starts _ _ _, fun rest _ => (htree f hf).2 rest⟩)
      have h6 : (textArgList (sorts.map (textSortField (run h) o)) []).text =
          joinS cs!", " (sorts.map fun f => (textSortField (run h) o f).text) := by
        simp only [textArgList, List.map_eq_nil_iff, hne, false_and, if_false, List.append_nil, Out.text_sep, List.map_map]
        rfl
      rw [h6]
      simpa [Function.comp_def] using h3
    · have h7 : convSortFields (run h) (sorts.map tree) = .ok sorts := by
        clear hb hne hn
        induction sorts with
        | nil => rfl
        | cons f l ih =>
          rw [List.map_cons, convSortFields, (htree f (by simp)).1]
          simp only [Res.bind]
          rw [ih (fun g hg => hs g (by simp [hg])) (fun g hg => htree g (by simp [hg]))]
      simp [convLine, standardAdv_nil, Res.bind, convBody, oneChild, h7, convEmit_text (n := n) (InRange.i32 hR)] at h7 ⊢
    · simp only [OpEquiv, List.map_cons, List.map_nil, List.sum_cons, List.sum_nil, Nat.add_zero]
      exact ⟨(shown_makeEmit (by omega)).symm, hh, trivial, trivial⟩

theorem sort_exact (kids : List (Rel × Nat)) (c : Option Common) (sorts : List SortField)
    (hn : Countable reg (kids.map (·.2)) (.sort c sorts none)) :
    LineBack ⟨run h, o, reg⟩ kids (.sort c sorts none) ↔ SurvivesLine (run h) o (kids.map (·.2)) (.sort c sorts none) :=
  ⟨(sort_kept hA hF ho kids c sorts hn).1, fun hs => kept_back ((sort_kept hA hF ho kids c sorts hn).2 hs)⟩

end

end Verif
