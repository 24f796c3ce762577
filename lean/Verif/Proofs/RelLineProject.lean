import Verif.Proofs.RelLineOps
/-!
# Project lines, read back
-/

namespace Verif
open StoreSpec TextSpec RelSpec

set_option autoImplicit false

theorem item_projRef (i : Int) : Item ExprFollow pProjArg (refText i) (.ref (.ofInt i)) :=
  ⟨refText_starts i, fun rest hr => by simp [pProjArg, pRef_text (litContinues_digit hr), mapFst]⟩

theorem item_projExpr [UTab] [FTab] (hA : AsciiPrintable) {st : Store} (hst : st.Ordered) {o : Opts}
    (ho : o.anchors ≠ .never) {e : Expr} (he : Faithful st e) {s : SExpr} (h : ExprTree st o e s)
    (hn : ∀ i, e ≠ .selection (.field i none)) : Item ExprFollow pProjArg (textExpr st o e).text (.expr s) := by
  refine ⟨h.starts, fun rest hr => ?_⟩
  obtain ⟨c, t, h1, h2, _⟩ := expr_head_kind hA hst o ho e he
  have h3 : pRef ((textExpr st o e).text ++ rest) = none := by
    rw [h1]
    apply pRef_none
    intro hc
    obtain ⟨i, hi⟩ := h2 hc
    exact hn i hi
  simp [pProjArg, h3, h.read rest hr, mapFst]

theorem convProj_ok [FTab] {st : Store} {n : Nat} (l : List SProj)
    (h : ∀ x ∈ l, match x with
      | .ref i => ∃ j, convIndex i = .ok j ∧ j < (n : Int)
      | .expr e => ∃ e', convExpr st e = .ok e') :
    ∀ k, ∃ es m, convProj st n k l = .ok (es, m) ∧ es.length ≤ l.length ∧ m.length = l.length ∧
      m.filter (fun i => decide ((n : Int) ≤ i)) = (List.range' k es.length).map fun k => ((n + k : Nat) : Int) := by
  induction l with
  | nil => intro k; exact ⟨[], [], rfl, Nat.le_refl _, rfl, rfl⟩
  | cons x l ih =>
    intro k
    have hx := h x (by simp)
    have ih := ih fun y hy => h y (by simp [hy])
    cases x with
    | ref i =>
      obtain ⟨j, hj, hlt⟩ := hx
      obtain ⟨es, m, h1, h2, h3, h4⟩ := ih k
      refine ⟨es, j :: m, by simp [convProj, hj, plain, Res.bind, h1], by simp; omega, by simp [h3], ?_⟩
      rw [List.filter_cons_of_neg (by simp; omega), h4]
    | expr e =>
      obtain ⟨e', he⟩ := hx
      obtain ⟨es, m, h1, h2, h3, h4⟩ := ih (k + 1)
      refine ⟨e' :: es, ((n + k : Nat) : Int) :: m, by simp [convProj, he, plain, Res.bind, h1], by simp; omega, by simp [h3], ?_⟩
      rw [List.filter_cons_of_pos (by simp; omega), h4]
      simp [List.range'_succ]

theorem pProject_text {items : List (Str × SProj)} (h : ∀ i ∈ items, Item ExprFollow pProjArg i.1 i.2) :
    pProject (cs!"Project[" ++ (joinS cs!", " (items.map (·.1)) ++ [']'])) = some (.project (items.map (·.2)), []) := by
  have h1 := pSep_items (sep := spCommaSp) items [']'] h spCommaSp_join (fun r => exprFollow_comma r)
    (exprFollow_bracket _) (pStarN_stop _ _ _ (spCommaSp_stop (by decide) (by decide)))
    (by
      have h2 : pExpr [']'] = none := pExprN_none (by decide) (by decide) (by decide) (by decide) _
      simp [pProjArg, pRef_none, h2, mapFst])
  unfold pProject
  rw [lit_append]
  simp [h1, lit]

theorem lineRT_project [UTab] [FTab] (hA : AsciiPrintable) {env : Env} (hst : env.st.Ordered) (ho : Readable env.o)
    {ws : List Nat} {c : Option Common} {exprs : List Expr} {adv : Option AdvExt}
    (hl : ws.length = 1) (h : OpOk env ws (.project c exprs adv)) : LineRT env ws (.project c exprs adv) := by
  obtain ⟨hh, he, hr, ha⟩ := h
  obtain ⟨tree, htree⟩ := exprTrees hA hst env.o ho.1 ho.2.1
  obtain ⟨adv', h1, h2⟩ := standardAdv_advList ha
  have hbound := hr.1
  -- each column put out has a parse tree that stands for it
  have col : ∀ i : Int, ∃ s : SProj, 0 ≤ i ∧ i < ((ws.sum + exprs.length : Nat) : Int) →
      Item ExprFollow pProjArg (colAt (references ws.sum ++ exprs.map (textExpr env.st env.o)) i).text s ∧
      (match s with
        | .ref i => ∃ j, convIndex i = .ok j ∧ j < (ws.sum : Int)
        | .expr e => ∃ e', convExpr env.st e = .ok e') ∧
      ∀ es, projItem env.st (projectColumns ws.sum es) s = at? (projectColumns ws.sum exprs) i := by
    intro i
    have refCase : ∀ j : Int, 0 ≤ j → j < (ws.sum : Int) → (∃ k, convIndex (.ofInt j) = .ok k ∧ k < (ws.sum : Int)) ∧
        ∀ es, projItem env.st (projectColumns ws.sum es) (.ref (.ofInt j)) = some (.selection (.field j none)) := by
      intro j h3 h4
      refine ⟨⟨j, ?_, h4⟩, ?_⟩
      · simp only [convIndex, ofInt_toI32 (show InI32 j from ⟨by omega, by omega⟩)]
      · intro es
        have h5 : j.toNat < ws.sum := by omega
        have h6 : ((j.toNat : Nat) : Int) = j := by omega
        simp only [projItem, IntTok.toInt_ofInt, projectColumns, at?, h3, if_true]
        rw [List.getElem?_append_left (by simpa using h5)]
        simp [List.getElem?_range h5, inputRef, h6]
    by_cases hi : 0 ≤ i ∧ i < ((ws.sum + exprs.length : Nat) : Int)
    · by_cases hlt : i < (ws.sum : Int)
      · obtain ⟨h3, h4⟩ := refCase i hi.1 hlt
        refine ⟨.ref (.ofInt i), fun _ => ⟨?_, h3, ?_⟩⟩
        · have h5 : colAt (references ws.sum ++ exprs.map (textExpr env.st env.o)) i = textRef i := by
            rw [← references_get (n := ws.sum) ⟨hi.1, hlt⟩ (by omega)]
            simp only [colAt]
            rw [List.getElem?_append_left (by rw [length_references]; omega)]
          rw [h5]
          exact item_projRef i
        · intro es
          rw [h4 es, ← h4 exprs]
          simp only [projItem, IntTok.toInt_ofInt]
      · obtain ⟨e, hx⟩ : ∃ e, exprs[i.toNat - ws.sum]? = some e :=
          ⟨_, List.getElem?_eq_getElem (by omega)⟩
        have hmem : e ∈ exprs := List.mem_of_getElem? hx
        obtain ⟨hf, hb⟩ := he e hmem
        have h5 : colAt (references ws.sum ++ exprs.map (textExpr env.st env.o)) i = textExpr env.st env.o e := by
          simp only [colAt]
          rw [List.getElem?_append_right (by rw [length_references]; omega), length_references, List.getElem?_map, hx]
          rfl
        have h6 : at? (projectColumns ws.sum exprs) i = some e := by
          simp only [at?, hi.1, if_true, projectColumns]
          rw [List.getElem?_append_right (by simp; omega)]
          simpa using hx
        rw [h5, h6]
        by_cases hsel : ∃ j, e = .selection (.field j none)
        · obtain ⟨j, rfl⟩ := hsel
          obtain ⟨h7, h8⟩ := hb j rfl
          obtain ⟨h9, h10⟩ := refCase j h7 h8
          refine ⟨.ref (.ofInt j), fun _ => ⟨?_, h9, h10⟩⟩
          have : (textExpr env.st env.o (.selection (.field j none))).text = refText j := by
            simp [textExpr, textFieldRef, textRef, refText]
          rw [this]
          exact item_projRef j
        · refine ⟨.expr (tree e), fun _ => ⟨?_, ⟨e, (htree e hf).conv⟩, ?_⟩⟩
          · exact item_projExpr hA hst ho.1 hf (htree e hf) fun j hj => hsel ⟨j, hj⟩
          · intro es
            simp only [projItem, (htree e hf).conv]
    · exact ⟨.ref (.ofInt 0), fun h => absurd h hi⟩
  have hcol := fun i => Classical.choose_spec (col i)
  generalize hpt : (fun i => Classical.choose (col i)) = pt
  have hcol : ∀ i : Int, 0 ≤ i ∧ i < ((ws.sum + exprs.length : Nat) : Int) → _ := fun i h => by
    have := hcol i h
    rw [show Classical.choose (col i) = pt i from congrFun hpt i] at this
    exact this
  clear hpt
  have hN : (references ws.sum ++ exprs.map (textExpr env.st env.o)).length = ws.sum + exprs.length := by
    simp [length_references]
  refine ⟨.project ((shown (ws.sum + exprs.length) c).map pt), ?_, ?_⟩
  · intro lvl
    have h3 := pProject_text
      (items := (shown (ws.sum + exprs.length) c).map fun i =>
        ((colAt (references ws.sum ++ exprs.map (textExpr env.st env.o)) i).text, pt i))
      (by
        intro x hx
        obtain ⟨i, hi, rfl⟩ := List.mem_map.1 hx
        exact (hcol i (hr.2 i hi)).1)
    have h4 := implicitCols_text ho.2.2.2 (references ws.sum ++ exprs.map (textExpr env.st env.o)) c
      (by rw [hN]; exact hr.2)
    rw [hN] at h4
    have h5 : headBody env.o lvl (relHead env (ws.map some) (.project c exprs adv)) =
        cs!"Project[" ++ (joinS cs!", " (((shown (ws.sum + exprs.length) c).map
          (colAt (references ws.sum ++ exprs.map (textExpr env.st env.o)))).map Out.text) ++ [']']) := by
      simp only [headBody, relHead, totalWidth_some, h4]
      rfl
    rw [h5]
    refine pRelLine_project ?_
    simpa [Function.comp_def] using h3
  · intro kids hk
    obtain ⟨r, w, rfl⟩ := oneKid hk hl
    subst hk
    simp only [List.map_cons, List.map_nil, List.sum_cons, List.sum_nil, Nat.add_zero] at hr hcol hbound ⊢
    obtain ⟨es, m, h3, h4, h5, hneat⟩ := convProj_ok (n := w) ((shown (w + exprs.length) c).map pt)
      (by
        intro x hx
        obtain ⟨i, hi, rfl⟩ := List.mem_map.1 hx
        exact (hcol i (hr.2 i hi)).2.1) 0
    have h6 := convProj_spec _ 0 es m h3 [] rfl
    simp only [List.append_nil] at h6
    refine ⟨.project (mkCommon (makeEmit m (w + es.length))) es adv', ?_, ?_⟩
    · simp only [convLine, opAddenda, h1, Res.bind, convBody, oneChild, List.map_cons, List.map_nil, List.sum_cons,
        List.sum_nil, Nat.add_zero, h3, outWidth, directWidth, common, h5, List.length_map]
    · simp only [OpEquiv, SameOutputs, List.sum_cons, List.sum_nil, Nat.add_zero]
      refine ⟨⟨?_, hh, h2⟩, ?_⟩
      · have hlen : ∀ l : List Expr, (projectColumns w l).length = w + l.length := by
          intro l; simp [projectColumns]
        rw [hlen, hlen, shown_makeEmit (by simp at h4; omega)]
        have h7 : m.map (at? (projectColumns w es)) =
            ((shown (w + exprs.length) c).map pt).map (projItem env.st (projectColumns w es)) := h6
        rw [h7, List.map_map]
        apply List.map_congr_left
        intro i hi
        exact ((hcol i (hr.2 i hi)).2.2 es).symm
      · simp only [NeatOp, List.sum_cons, List.sum_nil, Nat.add_zero]
        refine ⟨mapping_makeEmit_ne (by simp at h4; omega), ?_⟩
        rw [shown_makeEmit (by simp at h4; omega), List.range_eq_range']
        exact hneat

end Verif
