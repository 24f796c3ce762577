import Verif.Proofs.LinesExactRead
import Verif.Proofs.RelLineVirtual
/-!
# Virtual tables whose lines survive
-/

namespace Verif
open StoreSpec TextSpec RelSpec

set_option autoImplicit false

theorem pRelLine_virtual_eq (s : Str) : pRelLine (cs!"Read:Virtual[" ++ s) = pReadVirtual (cs!"Read:Virtual[" ++ s) := by
  unfold pRelLine
  cases h : pReadVirtual (cs!"Read:Virtual[" ++ s) <;>
    simp [pReadExt, pRead, pProject, pFilter, pAggregate, pSort, pFetch, pJoin, pSet, pCross, pExtRel, pExtKind]

section
variable [FTab]

theorem convExprs_cons {st : Store} {s : SExpr} {l : List SExpr} {e : Expr} {es : List Expr}
    (h : convExprs st (s :: l) = .ok (e :: es)) : convExpr st s = .ok e ∧ convExprs st l = .ok es := by
  rw [convExprs] at h
  obtain ⟨e', h1, h⟩ := Res.bind_ok_iff.1 h
  obtain ⟨l', h2, h⟩ := Res.bind_ok_iff.1 h
  cases h
  exact ⟨h1, h2⟩

theorem convExprLists_cons {st : Store} {s : List SExpr} {l : List (List SExpr)} {e : List Expr} {es : List (List Expr)}
    (h : convExprLists st (s :: l) = .ok (e :: es)) : convExprs st s = .ok e ∧ convExprLists st l = .ok es := by
  rw [convExprLists] at h
  obtain ⟨e', h1, h⟩ := Res.bind_ok_iff.1 h
  obtain ⟨l', h2, h⟩ := Res.bind_ok_iff.1 h
  cases h
  exact ⟨h1, h2⟩

theorem convExprLists_empty {st : Store} {l : List (List SExpr)} (h : convExprLists st l = .ok []) : l = [] := by
  cases l with
  | nil => rfl
  | cons s l =>
    rw [convExprLists] at h
    obtain ⟨e', h1, h⟩ := Res.bind_ok_iff.1 h
    obtain ⟨l', h2, h⟩ := Res.bind_ok_iff.1 h
    cases h

end

section
variable [UTab] [FTab] (hA : AsciiPrintable) (hF : FloatsShown) {h : List Op} {o : Opts} {reg : Registry ExtArgs (List Nat)}

include hA hF in
theorem survivor_tree {e : Expr} (hs : SurvivesExpr (run h) o e) : ∃ s, ExprTree (run h) o e s := by
  obtain ⟨s, h1, h2⟩ := survivor hA hs
  obtain ⟨c, t, hx, hc⟩ := survivor_starts hA hF hs
  have h3 := h2 [] ⟨NextNot.nil _, NextNot.nil _⟩
  refine ⟨s, h1, ⟨c, t, hx, hc, ?_, ?_⟩, h2⟩
  · rintro rfl
    rw [hx, List.append_nil, pExpr, pExprN_none (by decide) (by decide) (by decide) (by decide)] at h3
    cases h3
  · rintro rfl
    rw [hx, List.append_nil, pExpr, pExprN_none (by decide) (by decide) (by decide) (by decide)] at h3
    cases h3

/-! ## Rows -/

omit hA hF [UTab] [FTab] in
theorem commaSp_skip (x : Str) : commaSp (cs!", " ++ x) = some (skipSp x) := by
  unfold commaSp
  simp only [List.cons_append, List.nil_append, lit_cons, lit_nil, if_true, Option.map_some]
  rw [skipSp_space]

include hA hF in
theorem row_star (rest : Str) : ∀ (es : List Expr) (fuel : Nat) (l : List SExpr) (r : Str),
    pStarN commaSp pExpr fuel ((es.map fun e => (textExpr (run h) o e).text).flatMap (cs!", " ++ ·) ++ ')' :: rest) = (l, r) →
    convExprs (run h) l = .ok es → (∀ e ∈ es, SurvivesExpr (run h) o e) ∧ r = ')' :: rest
  | [], fuel, l, r, hp, _ => by
    rw [List.map_nil, List.flatMap_nil, List.nil_append, pStarN_stop _ _ _ (commaSp_stop (by decide))] at hp
    cases hp
    exact ⟨fun e he => (nomatch he), rfl⟩
  | e :: es, fuel, l, r, hp, hc => by
    cases l with
    | nil => cases hc
    | cons s l =>
      obtain ⟨k1, k2⟩ := convExprs_cons hc
      cases fuel with
      | zero => simp [pStarN] at hp
      | succ fuel =>
        rw [List.map_cons, List.flatMap_cons, List.append_assoc, List.append_assoc, pStarN, commaSp_skip] at hp
        simp only at hp
        split at hp
        · cases hp
        · next a s2 he =>
          simp only [Prod.mk.injEq, List.cons.injEq] at hp
          obtain ⟨⟨rfl, hss⟩, hr⟩ := hp
          obtain ⟨g1, rfl⟩ := expr_in_line_skip hA hF (flat_exprFollow _ _) he k1
          obtain ⟨g2, g3⟩ := row_star rest es fuel _ _ (Prod.ext hss hr) k2
          refine ⟨?_, g3⟩
          intro y hy
          rcases List.mem_cons.1 hy with rfl | hy
          · exact g1
          · exact g2 y hy

include hA hF in
/-- A row that is read from a line has expressions that survive, and it is read as a whole. -/
theorem row_in_line {es : List Expr} {rest r : Str} {l : List SExpr} (hp : pRow (rowStr (run h) o es ++ rest) = some (l, r))
    (hc : convExprs (run h) l = .ok es) : (∀ e ∈ es, SurvivesExpr (run h) o e) ∧ r = rest := by
  have h3 : rowStr (run h) o es ++ rest = cs!"(" ++ (exprsText (run h) o es ++ ')' :: rest) := by simp [rowStr]
  rw [h3] at hp
  unfold pRow at hp
  rw [lit_append] at hp
  simp only [Option.bind_eq_bind, Option.bind_some, Option.bind_eq_some_iff] at hp
  obtain ⟨s1, h4, h5⟩ := hp
  cases h5
  have hclose : ∀ y : Str, skipSp (')' :: y) = ')' :: y := fun y => skipSp_cons _ _ (by decide)
  cases es with
  | nil =>
    refine ⟨fun e he => (nomatch he), ?_⟩
    have h1 : pExprList (')' :: rest) = none := by
      have : pExpr (')' :: rest) = none := pExprN_none (by decide) (by decide) (by decide) (by decide) _
      simp [pExprList, this]
    simp only [exprsText, List.map_nil, joinS, List.nil_append, hclose, pOpt, h1] at h4
    simpa [lit] using h4.symm
  | cons e es =>
    have htx : exprsText (run h) o (e :: es) ++ ')' :: rest = (textExpr (run h) o e).text ++
        ((es.map fun e => (textExpr (run h) o e).text).flatMap (cs!", " ++ ·) ++ ')' :: rest) := by
      simp only [exprsText, List.map_cons, joinS_cons, List.append_assoc]
    rw [htx] at hc h4
    cases hq : pExprList (skipSp ((textExpr (run h) o e).text ++
        ((es.map fun e => (textExpr (run h) o e).text).flatMap (cs!", " ++ ·) ++ ')' :: rest))) with
    | none =>
      simp only [pOpt, hq, Option.getD_none] at hc
      cases hc
    | some y =>
      obtain ⟨l, s2⟩ := y
      simp only [pOpt, hq, Option.getD_some] at hc h4
      unfold pExprList at hq
      simp only [Option.bind_eq_bind, Option.bind_eq_some_iff] at hq
      obtain ⟨⟨s, s3⟩, h6, h7⟩ := hq
      simp only [Option.some.injEq, Prod.mk.injEq] at h7
      obtain ⟨rfl, rfl⟩ := h7
      obtain ⟨k1, k2⟩ := convExprs_cons hc
      obtain ⟨g1, rfl⟩ := expr_in_line_skip hA hF (flat_exprFollow _ _) h6 k1
      have hskip : skipSp ((es.map fun e => (textExpr (run h) o e).text).flatMap (cs!", " ++ ·) ++ ')' :: rest) =
          (es.map fun e => (textExpr (run h) o e).text).flatMap (cs!", " ++ ·) ++ ')' :: rest := by
        cases es with
        | nil => exact hclose _
        | cons a l => exact skipSp_cons _ _ (by decide)
      rw [hskip] at k2 h4
      obtain ⟨g2, g3⟩ := row_star hA hF rest es _ _ _ (Prod.ext rfl rfl) k2
      rw [g3, hclose] at h4
      refine ⟨?_, by simpa [lit] using h4.symm⟩
      intro y hy
      rcases List.mem_cons.1 hy with rfl | hy
      · exact g1
      · exact g2 y hy

include hA hF in
theorem rows_star {opn sep arr : Str} (hL : Layout opn sep arr) {fs : Str} (hstop : ∀ n, pStarN relComma pRow n fs = ([], fs)) :
    ∀ (rows : List (List Expr)) (fuel : Nat) (l : List (List SExpr)) (r : Str),
    pStarN relComma pRow fuel ((rows.map (rowStr (run h) o)).flatMap (sep ++ ·) ++ fs) = (l, r) →
    convExprLists (run h) l = .ok rows → (∀ r ∈ rows, ∀ e ∈ r, SurvivesExpr (run h) o e) ∧ r = fs
  | [], fuel, l, r, hp, _ => by
    rw [List.map_nil, List.flatMap_nil, List.nil_append, hstop] at hp
    cases hp
    exact ⟨fun e he => (nomatch he), rfl⟩
  | e :: es, fuel, l, r, hp, hc => by
    cases l with
    | nil => cases hc
    | cons s l =>
      obtain ⟨k1, k2⟩ := convExprLists_cons hc
      cases fuel with
      | zero => simp [pStarN] at hp
      | succ fuel =>
        rw [List.map_cons, List.flatMap_cons, List.append_assoc, List.append_assoc, pStarN,
          hL.comma _ (by simp only [rowStr, List.cons_append]; exact solid_cons (by decide))] at hp
        simp only at hp
        split at hp
        · cases hp
        · next a s2 he =>
          simp only [Prod.mk.injEq, List.cons.injEq] at hp
          obtain ⟨⟨rfl, hss⟩, hr⟩ := hp
          obtain ⟨g1, rfl⟩ := row_in_line hA hF he k1
          obtain ⟨g2, g3⟩ := rows_star hL hstop es fuel _ _ (Prod.ext hss hr) k2
          refine ⟨?_, g3⟩
          intro y hy
          rcases List.mem_cons.1 hy with rfl | hy
          · exact g1
          · exact g2 y hy

include hA hF in
/-- What is read from the arguments of a virtual table. -/
theorem virtual_read {opn sep arr : Str} (hL : Layout opn sep arr) {rows : List (List Expr)} {filter : Option Expr}
    {cols : List (Str × Ty)} {rows' : List (List SExpr)} {filter' : Option SExpr} {cols' : List SColumn} {r : Str}
    (hp : pReadVirtual (cs!"Read:Virtual" ++ ('[' :: (opn ++ (joinS sep (virtualArgs (run h) o rows filter) ++
      (arr ++ (columnsStr (run h) o cols ++ [']'])))))) = some (.readVirtual rows' filter' cols', r))
    (hr : convExprLists (run h) rows' = .ok rows) (hf : convOpt (convExpr (run h)) filter' = .ok filter)
    (hc : convColumns (run h) cols' = .ok cols) :
    (∀ r ∈ rows, ∀ e ∈ r, SurvivesExpr (run h) o e) ∧ (∀ e, filter = some e → SurvivesExpr (run h) o e) ∧
      ∀ c ∈ cols, Spellable c.1 ∧ SurvivesTy (run h) o.anchors c.2 := by
  have hnext := columnsStr_next (run h) o cols []
  have harrow := hL.arrow (columnsStr (run h) o cols ++ [']']) hnext
  have hcomma := hL.noComma (columnsStr (run h) o cols ++ [']'])
  have hfollow := hL.follow (columnsStr (run h) o cols ++ [']'])
  generalize hcl : arr ++ (columnsStr (run h) o cols ++ [']']) = close at *
  let fs : Str := (filter.toList.flatMap fun e => sep ++ (cs!"filter=" ++ (textExpr (run h) o e).text)) ++ close
  have hjoin : joinS sep (virtualArgs (run h) o rows filter) ++ close =
      joinS sep (if rows = [] then [cs!"_"] else rows.map (rowStr (run h) o)) ++ fs := by
    simp only [virtualArgs, fs]
    split
    · cases filter <;> simp [joinS_cons]
    · cases rows with
      | nil => contradiction
      | cons r l => cases filter <;> simp [joinS_cons]
  have hstop : ∀ n, pStarN relComma pRow n fs = ([], fs) := by
    cases filter with
    | none => exact pStarN_stop _ _ _ (by simpa [fs] using hcomma)
    | some e =>
      refine pStarN_stop2 relComma pRow fs (cs!"filter=" ++ ((textExpr (run h) o e).text ++ close)) ?_ (pRow_none (by decide))
      have := hL.comma (cs!"filter=" ++ ((textExpr (run h) o e).text ++ close)) (solid_cons (by decide))
      simpa [fs] using this
  have hopen : relOpen ('[' :: (opn ++ (joinS sep (virtualArgs (run h) o rows filter) ++ close))) =
      some (joinS sep (if rows = [] then [cs!"_"] else rows.map (rowStr (run h) o)) ++ fs) := by
    rw [hjoin]
    apply hL.open_
    split
    · exact solid_cons (by decide)
    · cases rows with
      | nil => contradiction
      | cons r l =>
        simp only [List.map_cons, joinS_cons, List.append_assoc, rowStr, List.cons_append]
        exact solid_cons (by decide)
  unfold pReadVirtual at hp
  rw [lit_append] at hp
  simp only [Option.bind_eq_bind, Option.bind_some, hopen, Option.bind_eq_some_iff] at hp
  obtain ⟨⟨rows2, s1⟩, h1, s2, h2, s3, h3, s4, h4, h5⟩ := hp
  simp only [Option.some.injEq, Prod.mk.injEq, SLine.readVirtual.injEq] at h5
  obtain ⟨⟨rfl, hfe, hce⟩, -⟩ := h5
  -- the rows
  have hrows : (∀ r ∈ rows, ∀ e ∈ r, SurvivesExpr (run h) o e) ∧ s1 = fs := by
    cases rows with
    | nil =>
      refine ⟨fun r hr => (nomatch hr), ?_⟩
      have h0 : pSep1 relComma pRow ('_' :: fs) = none := by simp [pSep1, pRow_none (c := '_') (by decide)]
      simp only [if_true, joinS, pRows, List.cons_append, List.nil_append, h0, Option.none_or, lit_cons, lit_nil, Option.map_some] at h1
      cases h1
      rfl
    | cons row rows =>
      rw [if_neg (by simp), List.map_cons, joinS_cons, List.append_assoc] at h1
      unfold pRows at h1
      rcases or_some h1 with h1 | ⟨-, h1⟩
      · unfold pSep1 at h1
        cases hq : pRow (rowStr (run h) o row ++ ((rows.map (rowStr (run h) o)).flatMap (sep ++ ·) ++ fs)) with
        | none => rw [hq] at h1; cases h1
        | some y =>
          obtain ⟨a, s5⟩ := y
          rw [hq] at h1
          simp only [Option.some.injEq, Prod.mk.injEq] at h1
          obtain ⟨rfl, hs⟩ := h1
          obtain ⟨k1, k2⟩ := convExprLists_cons hr
          obtain ⟨g1, rfl⟩ := row_in_line hA hF hq k1
          obtain ⟨g2, g3⟩ := rows_star hA hF hL hstop rows _ _ s1 (Prod.ext rfl hs) k2
          refine ⟨?_, g3⟩
          intro y hy
          rcases List.mem_cons.1 hy with rfl | hy
          · exact g1
          · exact g2 y hy
      · simp [rowStr, lit] at h1
  obtain ⟨g1, rfl⟩ := hrows
  -- the filter
  have hfil : (∀ e, filter = some e → SurvivesExpr (run h) o e) ∧ (pOpt pCommaFilter fs).2 = close := by
    cases hfil : filter with
    | none =>
      have : fs = close := by simp [fs, hfil]
      rw [this]
      exact ⟨fun e he => (nomatch he), by simp [pOpt, pCommaFilter, hcomma]⟩
    | some e =>
      have hfs : fs = sep ++ (cs!"filter=" ++ ((textExpr (run h) o e).text ++ close)) := by simp [fs, hfil]
      have hcf : pCommaFilter fs = pExpr (skipSp ((textExpr (run h) o e).text ++ close)) := by
        have h6 : Solid (cs!"filter=" ++ ((textExpr (run h) o e).text ++ close)) := solid_cons (by decide)
        rw [hfs, pCommaFilter, hL.comma _ h6]
        simp only [Option.bind_eq_bind, Option.bind_some]
        unfold pVFilter
        rw [show cs!"filter=" ++ ((textExpr (run h) o e).text ++ close) = cs!"filter" ++ ('=' :: ((textExpr (run h) o e).text ++ close)) from rfl,
          lit_append]
        simp only [Option.bind_eq_bind, Option.bind_some]
        rw [skipSp_cons _ _ (by decide), lit_one]
        rfl
      rw [hfil] at hf
      cases hq : pExpr (skipSp ((textExpr (run h) o e).text ++ close)) with
      | none =>
        rw [hq] at hcf
        have : (pOpt pCommaFilter fs).1 = none := by simp [pOpt, hcf]
        rw [this] at hfe
        subst hfe
        cases hf
      | some y =>
        obtain ⟨s, s5⟩ := y
        rw [hq] at hcf
        have hopt : pOpt pCommaFilter fs = (some s, s5) := by simp [pOpt, hcf]
        rw [hopt] at hfe
        simp only at hfe
        subst hfe
        have hs : convExpr (run h) s = .ok e := by
          obtain ⟨b, hb, hb2⟩ := Res.bind_ok_iff.1 hf
          cases hb2
          exact hb
        obtain ⟨q1, rfl⟩ := expr_in_line_skip hA hF hfollow hq hs
        refine ⟨?_, by rw [hopt]⟩
        rintro x ⟨⟩
        exact q1
  obtain ⟨g2, g3⟩ := hfil
  rw [g3, harrow] at h2
  cases h2
  refine ⟨g1, g2, ?_⟩
  rw [← skipSp_of_not _ hnext] at hce
  subst hce
  exact columns_in_line hA (rest := [']']) ((nextNot_cons _ _ _).2 (by decide)) rfl hc

/-! ## The line -/

omit hA hF in
theorem lineText_eq (env : Env) (lvl : Nat) (ws : List (Option Nat)) (op : RelOp) :
    lineText env lvl ws op = headBody env.o lvl (relHead env ws op) := by
  rw [lineText, textHeader_text, List.drop_left]

omit hA hF in
/-- Lines without rows are the same at every depth. -/
theorem lineText_flat (env : Env) (lvl : Nat) (ws : List (Option Nat)) (op : RelOp) (h : ∀ r n, (relHead env ws op).args ≠ .rows r n) :
    lineText env lvl ws op = (textHeader env.o 0 (relHead env ws op)).text := by
  rw [lineText_eq, line_text]
  unfold headBody
  split
  · rfl
  · rfl
  · rename_i hx; exact absurd hx (h _ _)

omit hA hF in
theorem virtual_text (hi : o.indent = cs!"  ") (lvl : Nat) (ws : List (Option Nat)) (c : Option Common)
    {cols : List (Str × Ty)} {filter : Option Expr} {rows : List (List Expr)} {adv : Option AdvExt} (hm : mapping c = none) :
    ∃ opn sep arr, Layout opn sep arr ∧ lineText ⟨run h, o, reg⟩ lvl ws
        (.read c (some ⟨cols.map (·.1), some ⟨cols.map (·.2), 0, .required⟩⟩) filter (.virtual rows 0) adv 0) =
      cs!"Read:Virtual" ++ ('[' :: (opn ++ (joinS sep (virtualArgs (run h) o rows filter) ++
      (arr ++ (columnsStr (run h) o cols ++ [']']))))) := by
  rw [lineText_eq]
  have hcols := readColumns_text (run h) o cols
  by_cases hlay : 0 < rows.length ∧ o.vthreshold ≤ rows.length
  · have hne : rows ≠ [] := by intro h; simp [h] at hlay
    refine ⟨_, _, _, layout_rows (2 * (lvl + 1)), ?_⟩
    simp only [relHead, headRead]
    rw [if_pos hlay]
    simp only [headBody]
    rw [textOutput_implicit _ _ rfl]
    simp only [implicitCols_direct _ _ hm, hcols, indentAt_spaces hi]
    rw [if_neg (by simp [hne])]
    rw [textRows_text _ _ _ (by simpa using hne)]
    cases filter with
    | none =>
      cases rows with
      | nil => contradiction
      | cons r l =>
      simp [virtualArgs, textRows, columnsStr, Function.comp_def, tuple_text]
    | some e =>
      cases rows with
      | nil => contradiction
      | cons r l =>
      rw [textRows_text _ _ _ (by simp)]
      simp [virtualArgs, joinS_cons, columnsStr, Function.comp_def, tuple_text, textNamedArg]
  · refine ⟨_, _, _, layout_inline, ?_⟩
    simp only [relHead, headRead]
    rw [if_neg hlay]
    simp only [headBody]
    rw [textOutput_implicit _ _ rfl]
    simp only [implicitCols_direct _ _ hm, hcols]
    cases rows with
    | nil => cases filter <;> simp [textArgList, virtualArgs, columnsStr, joinS, Out.text_sep, textNamedArg]
    | cons r l =>
      cases filter <;>
        simp [textArgList, virtualArgs, columnsStr, joinS_cons, Out.text_sep, textNamedArg, Function.comp_def, tuple_text]

include hA hF in
theorem virtual_keptAt (hi : o.indent = cs!"  ") (lvl : Nat) (kids : List (Rel × Nat)) (c : Option Common) (schema : Option NamedStruct)
    (filter : Option Expr) (rows : List (List Expr)) (k rest : Nat) :
    (LineBackAt ⟨run h, o, reg⟩ lvl kids (.read c schema filter (.virtual rows k) none rest) → SurvivesLine (run h) o (kids.map (·.2)) (.read c schema filter (.virtual rows k) none rest)) ∧
      (SurvivesLine (run h) o (kids.map (·.2)) (.read c schema filter (.virtual rows k) none rest) → LineKeptAt ⟨run h, o, reg⟩ lvl kids (.read c schema filter (.virtual rows k) none rest)) := by
  constructor
  · rintro ⟨line, rst, op', ins, w, h1, h2, h3⟩
    simp only at h1 h2
    have hpre : ∃ x, lineText ⟨run h, o, reg⟩ lvl (kids.map fun k => some k.2)
        (.read c schema filter (.virtual rows k) none rest) = cs!"Read:Virtual[" ++ x := by
      rw [lineText_eq]
      simp only [relHead, headRead]
      split
      · exact ⟨_, rfl⟩
      · exact ⟨_, rfl⟩
    obtain ⟨x, hx⟩ := hpre
    have h0 := h1
    rw [hx, pRelLine_virtual_eq] at h0
    have hpv := h0
    unfold pReadVirtual at h0
    simp only [Option.bind_eq_bind, Option.bind_eq_some_iff] at h0
    obtain ⟨_, -, _, -, _, -, _, -, _, -, _, -, h5⟩ := h0
    cases h5
    simp only [convLine, standardAdv_nil, Res.bind, convBody] at h2
    split at h2
    · cases h2
    rename_i hk
    obtain ⟨f, k1, h2⟩ := Res.bind_ok_iff.1 h2
    obtain ⟨rows2, k2, h2⟩ := Res.bind_ok_iff.1 h2
    obtain ⟨cols, k3, h2⟩ := Res.bind_ok_iff.1 h2
    cases h2
    simp only [OpEquiv] at h3
    obtain ⟨g1, g2, rfl, rfl, g5, -, rfl⟩ := h3
    injection g5 with g5 g6
    subst g6
    subst g5
    have hkids : kids = [] := by simpa using hk
    subst hkids
    have hm : mapping c = none := by rw [g1]; rfl
    obtain ⟨opn, sep, arr, hL, htx⟩ := virtual_text (h := h) (o := o) (reg := reg) hi lvl (([] : List (Rel × Nat)).map fun k => some k.2) c
      (cols := cols) (filter := filter) (rows := rows) (adv := none) hm
    rw [dropPanics_ok] at k1
    rw [plain_ok] at k2 k3
    have hx' := hx
    simp only [buildStruct] at hx'
    rw [htx] at hx'
    rw [← hx'] at hpv
    obtain ⟨q1, q2, q3⟩ := virtual_read hA hF hL hpv k2 k1 k3
    exact ⟨rfl, g2, rfl, rfl, hm, q1, q2, cols, rfl, q3⟩
  · rintro ⟨hk, hh, rfl, rfl, hm, hr, hf, ⟨cols, rfl, hcols⟩⟩
    have hkids : kids = [] := by simpa using hk
    subst hkids
    obtain ⟨treeT, h1, h2⟩ := columns_read h o hcols
    obtain ⟨tree, htree⟩ : ∃ tree : Expr → SExpr, ∀ e, SurvivesExpr (run h) o e → ExprTree (run h) o e (tree e) := by
      have : ∀ e, ∃ s, SurvivesExpr (run h) o e → ExprTree (run h) o e s := by
        intro e
        by_cases he : SurvivesExpr (run h) o e
        · obtain ⟨s, hs⟩ := survivor_tree hA hF he
          exact ⟨s, fun _ => hs⟩
        · exact ⟨.ref (.ofInt 0), fun h => absurd h he⟩
      exact ⟨fun e => Classical.choose (this e), fun e => Classical.choose_spec (this e)⟩
    obtain ⟨opn, sep, arr, hL, htx⟩ := virtual_text (h := h) (o := o) (reg := reg) hi lvl (([] : List (Rel × Nat)).map fun k => some k.2) c
      (cols := cols) (filter := filter) (rows := rows) (adv := none) hm
    refine ⟨.readVirtual (rows.map (·.map tree)) (filter.map tree) (cols.map fun c => (c.1, treeT c.2)), [],
      .read (mkCommon .direct) (some (buildStruct cols)) filter (.virtual rows 0) none 0, [], cols.length, by simp, by simp [outWidth, directWidth, common, shown, identity, hm], ?_, ?_, ?_⟩
    · rw [htx]
      have := pReadVirtual_text hL (fun r hr' e he => htree e (hr r hr' e he)) (fun e he => htree e (hf e he)) h1
      rw [← this]
      exact pRelLine_virtual_eq _
    · have hconv2 := convExprLists_map (st := run h) (tree := tree) (rows := rows) fun r hr' e he => (htree e (hr r hr' e he)).conv
      have hconv3 : convOpt (convExpr (run h)) (filter.map tree) = .ok filter := by
        cases filter with
        | none => rfl
        | some e => simp [convOpt, (htree e (hf e rfl)).conv, Res.bind, Res.map]
      simp [convLine, standardAdv_nil, Res.bind, convBody, h2, hconv2, hconv3, plain, dropPanics]
    · exact ⟨hm, hh, rfl, rfl, rfl, rfl, rfl⟩

include hA hF in
theorem virtual_kept (hi : o.indent = cs!"  ") (kids : List (Rel × Nat)) (c : Option Common) (schema : Option NamedStruct)
    (filter : Option Expr) (rows : List (List Expr)) (k rest : Nat) :
    (LineBack ⟨run h, o, reg⟩ kids (.read c schema filter (.virtual rows k) none rest) → SurvivesLine (run h) o (kids.map (·.2)) (.read c schema filter (.virtual rows k) none rest)) ∧
      (SurvivesLine (run h) o (kids.map (·.2)) (.read c schema filter (.virtual rows k) none rest) → LineKept ⟨run h, o, reg⟩ kids (.read c schema filter (.virtual rows k) none rest)) :=
  virtual_keptAt hA hF hi 0 kids c schema filter rows k rest

include hA hF in
theorem virtual_exact (hi : o.indent = cs!"  ") (kids : List (Rel × Nat)) (c : Option Common) (schema : Option NamedStruct)
    (filter : Option Expr) (rows : List (List Expr)) (k rest : Nat) :
    LineBack ⟨run h, o, reg⟩ kids (.read c schema filter (.virtual rows k) none rest) ↔ SurvivesLine (run h) o (kids.map (·.2)) (.read c schema filter (.virtual rows k) none rest) :=
  ⟨(virtual_kept hA hF hi kids c schema filter rows k rest).1, fun hs => kept_back ((virtual_kept hA hF hi kids c schema filter rows k rest).2 hs)⟩

end
end Verif
