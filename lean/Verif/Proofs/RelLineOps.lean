import Verif.Proofs.RelLineRT
import Verif.Proofs.ExprHead
/-!
# Sort, fetch and join lines, read back
-/

namespace Verif
open StoreSpec TextSpec RelSpec

set_option autoImplicit false

/-! ### Sort -/

/-- Text of a sort field. -/
def sortStr [UTab] [FTab] (st : Store) (o : Opts) (e : Expr) (d : Str) : Str :=
  '(' :: ((textExpr st o e).text ++ (cs!", &" ++ (d ++ [')'])))

theorem item_sort [UTab] [FTab] {st : Store} {o : Opts} {e : Expr} {s : SExpr} (h : ExprTree st o e s) {d : Str}
    (hd : firstOf (cs!"&" ++ d) sortNames = true) :
    Item (fun _ => True) pSortField (sortStr st o e d) (s, cs!"&" ++ d) := by
  refine ⟨⟨_, _, rfl, by decide⟩, fun rest _ => ?_⟩
  have h1 := h.read (cs!", &" ++ (d ++ [')']) ++ rest) (exprFollow_comma _)
  have h2 : pFirst sortNames ((cs!"&" ++ d) ++ ')' :: rest) = some (cs!"&" ++ d, ')' :: rest) :=
    pFirst_firstOf hd ((nextNot_cons _ _ _).2 (by decide))
  have h3 : skipSp ((textExpr st o e).text ++ (cs!", &" ++ (d ++ [')']) ++ rest)) =
      (textExpr st o e).text ++ (cs!", &" ++ (d ++ [')']) ++ rest) := h.starts.skip _
  have h4 : sortStr st o e d ++ rest = cs!"(" ++ ((textExpr st o e).text ++ (cs!", &" ++ (d ++ [')']) ++ rest)) := by
    simp [sortStr]
  rw [h4]
  unfold pSortField
  rw [lit_append]
  simp only [Option.bind_eq_bind, Option.bind_some, h3, h1]
  simp only [List.cons_append, List.nil_append, List.append_assoc] at h2 ⊢
  rw [skipSp_cons _ _ (by decide)]
  simp only [lit, if_true, Option.bind_some, skipSp_space]
  rw [skipSp_cons _ _ (by decide), h2]
  simp only [Option.bind_some]
  rw [skipSp_cons _ _ (by decide)]
  simp [lit]

/-- The direction of a sort field, as it is written. -/
def dirName (f : SortField) : Str :=
  match f.kind with
  | some (.direction (.known d)) => d.spell.getD []
  | _ => []

/-- Its expression. -/
def sortExpr (f : SortField) : Expr := f.expr.getD .missing

theorem sortOk_parts [UTab] [FTab] {st : Store} {o : Opts} {f : SortField} (h : SortOk st f) :
    Faithful st (sortExpr f) ∧ firstOf (cs!"&" ++ dirName f) sortNames = true ∧
      (∃ d, SortDir.ofName (trimAmp (cs!"&" ++ dirName f)) = some d ∧
        f = ⟨some (sortExpr f), some (.direction (.known d))⟩) ∧
      (textSortField st o f).text = sortStr st o (sortExpr f) (dirName f) := by
  obtain ⟨e, d, rfl, h1, h2, h3⟩ := h
  refine ⟨h1, ?_, ⟨d, ?_, rfl⟩, ?_⟩
  · cases d <;> first | exact absurd rfl h2 | exact absurd rfl h3 | (simp only [dirName, SortDir.spell, Option.getD_some]; decide)
  · cases d <;> first | exact absurd rfl h2 | exact absurd rfl h3 | (simp only [dirName, SortDir.spell, Option.getD_some]; decide)
  · cases d <;> first
      | exact absurd rfl h2
      | exact absurd rfl h3
      | simp [textSortField, textTuple, Out.expect, textSortKind, textVariant, SortDir.spell, sortStr, sortExpr, dirName,
          Out.sep]

theorem convSortFields_map [UTab] [FTab] {st : Store} {o : Opts} {tree : Expr → SExpr} {l : List SortField}
    (h : ∀ f ∈ l, SortOk st f) (ht : ∀ e, Faithful st e → ExprTree st o e (tree e)) :
    convSortFields st (l.map fun f => (tree (sortExpr f), cs!"&" ++ dirName f)) = .ok l := by
  induction l with
  | nil => rfl
  | cons f l ih =>
    obtain ⟨h1, _, ⟨d, h2, h3⟩, _⟩ := sortOk_parts (o := o) (h f (by simp))
    simp only [List.map_cons, convSortFields, convSortField, (ht _ h1).conv, h2, dropPanics, Res.bind,
      ih fun x hx => h x (by simp [hx])]
    rw [← h3]

theorem pSort_text {items : List (Str × (SExpr × Str))} {m : List Int}
    (h : ∀ i ∈ items, Item (fun _ => True) pSortField i.1 i.2) :
    pSort (cs!"Sort[" ++ (joinS cs!", " (items.map (·.1)) ++ tailText m)) =
      some (.sort (items.map (·.2)) (m.map IntTok.ofInt), []) := by
  have h1 := pSep_items (sep := spCommaSp) items (tailText m) h spCommaSp_join (fun _ => trivial) trivial
    (pStarN_stop _ _ _ (spCommaSp_tail m)) (by simp [pSortField, tailText])
  unfold pSort
  rw [lit_append]
  simp [h1, pArrow_tail, pRefsClose_text]

theorem lineRT_sort [UTab] [FTab] (hA : AsciiPrintable) {env : Env} (hst : env.st.Ordered) (ho : Readable env.o)
    {ws : List Nat} {c : Option Common} {sorts : List SortField} {adv : Option AdvExt}
    (hl : ws.length = 1) (h : OpOk env ws (.sort c sorts adv)) : LineRT env ws (.sort c sorts adv) := by
  obtain ⟨hh, hne, hs, hr, ha⟩ := h
  obtain ⟨tree, htree⟩ := exprTrees hA hst env.o ho.1 ho.2.1
  obtain ⟨adv', h1, h2⟩ := standardAdv_advList ha
  refine ⟨.sort (sorts.map fun f => (tree (sortExpr f), cs!"&" ++ dirName f)) ((shown ws.sum c).map IntTok.ofInt), ?_, ?_⟩
  · intro lvl
    rw [headBody_tail (n := ws.sum) (c := c) ho.2.2.2 lvl _ _ _ rfl rfl (by simp [relHead, totalWidth_some]) rfl hr]
    have h3 := pSort_text (m := shown ws.sum c)
      (items := sorts.map fun f => (sortStr env.st env.o (sortExpr f) (dirName f), (tree (sortExpr f), cs!"&" ++ dirName f)))
      (by
        intro i hi
        obtain ⟨f, hf, rfl⟩ := List.mem_map.1 hi
        obtain ⟨h4, h5, _⟩ := sortOk_parts (o := env.o) (hs f hf)
        exact item_sort (htree _ h4) h5)
    have h6 : (textArgList (sorts.map (textSortField env.st env.o)) []).text =
        joinS cs!", " (sorts.map fun f => sortStr env.st env.o (sortExpr f) (dirName f)) := by
      simp only [textArgList, List.map_eq_nil_iff, hne, false_and, if_false, List.append_nil, Out.text_sep, List.map_map]
      congr 1
      apply List.map_congr_left
      intro f hf
      exact (sortOk_parts (hs f hf)).2.2.2
    rw [h6]
    refine pRelLine_sort ?_
    simpa [Function.comp_def] using h3
  · intro kids hk
    obtain ⟨r, w, rfl⟩ := oneKid hk hl
    subst hk
    simp only [List.map_cons, List.map_nil, List.sum_cons, List.sum_nil, Nat.add_zero] at hr ⊢
    refine ⟨.sort (mkCommon (makeEmit (shown w c) w)) sorts adv', ?_, ?_⟩
    · have h7 := convSortFields_map hs htree
      simp [convLine, opAddenda, h1, Res.bind, convBody, oneChild, h7,
        convEmit_text (n := w) (InRange.i32 hr), outWidth, directWidth, common] at h7 ⊢
    · simp only [OpEquiv, List.sum_cons, List.sum_nil, Nat.add_zero]
      exact ⟨⟨(shown_makeEmit (by have := hr.1; omega)).symm, hh, trivial, h2⟩, mapping_makeEmit_ne (by have := hr.1; omega)⟩

/-! ### Fetch -/

theorem litContinues_digit {s : Str} (h : ExprFollow s) : NextNot isDigit s :=
  NextNot.mono h.1 fun c hc => by simp [litContinues, typeContinues, isIdentChar, isAlnum, hc]

theorem number_text [UTab] [FTab] (st : Store) {o : Opts} (h : o.litTypes = .required) (i : Int) :
    (textExpr st o (number i)).text = decInt i := by
  simp [number, textExpr, textLit, textValue, showSuffix, h, Lit.isDefault]

theorem decInt_starts (i : Int) : Starts (decInt i) := by
  have h := pInteger_decInt i [] (NextNot.nil _)
  rw [List.append_nil] at h
  obtain ⟨c, t, h1, h2⟩ := pInteger_start h
  refine ⟨c, t, h1, ?_⟩
  rintro rfl
  exact absurd h2 (by decide)

theorem fetchTree [UTab] [FTab] (hA : AsciiPrintable) {st : Store} (hst : st.Ordered) {o : Opts}
    (ho : o.anchors ≠ .never) (hl : o.litTypes ≠ .never) (c : Count) (h : CountOk st o c) :
    ∃ v, Item ExprFollow pFetchValue (textCount st o c).text v ∧ convFetchValue st v = .ok (.expr (amount c)) := by
  have key : ∀ i : Int, 0 ≤ i → i < 2 ^ 63 → Item ExprFollow pFetchValue (decInt i) (.int (.ofInt i)) ∧
      convFetchValue st (.int (.ofInt i)) = .ok (.expr (number i)) := by
    intro i h1 h2
    refine ⟨⟨decInt_starts i, fun rest hr => ?_⟩, ?_⟩
    · simp [pFetchValue, pInteger_decInt i rest (litContinues_digit hr), mapFst]
    · have : (IntTok.ofInt i).toI64 = some i := ofInt_toI64 ⟨by omega, h2⟩
      simp only [convFetchValue, this]
      rw [if_neg (by omega)]
      rfl
  cases c with
  | deprecated i =>
    obtain ⟨h1, h2⟩ := key i h.1 h.2
    exact ⟨_, h1, h2⟩
  | expr e =>
    rcases h with ⟨hr, i, rfl, h1, h2⟩ | ⟨hf, hn⟩
    · obtain ⟨h3, h4⟩ := key i h1 h2
      refine ⟨_, ?_, h4⟩
      simpa only [textCount, number_text st hr] using h3
    · obtain ⟨tree, htree⟩ := exprTrees hA hst o ho hl
      have ht := htree e hf
      obtain ⟨c, t, h1, _, _, h2⟩ := expr_head_kind hA hst o ho e hf
      refine ⟨.expr (tree e), ⟨ht.starts, fun rest hr => ?_⟩, ?_⟩
      · have h3 : pInteger ((textExpr st o e).text ++ rest) = none := by
          rw [h1]
          apply pInteger_head
          · cases hc : isDigit c with
            | false => rfl
            | true => exact absurd (h2 (.inl hc)) hn
          · intro hc; exact hn (h2 (.inr hc))
        simp [pFetchValue, textCount, h3, ht.read rest hr, mapFst]
      · simp [convFetchValue, ht.conv, plain, Res.bind, amount]

theorem item_fetchArg {name x : Str} {v : SFetch} (h : Item ExprFollow pFetchValue x v)
    (hn : firstOf name [cs!"limit", cs!"offset"] = true) :
    Item ExprFollow pFetchArg (name ++ '=' :: x) (name, v) := by
  refine ⟨?_, fun rest hr => ?_⟩
  · cases name with
    | nil => exact ⟨'=', x, rfl, by decide⟩
    | cons c n =>
      refine ⟨c, _, rfl, ?_⟩
      rintro rfl
      simp [firstOf, clash] at hn
  · have h1 : pFirst [cs!"limit", cs!"offset"] (name ++ '=' :: (x ++ rest)) = some (name, '=' :: (x ++ rest)) :=
      pFirst_firstOf hn ((nextNot_cons _ _ _).2 (by decide))
    have h2 := h.read rest hr
    have h3 : skipSp (x ++ rest) = x ++ rest := h.starts.skip rest
    simp only [pFetchArg, List.append_assoc, List.cons_append, h1, Option.bind_eq_bind, Option.bind_some]
    rw [skipSp_cons _ _ (by decide)]
    simp [lit, h3, h2]

theorem pFetch_text {items : List (Str × (Str × SFetch))} {m : List Int}
    (h : ∀ i ∈ items, Item ExprFollow pFetchArg i.1 i.2) :
    pFetch (cs!"Fetch[" ++ ((if items = [] then cs!"_" else joinS cs!", " (items.map (·.1))) ++ tailText m)) =
      some (.fetch (items.map (·.2)) (m.map IntTok.ofInt), []) := by
  have h1 : pFetchArgs ((if items = [] then cs!"_" else joinS cs!", " (items.map (·.1))) ++ tailText m) =
      some (items.map (·.2), tailText m) := by
    unfold pFetchArgs
    by_cases hi : items = []
    · subst hi
      simp [pSep1, pFetchArg, pFirst, lit]
    · rw [if_neg hi, pSep1_items items (tailText m) hi h spCommaSp_join (fun r => exprFollow_comma r)
        (exprFollow_tail m) (pStarN_stop _ _ _ (spCommaSp_tail m))]
      rfl
  unfold pFetch
  rw [lit_append]
  simp [h1, pArrow_tail, pRefsClose_text]

theorem lineRT_fetch [UTab] [FTab] (hA : AsciiPrintable) {env : Env} (hst : env.st.Ordered) (ho : Readable env.o)
    {ws : List Nat} {c : Option Common} {count offset : Option Count} {adv : Option AdvExt}
    (hl : ws.length = 1) (h : OpOk env ws (.fetch c count offset adv)) : LineRT env ws (.fetch c count offset adv) := by
  obtain ⟨hh, hc, hf, hr, ha⟩ := h
  obtain ⟨adv', h1, h2⟩ := standardAdv_advList ha
  -- one item for each argument that is there
  have arg : ∀ (name : Str) (x : Option Count), firstOf name [cs!"limit", cs!"offset"] = true →
      (∀ y, x = some y → CountOk env.st env.o y) →
      ∃ v : Option SFetch, x.isSome = v.isSome ∧
        convOptR (convFetchValue env.st) v = .ok (x.map fun y => .expr (amount y)) ∧
        ∃ items : List (Str × (Str × SFetch)), (∀ i ∈ items, Item ExprFollow pFetchArg i.1 i.2) ∧
          (x.toList.map fun y => textNamedArg name (textCount env.st env.o y)).map Out.text = items.map (·.1) ∧
          items.map (·.2) = v.toList.map fun y => (name, y) := by
    intro name x hn hx
    cases x with
    | none => exact ⟨none, rfl, rfl, [], by simp, rfl, rfl⟩
    | some y =>
      obtain ⟨v, h3, h4⟩ := fetchTree hA hst ho.1 ho.2.1 y (hx y rfl)
      refine ⟨some v, rfl, by simp [convOptR, h4, Res.bind], [(name ++ '=' :: (textCount env.st env.o y).text, (name, v))], ?_, ?_, rfl⟩
      · intro i hi
        rw [List.mem_singleton] at hi
        subst hi
        exact item_fetchArg h3 hn
      · simp [textNamedArg]
  obtain ⟨v, v1, v2, iv, v3, v4, v5⟩ := arg cs!"limit" count (by decide) hc
  obtain ⟨w, w1, w2, iw, w3, w4, w5⟩ := arg cs!"offset" offset (by decide) hf
  refine ⟨.fetch ((v.toList.map fun y => (cs!"limit", y)) ++ w.toList.map fun y => (cs!"offset", y))
    ((shown ws.sum c).map IntTok.ofInt), ?_, ?_⟩
  · intro lvl
    rw [headBody_tail (n := ws.sum) (c := c) ho.2.2.2 lvl _ _ _ rfl rfl (by simp [relHead, totalWidth_some]) rfl hr]
    have h3 := pFetch_text (m := shown ws.sum c) (items := iv ++ iw) (by
      intro i hi
      rcases List.mem_append.1 hi with hi | hi
      · exact v3 i hi
      · exact w3 i hi)
    have h6 : ∀ l : List Out, l.map Out.text = (iv ++ iw).map (·.1) → (textArgList [] l).text =
        if iv ++ iw = [] then cs!"_" else joinS cs!", " ((iv ++ iw).map (·.1)) := by
      intro l hl
      have : l = [] ↔ iv ++ iw = [] := by
        rw [← List.map_eq_nil_iff (f := Out.text), hl, List.map_eq_nil_iff]
      unfold textArgList
      by_cases hn : l = []
      · rw [if_pos ⟨rfl, hn⟩, if_pos (this.1 hn)]
        rfl
      · rw [if_neg (fun h => hn h.2), if_neg (fun h => hn (this.2 h)), List.nil_append, Out.text_sep, hl]
    rw [h6 _ (by rw [List.map_append, List.map_append, v4, w4])]
    rw [List.map_append (f := fun x : Str × (Str × SFetch) => x.2), v5, w5] at h3
    exact pRelLine_fetch h3
  · intro kids hk
    obtain ⟨r, k, rfl⟩ := oneKid hk hl
    subst hk
    simp only [List.map_cons, List.map_nil, List.sum_cons, List.sum_nil, Nat.add_zero] at hr ⊢
    refine ⟨.fetch (mkCommon (makeEmit (shown k c) k)) (count.map fun y => .expr (amount y))
      (offset.map fun y => .expr (amount y)) adv', ?_, ?_⟩
    · have hd : hasDup (((v.toList.map fun y => (cs!"limit", y)) ++ w.toList.map fun y => (cs!"offset", y)).map (·.1)) = false := by
        cases v <;> cases w <;> simp [hasDup]
      have hlim : fetchArg ((v.toList.map fun y => (cs!"limit", y)) ++ w.toList.map fun y => (cs!"offset", y)) cs!"limit" = v := by
        cases v <;> cases w <;> simp [fetchArg]
      have hoff : fetchArg ((v.toList.map fun y => (cs!"limit", y)) ++ w.toList.map fun y => (cs!"offset", y)) cs!"offset" = w := by
        cases v <;> cases w <;> simp [fetchArg]
      simp only [convLine, opAddenda, h1, Res.bind, convBody, oneChild, hd, hlim, hoff, v2, w2, List.map_cons, List.map_nil,
        List.sum_cons, List.sum_nil, Nat.add_zero, convEmit_text (n := k) (InRange.i32 hr), outWidth, directWidth, common]
      rfl
    · simp only [OpEquiv, List.sum_cons, List.sum_nil, Nat.add_zero]
      refine ⟨⟨(shown_makeEmit (by have := hr.1; omega)).symm, hh, ?_, ?_, h2⟩, mapping_makeEmit_ne (by have := hr.1; omega)⟩
      · cases count <;> rfl
      · cases offset <;> rfl

/-! ### Join -/

/-- Text of the part after the condition. -/
def postStr [UTab] [FTab] (st : Store) (o : Opts) : Option Expr → Str
  | none => []
  | some e => cs!", post_filter=" ++ (textExpr st o e).text

theorem pPost_text [UTab] [FTab] {st : Store} {o : Opts} {tree : Expr → SExpr} {post : Option Expr} {m : List Int}
    (h : ∀ e, post = some e → ExprTree st o e (tree e)) :
    pOpt pPostFilter (postStr st o post ++ tailText m) = (post.map tree, tailText m) := by
  cases post with
  | none => simp [postStr, pOpt, pPostFilter, spCommaSp_tail]
  | some e =>
    have ht := h e rfl
    have h1 : spCommaSp (cs!", " ++ (cs!"post_filter" ++ ('=' :: ((textExpr st o e).text ++ tailText m)))) =
        some (cs!"post_filter" ++ ('=' :: ((textExpr st o e).text ++ tailText m))) :=
      spCommaSp_join _ ((nextNot_cons _ _ _).2 (by decide))
    have h2 : postStr st o (some e) ++ tailText m =
        cs!", " ++ (cs!"post_filter" ++ ('=' :: ((textExpr st o e).text ++ tailText m))) := by simp [postStr]
    have h3 : skipSp ((textExpr st o e).text ++ tailText m) = (textExpr st o e).text ++ tailText m := ht.starts.skip _
    have h4 : pPostFilter (postStr st o (some e) ++ tailText m) = some (tree e, tailText m) := by
      rw [h2]
      unfold pPostFilter
      rw [h1]
      simp only [Option.bind_eq_bind, Option.bind_some]
      rw [lit_append]
      simp only [Option.bind_some]
      rw [skipSp_cons _ _ (by decide)]
      simp [lit, h3, ht.read _ (exprFollow_tail m)]
    simp [pOpt, h4]

theorem lineRT_join [UTab] [FTab] (hA : AsciiPrintable) {env : Env} (hst : env.st.Ordered) (ho : Readable env.o)
    {ws : List Nat} {c : Option Common} {ty : EnumVal JoinType} {cond post : Option Expr} {adv : Option AdvExt}
    (hl : ws.length = 2) (h : OpOk env ws (.join c ty cond post adv)) : LineRT env ws (.join c ty cond post adv) := by
  obtain ⟨hh, ⟨t, rfl, hne, hr, hs, hid⟩, ⟨e, rfl, he⟩, hp, ha⟩ := h
  obtain ⟨tree, htree⟩ := exprTrees hA hst env.o ho.1 ho.2.1
  obtain ⟨adv', h1, h2⟩ := standardAdv_advList ha
  have ht := htree e he
  have hpost : ∀ x, post = some x → ExprTree env.st env.o x (tree x) := fun x hx => htree x (hp x hx)
  obtain ⟨name, hn1, hn2, hn3⟩ : ∃ name, t.spell = some name ∧ JoinType.ofName (trimAmp (cs!"&" ++ name)) = some t ∧
      firstOf (cs!"&" ++ name) joinNames = true := by
    cases t with
    | unspecified => exact absurd rfl hne
    | _ => exact ⟨_, rfl, by decide, by decide⟩
  generalize hm : shown (joinColumns t (ws.getD 0 0) (ws.getD 1 0)) c = m at hr hid
  refine ⟨.join (cs!"&" ++ name) (tree e) (post.map tree) (m.map IntTok.ofInt), ?_, ?_⟩
  · intro lvl
    rw [headBody_tail (n := joinColumns t (ws.getD 0 0) (ws.getD 1 0)) (c := c) ho.2.2.2 lvl _ _ _ rfl rfl
      (by
        have : ∀ i, widthAt (ws.map some) i = ws.getD i 0 := by
          intro i
          simp only [widthAt, List.getElem?_map, List.getD_eq_getElem?_getD]
          cases ws[i]? <;> rfl
        simp only [relHead, EnumVal.joinType, this, joinColumns_eq]) rfl (by rw [hm]; exact hr), hm]
    have h4 : (textArgList [textJoinType (.known t), .expect cs!"JoinRel" (Option.map (textExpr env.st env.o) (some e))]
        (post.toList.map fun e => textNamedArg cs!"post_filter" (textExpr env.st env.o e))).text ++ tailText m =
        (cs!"&" ++ name) ++ (cs!", " ++ ((textExpr env.st env.o e).text ++ (postStr env.st env.o post ++ tailText m))) := by
      cases post <;> simp [textArgList, textJoinType, textVariant, hn1, Out.sep, Out.expect, postStr, textNamedArg]
    have h3 := pFirst_firstOf (rest := cs!", " ++ ((textExpr env.st env.o e).text ++ (postStr env.st env.o post ++ tailText m)))
      hn3 ((nextNot_cons _ _ _).2 (by decide))
    have h5 : spCommaSp (cs!", " ++ ((textExpr env.st env.o e).text ++ (postStr env.st env.o post ++ tailText m))) =
        some ((textExpr env.st env.o e).text ++ (postStr env.st env.o post ++ tailText m)) :=
      spCommaSp_join _ (starts_next ht.starts _)
    have h6 : ExprFollow (postStr env.st env.o post ++ tailText m) := by
      cases post with
      | none => exact exprFollow_tail m
      | some x => exact exprFollow_comma _
    refine pRelLine_join ?_
    show pJoin (cs!"Join[" ++ (_ ++ tailText m)) = _
    unfold pJoin
    rw [lit_append]
    simp only [Option.bind_eq_bind, Option.bind_some]
    rw [h4, h3]
    simp only [Option.bind_some]
    rw [h5]
    simp only [Option.bind_some]
    rw [ht.read _ h6]
    simp only [Option.bind_some]
    rw [pPost_text hpost]
    simp [pArrow_tail, pRefsClose_text]
  · intro kids hk
    obtain ⟨l, r, v, w, rfl⟩ := twoKids hk hl
    subst hk
    simp only [List.map_cons, List.map_nil, List.sum_cons, List.sum_nil, Nat.add_zero] at hr hs hid ⊢
    have hcp : convOpt (convExpr env.st) (post.map tree) = .ok post := by
      cases post with
      | none => rfl
      | some x => simp [convOpt, (hpost x rfl).conv, Res.bind]
    refine ⟨.join (mkCommon (makeEmit m (v + w))) (.known t) (some e) post adv', ?_, ?_⟩
    · simp [convLine, opAddenda, h1, Res.bind, convBody, ht.conv, dropPanics, hn2, grammarName, hcp,
        convEmit_text (n := v + w) (InRange.i32 hr), outWidth, directWidth, common] at hn2 ⊢
      simp only [List.map_cons, List.map_nil, List.getD_eq_getElem?_getD, List.getElem?_cons_zero,
        List.getElem?_cons_succ, Option.getD_some] at hm
      simp [hn2, hm]
    · simp only [OpEquiv, directWidth]
      refine ⟨⟨?_, hh, trivial, trivial, trivial, h2⟩, ?_⟩
      · have hm' := hm
        simp only [List.map_cons, List.map_nil] at hm'
        rw [hm']
        rcases makeEmit_cases m (v + w) with h3 | h3
        · have h4 := (makeEmit_direct_iff (m := m) hs).1 h3
          rw [hid h4, shown_makeEmit hs]
        · rw [h3]
          rfl
      · refine ⟨by simpa using mapping_makeEmit_ne hs, fun hd => ?_⟩
        rcases makeEmit_cases m (v + w) with h3 | h3
        · simpa using hid ((makeEmit_direct_iff (m := m) hs).1 h3)
        · rw [h3] at hd
          cases hd

end Verif
