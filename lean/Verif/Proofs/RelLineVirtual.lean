import Verif.Proofs.RelLineRead
/-!
# Virtual tables, read back in either layout
-/

namespace Verif
open StoreSpec TextSpec RelSpec

set_option autoImplicit false

/-! ### Rows -/

/-- Text of a row. -/
def rowStr [UTab] [FTab] (st : Store) (o : Opts) (r : List Expr) : Str := '(' :: (exprsText st o r ++ [')'])

theorem item_row [UTab] [FTab] {st : Store} {o : Opts} {tree : Expr → SExpr} {r : List Expr}
    (h : ∀ e ∈ r, ExprTree st o e (tree e)) : Item (fun _ => True) pRow (rowStr st o r) (r.map tree) := by
  refine ⟨⟨'(', _, rfl, by decide⟩, fun rest _ => ?_⟩
  have h3 : rowStr st o r ++ rest = cs!"(" ++ (exprsText st o r ++ ')' :: rest) := by simp [rowStr]
  rw [h3]
  unfold pRow
  rw [lit_append]
  by_cases hr : r = []
  · subst hr
    have h1 : pExprList (')' :: rest) = none := by
      have : pExpr (')' :: rest) = none := pExprN_none (by decide) (by decide) (by decide) (by decide) _
      simp [pExprList, this]
    simp only [Option.bind_eq_bind, Option.bind_some, exprsText, List.map_nil, joinS, List.nil_append]
    rw [skipSp_cons _ _ (by decide)]
    simp only [pOpt, h1]
    rw [skipSp_cons _ _ (by decide)]
    simp [lit]
  · obtain ⟨close', h1, h2⟩ := pExprList_text (close := ')' :: rest) hr h (exprFollow_close rest)
      (by rw [skipSp_cons _ _ (by decide)]; exact commaSp_stop (by decide)) (commaSp_stop (by decide))
    have hst : skipSp (exprsText st o r ++ ')' :: rest) = exprsText st o r ++ ')' :: rest := by
      cases r with
      | nil => exact absurd rfl hr
      | cons e l =>
        simp only [exprsText, List.map_cons, joinS_cons, List.append_assoc]
        exact (h e (by simp)).starts.skip _
    simp only [Option.bind_eq_bind, Option.bind_some, hst, pOpt, h1, h2]
    rw [skipSp_cons _ _ (by decide)]
    simp [lit]

/-! ### Layouts -/

/-- No blank at the start. -/
def Solid (t : Str) : Prop := NextNot (fun c => c == ' ' || c == '\n' || c == '\r') t

theorem solid_cons {c : Char} {t : Str} (h : (c == ' ' || c == '\n' || c == '\r') = false) : Solid (c :: t) :=
  (nextNot_cons _ _ _).2 h

/-- One of the two layouts: what stands after the opening bracket, between arguments and before the
columns. -/
structure Layout (opn sep arr : Str) : Prop where
  open_ : ∀ t, Solid t → relOpen ('[' :: (opn ++ t)) = some t
  comma : ∀ t, Solid t → relComma (sep ++ t) = some t
  sepNe : sep ≠ []
  arrow : ∀ t, NextNot (· == ' ') t → relArrow (arr ++ t) = some t
  noComma : ∀ t, relComma (arr ++ t) = none
  follow : ∀ t, ExprFollow (arr ++ t)

theorem pNewline_nl (s : Str) : pNewline ('\n' :: s) = some s := by simp [pNewline, lit]

theorem pNewline_none {c : Char} {s : Str} (h : c ≠ '\n') (h2 : c ≠ '\r') : pNewline (c :: s) = none := by
  simp [pNewline, lit, Ne.symm h, Ne.symm h2]

theorem skipSp_solid {t : Str} (h : Solid t) : skipSp t = t :=
  skipSp_of_not _ (h.mono fun c hc => by simp_all)

theorem pCont_solid {t : Str} (h : Solid t) : pCont t = none := by
  unfold pCont
  rw [skipSp_solid h]
  cases t with
  | nil => rfl
  | cons c t =>
    have h2 := (nextNot_cons _ _ _).1 h
    simp only [Bool.or_eq_false_iff, beq_eq_false_iff_ne, ne_eq] at h2
    simp [pNewline_none h2.1.2 h2.2]

theorem pCont_space (t : Str) : pCont (' ' :: t) = pCont t := by
  unfold pCont
  rw [skipSp_space]

theorem skipSp_spaces (k : Nat) (s : Str) : skipSp (List.replicate k ' ' ++ s) = skipSp s := by
  induction k with
  | zero => rfl
  | succ k ih => rw [List.replicate_succ, List.cons_append, skipSp_space, ih]

theorem pCont_line (k : Nat) (t : Str) (h : NextNot (· == ' ') t) :
    pCont ('\n' :: (List.replicate k ' ' ++ (cs!"- " ++ t))) = some t := by
  unfold pCont
  rw [skipSp_cons _ _ (by decide), pNewline_nl]
  simp only [Option.bind_eq_bind, Option.bind_some, skipSp_spaces, List.cons_append]
  rw [skipSp_cons _ _ (by decide)]
  simp [lit, skipSp_of_not t h]

theorem Solid.noSpace {t : Str} (h : Solid t) : NextNot (· == ' ') t := h.mono fun c hc => by simp_all

theorem lit_one (c : Char) (s : Str) : lit [c] (c :: s) = some s := by simp [lit]

theorem layout_inline : Layout [] cs!", " cs!" => " where
  open_ := by
    intro t h
    simp only [List.nil_append, relOpen, lit_one, Option.map_some, pCont_solid h, Option.getD_none]
  comma := by
    intro t h
    show relComma (',' :: ' ' :: t) = _
    unfold relComma
    rw [skipSp_cons _ _ (by decide), lit_one]
    simp only [Option.map_some, contOrSp, pCont_space, pCont_solid h, Option.getD_none, skipSp_space, skipSp_solid h]
  sepNe := by simp
  arrow := by
    intro t h
    show relArrow (' ' :: '=' :: '>' :: ' ' :: t) = _
    have h1 : Solid ('=' :: '>' :: ' ' :: t) := solid_cons (by decide)
    unfold relArrow contOrSp
    rw [pCont_space, pCont_solid h1, Option.getD_none, skipSp_space, skipSp_solid h1]
    simp [lit, skipSp_space, skipSp_of_not t h]
  noComma := by
    intro t
    show relComma (' ' :: '=' :: '>' :: ' ' :: t) = _
    unfold relComma
    rw [skipSp_space, skipSp_cons _ _ (by decide)]
    simp [lit]
  follow := exprFollow_to

theorem layout_rows (k : Nat) :
    Layout ('\n' :: (List.replicate k ' ' ++ cs!"- ")) (',' :: '\n' :: (List.replicate k ' ' ++ cs!"- "))
      ('\n' :: (List.replicate k ' ' ++ cs!"- => ")) where
  open_ := by
    intro t h
    have := pCont_line k t h.noSpace
    simp only [List.cons_append, List.append_assoc, relOpen, lit_one, Option.map_some]
    simp only [List.cons_append, List.nil_append] at this
    simp [this]
  comma := by
    intro t h
    have := pCont_line k t h.noSpace
    simp only [List.cons_append, List.append_assoc] at this ⊢
    unfold relComma
    rw [skipSp_cons _ _ (by decide), lit_one]
    simp only [Option.map_some, contOrSp, this, Option.getD_some]
  sepNe := by simp
  arrow := by
    intro t h
    have := pCont_line k ('=' :: '>' :: ' ' :: t) ((nextNot_cons _ _ _).2 (by decide))
    simp only [List.cons_append, List.append_assoc, List.nil_append] at this ⊢
    unfold relArrow contOrSp
    rw [this]
    simp [lit, skipSp_space, skipSp_of_not t h]
  noComma := by
    intro t
    unfold relComma
    rw [List.cons_append, skipSp_cons _ _ (by decide)]
    simp [lit]
  follow := fun t => exprFollow_stop (by decide) (by decide) (by decide)

/-! ### The line -/

/-- The arguments: rows, then the filter. -/
def virtualArgs [UTab] [FTab] (st : Store) (o : Opts) (rows : List (List Expr)) (filter : Option Expr) : List Str :=
  (if rows = [] then [cs!"_"] else rows.map (rowStr st o)) ++
    filter.toList.map fun e => cs!"filter=" ++ (textExpr st o e).text

theorem pRow_none {c : Char} {s : Str} (h : c ≠ '(') : pRow (c :: s) = none := by
  simp [pRow, lit, Ne.symm h]

/-- The arguments as texts: rows, then the filter. -/
def virtualItems (rows : List Str) (filter : Option Str) : List Str :=
  (if rows = [] then [cs!"_"] else rows) ++ filter.toList.map fun t => cs!"filter=" ++ t

/-- Rows, filter and columns that are readable one by one are read as that table in either layout. -/
theorem pReadVirtual_items [FTab] {opn sep arr : Str} (hL : Layout opn sep arr) {rows : List (Str × List SExpr)}
    {filter : Option (Str × SExpr)} {colsText : Str} {cols : List (Str × STy)}
    (hr : ∀ r ∈ rows, Item (fun _ => True) pRow r.1 r.2) (hr1 : ∀ r ∈ rows, Solid r.1) (hf : ∀ e, filter = some e → Item ExprFollow pExpr e.1 e.2)
    (hc : pColumns (colsText ++ [']']) = (cols, [']'])) (hn : NextNot (· == ' ') (colsText ++ [']'])) :
    pReadVirtual (cs!"Read:Virtual" ++ ('[' :: (opn ++ (joinS sep (virtualItems (rows.map (·.1)) (filter.map (·.1))) ++
      (arr ++ (colsText ++ [']'])))))) =
      some (.readVirtual (rows.map (·.2)) (filter.map (·.2)) cols, []) := by
  have harrow := hL.arrow (colsText ++ [']']) hn
  have hcomma := hL.noComma (colsText ++ [']'])
  have hfollow := hL.follow (colsText ++ [']'])
  generalize hcl : arr ++ (colsText ++ [']']) = close at *
  have hsolid : ∀ r ∈ rows, ∀ t, Solid (r.1 ++ t) := by
    intro r hr' t
    obtain ⟨c, x, hx, _⟩ := (hr r hr').starts
    have := hr1 r hr'
    rw [hx] at this ⊢
    exact solid_cons ((nextNot_cons _ _ _).1 this)
  -- what follows the rows
  let fs : Str := (filter.toList.flatMap fun e => sep ++ (cs!"filter=" ++ e.1)) ++ close
  have hjoin : joinS sep (virtualItems (rows.map (·.1)) (filter.map (·.1))) ++ close =
      joinS sep (if rows = [] then [cs!"_"] else rows.map (·.1)) ++ fs := by
    simp only [virtualItems, fs, List.map_eq_nil_iff]
    split
    · cases filter <;> simp [joinS_cons]
    · cases rows with
      | nil => contradiction
      | cons r l => cases filter <;> simp [joinS_cons]
  have hstop : ∀ n, pStarN relComma pRow n fs = ([], fs) := by
    cases filter with
    | none => exact pStarN_stop _ _ _ (by simpa [fs] using hcomma)
    | some e =>
      refine pStarN_stop2 relComma pRow fs (cs!"filter=" ++ (e.1 ++ close)) ?_ (pRow_none (by decide))
      have := hL.comma (cs!"filter=" ++ (e.1 ++ close)) (solid_cons (by decide))
      simpa [fs] using this
  have hrows : pRows (joinS sep (if rows = [] then [cs!"_"] else rows.map (·.1)) ++ fs) =
      some (rows.map (·.2), fs) := by
    split
    · next h0 =>
      subst h0
      have : pSep1 relComma pRow ('_' :: fs) = none := by simp [pSep1, pRow_none (c := '_') (by decide)]
      simp [pRows, joinS, this, lit]
    · next h0 =>
      have := pSep1_join relComma pRow sep (fun _ => True) fs rows
        hL.sepNe h0
        (fun i hi r => hL.comma _ (hsolid i hi r))
        (fun _ => trivial) trivial hstop
        (fun i hi r _ => (hr i hi).read r trivial)
      simp [pRows, this]
  have hfilter : pOpt pCommaFilter fs = (filter.map (·.2), close) := by
    cases filter with
    | none => simp [fs, pOpt, pCommaFilter, hcomma]
    | some e =>
      have h1 := hL.comma (cs!"filter=" ++ (e.1 ++ close)) (solid_cons (by decide))
      have he := hf e rfl
      have h2 : pVFilter (cs!"filter=" ++ (e.1 ++ close)) = some (e.2, close) := by
        unfold pVFilter
        rw [show cs!"filter=" ++ (e.1 ++ close) = cs!"filter" ++ ('=' :: (e.1 ++ close)) from rfl, lit_append]
        simp only [Option.bind_eq_bind, Option.bind_some]
        rw [skipSp_cons _ _ (by decide), lit_one]
        simp only [Option.bind_some, he.starts.skip]
        exact he.read _ hfollow
      have h3 : pCommaFilter fs = some (e.2, close) := by
        have h4 : fs = sep ++ (cs!"filter=" ++ (e.1 ++ close)) := by simp [fs]
        rw [h4, pCommaFilter, h1]
        exact h2
      simp only [pOpt, h3, Option.map_some]
  have hopen : relOpen ('[' :: (opn ++ (joinS sep (virtualItems (rows.map (·.1)) (filter.map (·.1))) ++ close))) =
      some (joinS sep (virtualItems (rows.map (·.1)) (filter.map (·.1))) ++ close) := by
    apply hL.open_
    rw [hjoin]
    split
    · exact solid_cons (by decide)
    · cases rows with
      | nil => contradiction
      | cons r l =>
        simp only [List.map_cons, joinS_cons, List.append_assoc]
        exact hsolid r (by simp) _
  unfold pReadVirtual
  rw [lit_append]
  rw [hjoin] at hopen ⊢
  simp only [Option.bind_eq_bind, Option.bind_some, hopen, hrows, hfilter, harrow, hc]
  simp [lit, relEnd, skipSp]

theorem pReadVirtual_text [UTab] [FTab] {st : Store} {o : Opts} {opn sep arr : Str} (hL : Layout opn sep arr)
    {tree : Expr → SExpr} {treeT : Ty → STy} {rows : List (List Expr)} {filter : Option Expr} {cols : List (Str × Ty)}
    (hr : ∀ r ∈ rows, ∀ e ∈ r, ExprTree st o e (tree e)) (hf : ∀ e, filter = some e → ExprTree st o e (tree e))
    (hc : ∀ c ∈ cols, Item TyFollow pNamedColumn (columnStr st o c) (c.1, treeT c.2)) :
    pReadVirtual (cs!"Read:Virtual" ++ ('[' :: (opn ++ (joinS sep (virtualArgs st o rows filter) ++
      (arr ++ (columnsStr st o cols ++ [']'])))))) =
      some (.readVirtual (rows.map (·.map tree)) (filter.map tree) (cols.map fun c => (c.1, treeT c.2)), []) := by
  have := pReadVirtual_items hL (rows := rows.map fun r => (rowStr st o r, r.map tree))
    (filter := filter.map fun e => ((textExpr st o e).text, tree e)) (colsText := columnsStr st o cols)
    (by
      intro i hi
      obtain ⟨r, hr', rfl⟩ := List.mem_map.1 hi
      exact item_row (hr r hr'))
    (by
      intro i hi
      obtain ⟨r, hr', rfl⟩ := List.mem_map.1 hi
      exact solid_cons (by decide))
    (by
      intro e he
      obtain ⟨x, hx, rfl⟩ := Option.map_eq_some_iff.1 he
      exact ⟨(hf x hx).starts, (hf x hx).read⟩)
    (pColumns_close hc) (columnsStr_next st o cols [])
  cases filter with
  | none => simpa [virtualItems, virtualArgs, Function.comp_def] using this
  | some e => simpa [virtualItems, virtualArgs, Function.comp_def] using this

/-! ### The printed line -/

theorem indentAt_spaces {o : Opts} (h : o.indent = cs!"  ") (lvl : Nat) :
    indentAt o lvl = List.replicate (2 * lvl) ' ' := by
  unfold indentAt
  rw [h]
  induction lvl with
  | zero => rfl
  | succ n ih =>
    rw [List.replicate_succ, List.flatten_cons, ih, Nat.mul_succ]
    rw [show 2 * n + 2 = (2 * n + 1) + 1 from rfl, List.replicate_succ, List.replicate_succ]
    rfl

/-- Rows, one per line. -/
theorem textRows_text (pre : Str) (more : Bool) (l : List Out) (hne : l ≠ []) :
    (textRows pre more l).text = pre ++ (cs!"- " ++ (joinS (',' :: '\n' :: (pre ++ cs!"- ")) (l.map Out.text) ++
      (if more then cs!",\n" else cs!"\n"))) := by
  induction l with
  | nil => contradiction
  | cons r l ih =>
    cases l with
    | nil => simp [textRows, joinS, Out.text_append]
    | cons s l =>
      rw [textRows]
      simp only [Out.text_append, ih (by simp)]
      simp [joinS, Out.text_append]

theorem tuple_text [UTab] [FTab] (st : Store) (o : Opts) (r : List Expr) :
    (textTuple (r.map (textExpr st o))).text = rowStr st o r := by
  simp [textTuple, rowStr, exprsText, Out.text_sep, Function.comp_def]

theorem headBody_virtual [UTab] [FTab] {env : Env} (ho : Readable env.o) (ws : List Nat) {c : Option Common}
    {cols : List (Str × Ty)} {filter : Option Expr} {rows : List (List Expr)} {adv : Option AdvExt}
    (hm : mapping c = none) (lvl : Nat) :
    ∃ opn sep arr, Layout opn sep arr ∧ headBody env.o lvl (relHead env (ws.map some)
        (.read c (some ⟨cols.map (·.1), some ⟨cols.map (·.2), 0, .required⟩⟩) filter (.virtual rows 0) adv 0)) =
      cs!"Read:Virtual" ++ ('[' :: (opn ++ (joinS sep (virtualArgs env.st env.o rows filter) ++
      (arr ++ (columnsStr env.st env.o cols ++ [']']))))) := by
  have hcols := readColumns_text env.st env.o cols
  by_cases hlay : 0 < rows.length ∧ env.o.vthreshold ≤ rows.length
  · have hne : rows ≠ [] := by intro h; simp [h] at hlay
    refine ⟨_, _, _, layout_rows (2 * (lvl + 1)), ?_⟩
    simp only [relHead, headRead]
    rw [if_pos hlay]
    simp only [headBody]
    rw [textOutput_implicit _ _ rfl]
    simp only [implicitCols_all ho.2.2.2 _ hm, hcols, indentAt_spaces ho.2.2.1]
    rw [if_neg (by simp [hne])]
    rw [textRows_text _ _ _ (by simpa using hne)]
    cases filter with
    | none =>
      cases rows with
      | nil => contradiction
      | cons r l =>
      simp [virtualArgs, textRows, columnsStr, Function.comp_def, tuple_text]
    | some e =>
      cases rows with
      | nil => contradiction
      | cons r l =>
      rw [textRows_text _ _ _ (by simp)]
      simp [virtualArgs, joinS_cons, columnsStr, Function.comp_def, tuple_text, textNamedArg]
  · refine ⟨_, _, _, layout_inline, ?_⟩
    simp only [relHead, headRead]
    rw [if_neg hlay]
    simp only [headBody]
    rw [textOutput_implicit _ _ rfl]
    simp only [implicitCols_all ho.2.2.2 _ hm, hcols]
    cases rows with
    | nil => cases filter <;> simp [textArgList, virtualArgs, columnsStr, joinS, Out.text_sep, textNamedArg]
    | cons r l =>
      cases filter <;>
        simp [textArgList, virtualArgs, columnsStr, joinS_cons, Out.text_sep, textNamedArg, Function.comp_def, tuple_text]

theorem lineRT_virtual [UTab] [FTab] (hA : AsciiPrintable) {env : Env} (hst : env.st.Ordered) (ho : Readable env.o)
    {ws : List Nat} {c : Option Common} {schema : Option NamedStruct} {filter : Option Expr}
    {rows : List (List Expr)} {k : Nat} {adv : Option AdvExt} {rest : Nat} (hl : ws.length = 0)
    (h : OpOk env ws (.read c schema filter (.virtual rows k) adv rest)) :
    LineRT env ws (.read c schema filter (.virtual rows k) adv rest) := by
  obtain ⟨hh, rfl, ⟨cols, rfl, hcols⟩, ⟨rfl, hrows, hf, hm⟩, ha⟩ := h
  obtain ⟨treeT, htreeT⟩ := colTrees hst env.o ho.1
  obtain ⟨tree, htree⟩ := exprTrees hA hst env.o ho.1 ho.2.1
  obtain ⟨adv', h1, h2⟩ := standardAdv_advList ha
  have hitems : ∀ x ∈ cols, Item TyFollow pNamedColumn (columnStr env.st env.o x) (x.1, treeT x.2) :=
    fun x hx => (htreeT x.2 (hcols x hx).2).2 x.1 (hcols x hx).1
  refine ⟨.readVirtual (rows.map (·.map tree)) (filter.map tree) (cols.map fun c => (c.1, treeT c.2)), ?_, ?_⟩
  · intro lvl
    obtain ⟨opn, sep, arr, hL, h3⟩ := headBody_virtual (env := env) ho ws (c := c) (cols := cols) (filter := filter)
      (rows := rows) (adv := adv) hm lvl
    rw [h3]
    exact pRelLine_readVirtual (pReadVirtual_text hL (fun r hr e he => htree e (hrows r hr e he))
      (fun e he => htree e (hf e he)) hitems)
  · intro kids hk
    have hk0 : kids = [] := by
      subst hk
      simpa using hl
    subst hk0
    subst hk
    have hconv := convColumns_map (st := env.st) (tree := treeT) (cols := cols) fun x hx => (htreeT x.2 (hcols x hx).2).1
    have hconv2 := convExprLists_map (st := env.st) (tree := tree) (rows := rows) fun r hr e he => (htree e (hrows r hr e he)).conv
    have hconv3 : convOpt (convExpr env.st) (filter.map tree) = .ok filter := by
      cases filter with
      | none => rfl
      | some e => simp [convOpt, (htree e (hf e rfl)).conv, Res.bind, Res.map]
    refine ⟨.read (mkCommon .direct) (some (buildStruct cols)) filter (.virtual rows 0) adv' 0, ?_, ?_⟩
    · simp [convLine, opAddenda, h1, Res.bind, convBody, hconv, hconv2, hconv3, plain, dropPanics, outWidth, directWidth,
        common, shown, hm, identity]
    · exact ⟨⟨hm, hh, rfl, rfl, rfl, h2, rfl⟩, trivial⟩

end Verif
