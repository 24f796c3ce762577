import Verif.Spec.Supported
import Verif.Proofs.ExtArgsRT
import Verif.Proofs.RelNames
/-!
# Parts of relation lines, read back
-/

namespace Verif
open StoreSpec TextSpec RelSpec

set_option autoImplicit false

/-! ### Lists -/

/-- A text that rule `p` reads as `a` when `F` holds of what follows. -/
structure Item {α : Type} (F : Str → Prop) (p : Str → Option (α × Str)) (x : Str) (a : α) : Prop where
  starts : Starts x
  read : ∀ rest, F rest → p (x ++ rest) = some (a, rest)

theorem pSep1_items {α : Type} {sep : Str → Option Str} {p : Str → Option (α × Str)} {F : Str → Prop}
    (items : List (Str × α)) (close : Str) (hne : items ≠ []) (h : ∀ i ∈ items, Item F p i.1 i.2)
    (hsep : ∀ t, NextNot (· == ' ') t → sep (cs!", " ++ t) = some t)
    (hF : ∀ r, F (',' :: r)) (hFc : F close) (hstop : ∀ n, pStarN sep p n close = ([], close)) :
    pSep1 sep p (joinS cs!", " (items.map (·.1)) ++ close) = some (items.map (·.2), close) :=
  pSep1_join sep p cs!", " F close items (by simp) hne
    (fun i hi r => hsep _ (starts_next (h i hi).starts r)) (fun r => hF _) hFc hstop
    (fun i hi r hr => (h i hi).read r hr)

theorem pSep_items {α : Type} {sep : Str → Option Str} {p : Str → Option (α × Str)} {F : Str → Prop}
    (items : List (Str × α)) (close : Str) (h : ∀ i ∈ items, Item F p i.1 i.2)
    (hsep : ∀ t, NextNot (· == ' ') t → sep (cs!", " ++ t) = some t)
    (hF : ∀ r, F (',' :: r)) (hFc : F close) (hstop : ∀ n, pStarN sep p n close = ([], close))
    (hnone : p close = none) :
    pSep sep p (joinS cs!", " (items.map (·.1)) ++ close) = (items.map (·.2), close) := by
  cases items with
  | nil => simp [pSep, pSep1, joinS, hnone]
  | cons i l => rw [pSep, pSep1_items (i :: l) close (by simp) h hsep hF hFc hstop]

theorem spCommaSp_stop {c : Char} {s : Str} (h : c ≠ ' ') (h2 : c ≠ ',') : spCommaSp (c :: s) = none := by
  simp [spCommaSp, skipSp_cons _ _ h, lit, Ne.symm h2]

theorem commaSp_stop {c : Char} {s : Str} (h2 : c ≠ ',') : commaSp (c :: s) = none := by
  simp [commaSp, lit, Ne.symm h2]

/-! ### Arrows -/

theorem skipSp_skipSp (s : Str) : skipSp (skipSp s) = skipSp s := by
  induction s with
  | nil => rfl
  | cons c s ih =>
    by_cases h : c = ' '
    · subst h; rw [skipSp_space, ih]
    · rw [skipSp_cons _ _ h, skipSp_cons _ _ h]

theorem pArrow_text {s : Str} (h : NextNot (· == ' ') s) : pArrow (cs!" => " ++ s) = some s := by
  unfold pArrow
  simp only [List.cons_append, List.nil_append, skipSp_space]
  rw [skipSp_cons _ _ (by decide)]
  simp [lit, skipSp_space, skipSp_of_not s h]

theorem exprFollow_to (s : Str) : ExprFollow (cs!" => " ++ s) :=
  exprFollow_space (noCall_stop (by decide) (by decide))

/-! ### References -/

/-- Text of a reference. -/
def refText (i : Int) : Str := cs!"$" ++ decInt i

theorem textRef_text (i : Int) : (textRef i).text = refText i := rfl

theorem refText_starts (i : Int) : Starts (refText i) := ⟨'$', decInt i, rfl, by decide⟩

theorem pRef_text {i : Int} {rest : Str} (h : NextNot isDigit rest) :
    pRef (refText i ++ rest) = some (.ofInt i, rest) := by
  simp [pRef, refText, lit, pInteger_decInt i rest h]

theorem item_ref (i : Int) : Item (NextNot isDigit) pRef (refText i) (.ofInt i) :=
  ⟨refText_starts i, fun _ h => pRef_text h⟩

/-- Text of a list of references. -/
def refsText (m : List Int) : Str := joinS cs!", " (m.map refText)

theorem pRefs_text (m : List Int) (rest : Str) :
    pRefs (refsText m ++ ']' :: rest) = (m.map IntTok.ofInt, ']' :: rest) := by
  have h := pSep_items (sep := spCommaSp) (p := pRef) (F := NextNot isDigit)
    (m.map fun i => (refText i, IntTok.ofInt i)) (']' :: rest)
    (by intro i hi; obtain ⟨j, _, rfl⟩ := List.mem_map.1 hi; exact item_ref j)
    spCommaSp_join (fun r => (nextNot_cons _ _ _).2 (by decide)) ((nextNot_cons _ _ _).2 (by decide))
    (pStarN_stop _ _ _ (spCommaSp_stop (by decide) (by decide))) (pRef_none (by decide))
  simpa [pRefs, refsText, Function.comp_def] using h

theorem pRefsClose_text (m : List Int) (rest : Str) :
    pRefsClose (refsText m ++ ']' :: rest) = some (m.map IntTok.ofInt, rest) := by
  simp [pRefsClose, pRefs_text, lit]

theorem refsText_next (m : List Int) (rest : Str) : NextNot (· == ' ') (refsText m ++ ']' :: rest) := by
  cases m with
  | nil => exact (nextNot_cons _ _ _).2 (by decide)
  | cons i l =>
    simp only [refsText, List.map_cons, joinS_cons, List.append_assoc]
    exact starts_next (refText_starts i) _

theorem convRefs_text {m : List Int} (h : ∀ i ∈ m, InI32 i) : convRefs (m.map IntTok.ofInt) = .ok m := by
  induction m with
  | nil => rfl
  | cons i l ih =>
    simp only [List.map_cons, convRefs, convIndex, ofInt_toI32 (h i (by simp)), plain,
      ih fun j hj => h j (by simp [hj])]
    rfl

theorem InRange.i32 {n : Nat} {m : List Int} (h : InRange n m) : ∀ i ∈ m, InI32 i := by
  intro i hi
  have h1 := h.2 i hi
  have h2 := h.1
  unfold InI32
  omega

/-- What the parser makes of the references of a relation with `n` direct columns. -/
theorem convEmit_text {m : List Int} {n : Nat} (h : ∀ i ∈ m, InI32 i) :
    convEmit (m.map IntTok.ofInt) n = .ok (mkCommon (makeEmit m n), m.length) := by
  simp only [convEmit, convRefs_text h]
  rfl

theorem shown_makeEmit {m : List Int} {n : Nat} (hn : n ≤ 2 ^ 31) : shown n (mkCommon (makeEmit m n)) = m := by
  have h := makeEmit_indices (m := m) hn
  unfold shown mapping mkCommon
  simp only [Option.bind_some]
  rcases makeEmit_cases m n with h2 | h2 <;> rw [h2] at h ⊢ <;> simpa [indices] using h

/-- No mapping that was made keeps all columns in order. -/
theorem mapping_makeEmit_ne {m : List Int} {n : Nat} (hn : n ≤ 2 ^ 31) :
    mapping (mkCommon (makeEmit m n)) ≠ some (identity n) := by
  rcases makeEmit_cases m n with h2 | h2
  · rw [h2]
    exact nofun
  · intro h
    have : m = identity n := by
      rw [h2] at h
      exact Option.some.inj h
    rw [(makeEmit_direct_iff hn).2 this] at h2
    cases h2

theorem hints_mkCommon (e : Emit) : hints (mkCommon e) = 0 := rfl

/-! ### Columns that are printed -/

/-- The column with an index, empty if there is none. -/
def colAt (cols : List Out) (i : Int) : Out := (cols[i.toNat]?).getD (.s [])

theorem getEmit_mapping (c : Option Common) :
    (∃ m, getEmit c = some (.emit m) ∧ mapping c = some m) ∨
    ((getEmit c = some .direct ∨ getEmit c = none) ∧ mapping c = none) := by
  unfold getEmit mapping
  cases c with
  | none => exact .inr ⟨.inr rfl, rfl⟩
  | some c =>
    cases h : c.emit with
    | none => exact .inr ⟨.inr (by simp [h]), by simp [h]⟩
    | some e =>
      cases e with
      | direct => exact .inr ⟨.inl (by simp [h]), by simp [h]⟩
      | emit m => exact .inl ⟨m, by simp [h], by simp [h]⟩

/-- The columns written after `=>` are the columns put out. -/
theorem implicitCols_text {o : Opts} (ho : o.showEmit = false) (cols : List Out) (c : Option Common)
    (h : ∀ i ∈ shown cols.length c, 0 ≤ i ∧ i < (cols.length : Int)) :
    implicitCols o cols (getEmit c) = (shown cols.length c).map (colAt cols) := by
  have hall : cols = (identity cols.length).map (colAt cols) := by
    apply List.ext_getElem
    · simp [identity]
    · intro i h1 h2
      simp [identity, colAt, List.getElem?_eq_getElem h1]
  unfold implicitCols
  rw [if_neg (by simp [ho])]
  rcases getEmit_mapping c with ⟨m, h1, h2⟩ | ⟨h1, h2⟩
  · rw [h1]
    have hs : shown cols.length c = m := by simp [shown, h2]
    rw [hs] at h ⊢
    simp only
    apply List.map_congr_left
    intro i hi
    obtain ⟨h3, h4⟩ := h i hi
    have h5 : i.toNat < cols.length := by omega
    simp [getCol, Int.not_lt.2 h3, List.getElem?_eq_getElem h5, Out.expect, colAt]
  · have hs : shown cols.length c = identity cols.length := by simp [shown, h2]
    rw [hs, ← hall]
    rcases h1 with h1 | h1 <;> rw [h1]

theorem references_get {n : Nat} {i : Int} (h : 0 ≤ i ∧ i < (n : Int)) (hn : n ≤ 2 ^ 31) :
    colAt (references n) i = textRef i := by
  have h1 : i.toNat < n := by omega
  have h2 : ((i.toNat : Nat) : Int) = i := by omega
  simp only [colAt, references, List.getElem?_map, List.getElem?_range h1, Option.map_some, Option.getD_some]
  rw [wrap32_small (by omega), h2]

/-- The same for the relations that pass on columns of their inputs. -/
theorem implicitCols_refs {o : Opts} (ho : o.showEmit = false) (n : Nat) (c : Option Common)
    (h : InRange n (shown n c)) :
    joinS cs!", " ((implicitCols o (references n) (getEmit c)).map Out.text) = refsText (shown n c) := by
  have hl : (references n).length = n := length_references n
  have h1 := implicitCols_text ho (references n) c (by rw [hl]; exact h.2)
  rw [h1, hl, List.map_map, refsText]
  congr 1
  apply List.map_congr_left
  intro i hi
  have hn := h.1
  simp only [Function.comp]
  rw [references_get (h.2 i hi) (by omega)]
  rfl

/-- Width of a head with such columns. -/
theorem emitted_shown (h : Head) (c : Option Common) (he : h.emit = getEmit c) :
    h.emitted = (shown h.columns.length c).length := by
  unfold Head.emitted
  rw [he]
  rcases getEmit_mapping c with ⟨m, h1, h2⟩ | ⟨h1, h2⟩
  · simp [h1, shown, h2]
  · rcases h1 with h1 | h1 <;> simp [h1, shown, h2, identity]

/-! ### Expressions -/

/-- The parse tree of the text of an expression. -/
structure ExprTree [UTab] [FTab] (st : Store) (o : Opts) (e : Expr) (s : SExpr) : Prop where
  conv : convExpr st s = .ok e
  head : ∃ c t, (textExpr st o e).text = c :: t ∧ c ≠ ' ' ∧ c ≠ ')' ∧ c ≠ '_'
  read : ∀ rest, ExprFollow rest → pExpr ((textExpr st o e).text ++ rest) = some (s, rest)

theorem ExprTree.starts [UTab] [FTab] {st : Store} {o : Opts} {e : Expr} {s : SExpr} (h : ExprTree st o e s) :
    Starts (textExpr st o e).text := by
  obtain ⟨c, t, h1, h2, _⟩ := h.head
  exact ⟨c, t, h1, h2⟩

theorem ExprTree.item [UTab] [FTab] {st : Store} {o : Opts} {e : Expr} {s : SExpr} (h : ExprTree st o e s) :
    Item ExprFollow pExpr (textExpr st o e).text s := ⟨h.starts, h.read⟩

/-- Parse trees for all faithful expressions at once. -/
theorem exprTrees [UTab] [FTab] (hA : AsciiPrintable) {st : Store} (hst : st.Ordered) (o : Opts)
    (ho : o.anchors ≠ .never) (hl : o.litTypes ≠ .never) :
    ∃ tree : Expr → SExpr, ∀ e, Faithful st e → ExprTree st o e (tree e) := by
  have h : ∀ e, ∃ s, Faithful st e → ExprTree st o e s := by
    intro e
    by_cases he : Faithful st e
    · obtain ⟨s, h1, h2⟩ := pExpr_text hA hst o ho hl e he
      exact ⟨s, fun _ => ⟨h1, expr_head_ne hA hst o ho e he, h2⟩⟩
    · exact ⟨.ref (.ofInt 0), fun h => absurd h he⟩
  exact ⟨fun e => Classical.choose (h e), fun e => Classical.choose_spec (h e)⟩

theorem convExprs_map [FTab] {st : Store} {tree : Expr → SExpr} {es : List Expr}
    (h : ∀ e ∈ es, convExpr st (tree e) = .ok e) : convExprs st (es.map tree) = .ok es := by
  induction es with
  | nil => rfl
  | cons e l ih =>
    simp only [List.map_cons, convExprs, h e (by simp), ih fun x hx => h x (by simp [hx])]
    rfl

theorem convExprLists_map [FTab] {st : Store} {tree : Expr → SExpr} {rows : List (List Expr)}
    (h : ∀ r ∈ rows, ∀ e ∈ r, convExpr st (tree e) = .ok e) :
    convExprLists st (rows.map (·.map tree)) = .ok rows := by
  induction rows with
  | nil => rfl
  | cons e l ih =>
    simp only [List.map_cons, convExprLists, convExprs_map (h e (by simp)), ih fun x hx => h x (by simp [hx])]
    rfl

/-- Text of a list of expressions. -/
def exprsText [UTab] [FTab] (st : Store) (o : Opts) (es : List Expr) : Str :=
  joinS cs!", " (es.map fun e => (textExpr st o e).text)

theorem pExprList_text [UTab] [FTab] {st : Store} {o : Opts} {tree : Expr → SExpr} {es : List Expr} {close : Str}
    (hne : es ≠ []) (h : ∀ e ∈ es, ExprTree st o e (tree e)) (hc : ExprFollow close)
    (hstop : commaSp (skipSp close) = none) (hstop2 : commaSp close = none) :
    ∃ close', pExprList (exprsText st o es ++ close) = some (es.map tree, close') ∧
      skipSp close' = skipSp close := by
  cases es with
  | nil => exact absurd rfl hne
  | cons e l =>
    simp only [exprsText, List.map_cons, joinS_cons, List.append_assoc]
    have he := h e (by simp)
    cases l with
    | nil =>
      refine ⟨skipSp close, ?_, skipSp_skipSp close⟩
      simp only [List.map_nil, List.flatMap_nil, List.nil_append, pExprList, he.read close hc]
      have := pStarN_stop commaSp pExpr (skipSp close) hstop
      simp only [Option.bind_eq_bind, Option.bind_some, this]
    | cons d l =>
      -- the first comma comes right after the first expression
      refine ⟨close, ?_, rfl⟩
      have hf : ∃ t, ((d :: l).map fun e => (textExpr st o e).text).flatMap (fun b => cs!", " ++ b) ++ close = ',' :: t := by
        simp only [List.map_cons, List.flatMap_cons, List.append_assoc, List.cons_append]
        exact ⟨_, rfl⟩
      obtain ⟨t, ht⟩ := hf
      have h1 := he.read (',' :: t) (exprFollow_comma t)
      have h2 : skipSp (',' :: t) = ',' :: t := skipSp_cons _ _ (by decide)
      have h3 := pStarN_join commaSp pExpr cs!", " ExprFollow close
        ((d :: l).map fun e => ((textExpr st o e).text, tree e)) (by simp)
        (by
          intro i hi r
          obtain ⟨x, hx, rfl⟩ := List.mem_map.1 hi
          exact commaSp_join _ (starts_next (h x (List.mem_cons_of_mem _ hx)).starts r))
        (fun r => exprFollow_comma _) hc (pStarN_stop _ _ _ hstop2)
        (by
          intro i hi r hr
          obtain ⟨x, hx, rfl⟩ := List.mem_map.1 hi
          exact (h x (List.mem_cons_of_mem _ hx)).read r hr)
        (',' :: t).length
      have hmap : (((d :: l).map fun e => ((textExpr st o e).text, tree e)).flatMap fun i => cs!", " ++ i.1) =
          ((d :: l).map fun e => (textExpr st o e).text).flatMap fun b => cs!", " ++ b := by
        simp only [List.flatMap_map]
      rw [hmap, ht] at h3
      have h4 := h3 (by rw [← ht]; simp only [List.length_append]; omega)
      rw [ht]
      simp only [pExprList, h1, Option.bind_eq_bind, Option.bind_some, h2, h4]
      simp [Function.comp_def]

/-! ### Named columns -/

/-- Text of a named column. -/
def columnStr [UTab] (st : Store) (o : Opts) (c : Str × Ty) : Str :=
  showName c.1 ++ ':' :: (textTy st o c.2).text

theorem textField_text [UTab] (st : Store) (o : Opts) (c : Str × Ty) :
    (textField st o (some c.1) (some c.2)).text = columnStr st o c := by
  simp [textField, columnStr, Out.expect, textTyReq]

/-- Parse trees for all columns at once. -/
theorem colTrees [UTab] {st : Store} (hst : st.Ordered) (o : Opts) (ho : o.anchors ≠ .never) :
    ∃ tree : Ty → STy, ∀ t, Writable st t → convTy st (tree t) = .ok t ∧
      ∀ n, Spellable n → Item TyFollow pNamedColumn (columnStr st o (n, t)) (n, tree t) := by
  have h : ∀ t, ∃ s, Writable st t → convTy st s = .ok t ∧
      ∀ rest, TyFollow rest → pType ((textTy st o t).text ++ rest) = some (s, rest) := by
    intro t
    by_cases ht : Writable st t
    · obtain ⟨s, h1, h2⟩ := pType_text hst o ho t ht
      exact ⟨s, fun _ => ⟨h1, h2⟩⟩
    · exact ⟨.simple [] .required, fun h => absurd h ht⟩
  refine ⟨fun t => Classical.choose (h t), fun t ht => ?_⟩
  obtain ⟨h1, h2⟩ := Classical.choose_spec (h t) ht
  refine ⟨h1, fun n hn => ⟨?_, ?_⟩⟩
  · exact showName_starts _ _
  · intro rest hr
    have h4 := pName_spelled (rest := ':' :: ((textTy st o t).text ++ rest)) hn ((nextNot_cons _ _ _).2 (by decide))
    simp only [columnStr, List.append_assoc, List.cons_append]
    simp [pNamedColumn, h4, lit, h2 rest hr]

/-- Text of a list of named columns. -/
def columnsStr [UTab] (st : Store) (o : Opts) (cols : List (Str × Ty)) : Str :=
  joinS cs!", " (cols.map (columnStr st o))

theorem pColumns_text [UTab] {st : Store} {o : Opts} {tree : Ty → STy} {cols : List (Str × Ty)}
    (h : ∀ c ∈ cols, Item TyFollow pNamedColumn (columnStr st o c) (c.1, tree c.2)) {close : Str}
    (hc : TyFollow close) (hstop : commaSp close = none) (hn : pNamedColumn close = none) :
    pColumns (columnsStr st o cols ++ close) = (cols.map fun c => (c.1, tree c.2), close) := by
  have := pSep_items (sep := commaSp) (p := pNamedColumn) (F := TyFollow)
    (cols.map fun c => (columnStr st o c, (c.1, tree c.2))) close
    (by intro i hi; obtain ⟨c, hc, rfl⟩ := List.mem_map.1 hi; exact h c hc)
    commaSp_join (fun r => (nextNot_cons _ _ _).2 (by decide)) hc (pStarN_stop _ _ _ hstop) hn
  simpa [pColumns, columnsStr, Function.comp_def] using this

theorem convColumns_map [UTab] {st : Store} {tree : Ty → STy} {cols : List (Str × Ty)}
    (h : ∀ c ∈ cols, convTy st (tree c.2) = .ok c.2) :
    convColumns st (cols.map fun c => (c.1, tree c.2)) = .ok cols := by
  induction cols with
  | nil => rfl
  | cons c l ih =>
    simp only [List.map_cons, convColumns, h c (by simp), ih fun x hx => h x (by simp [hx])]
    rfl

theorem columnsStr_next [UTab] (st : Store) (o : Opts) (cols : List (Str × Ty)) (rest : Str) :
    NextNot (· == ' ') (columnsStr st o cols ++ ']' :: rest) := by
  cases cols with
  | nil => exact (nextNot_cons _ _ _).2 (by decide)
  | cons c l =>
    simp only [columnsStr, List.map_cons, joinS_cons, List.append_assoc]
    exact starts_next (showName_starts _ _) _

theorem pNamedColumn_none {c : Char} {s : Str} (h : isAlpha c = false) (h2 : c ≠ '"') :
    pNamedColumn (c :: s) = none := by
  simp [pNamedColumn, pName_none h h2]

/-! ### Headers -/

/-- The header without its indentation. -/
def headBody (o : Opts) (lvl : Nat) (h : Head) : Str :=
  match h.args with
  | .none => h.name.text ++ '[' :: (joinS cs!", " ((implicitCols o h.columns h.emit).map Out.text) ++ cs!"]")
  | .inline pos named =>
    h.name.text ++ '[' :: ((textArgList pos named).text ++ ' ' :: ((textOutput o h).text ++ cs!"]"))
  | .rows rows named =>
    h.name.text ++ '[' :: '\n' :: ((textRows (indentAt o (lvl + 1)) (named ≠ []) rows).text ++
      ((textRows (indentAt o (lvl + 1)) false named).text ++
        (indentAt o (lvl + 1) ++ '-' :: ' ' :: ((textOutput o h).text ++ cs!"]"))))

theorem textHeader_text (o : Opts) (lvl : Nat) (h : Head) :
    (textHeader o lvl h).text = indentAt o lvl ++ headBody o lvl h := by
  unfold textHeader headBody
  cases h.args <;> simp [Out.text_sep]

theorem textOutput_implicit (o : Opts) (h : Head) (he : h.explicit = false) :
    (textOutput o h).text = cs!"=> " ++ joinS cs!", " ((implicitCols o h.columns h.emit).map Out.text) := by
  simp [textOutput, he, Out.text_sep]

/-- A header with arguments and passed-on columns. -/
theorem headBody_inline {o : Opts} (ho : o.showEmit = false) (lvl : Nat) (h : Head) (pos named : List Out)
    (n : Nat) (c : Option Common) (ha : h.args = .inline pos named) (hx : h.explicit = false)
    (hc : h.columns = references n) (he : h.emit = getEmit c) (hr : InRange n (shown n c)) :
    headBody o lvl h = h.name.text ++ '[' :: ((textArgList pos named).text ++
      (cs!" => " ++ (refsText (shown n c) ++ [']']))) := by
  unfold headBody
  rw [ha]
  simp only [textOutput_implicit o h hx, hc, he, implicitCols_refs ho n c hr]
  simp

end Verif
