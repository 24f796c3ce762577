import Verif.Proofs.Panics
/-!
# Options and errors

Every printer reports the same errors under all options, except for the option that decides which columns
are written.
-/

namespace Verif
open StoreSpec TextSpec RelSpec PlanSpec PanicSpec

set_option autoImplicit false

section
variable (st : Store) (o o' : Opts)

theorem oe_anchor (k : Kind) (a : Nat) : (textAnchor st o k a).errs = (textAnchor st o' k a).errs := by
  unfold textAnchor
  split <;> simp

theorem oe_typify {x y : Out} (h : x.errs = y.errs) (n : Nul) (v : Nat) {ps qs : List Out}
    (hp : ps.map (·.errs) = qs.map (·.errs)) : (textifyType st o x n v ps).errs = (textifyType st o' y n v qs).errs := by
  have hv : (textVariation st o v).errs = (textVariation st o' v).errs := by
    unfold textVariation
    split
    · rfl
    · simp [oe_anchor st o o']
  have hl : (textParamList ps).errs = (textParamList qs).errs := by
    have : ∀ l, (textParamList l).errs = (l.map (·.errs)).flatten := by
      intro l
      cases l with
      | nil => rfl
      | cons a l => simp [textParamList, Out.errs_sep, List.flatMap]
    rw [this, this, hp]
  simp [textifyType, h, hv, hl]

mutual
theorem oe_ty : (t : Ty) → (textTy st o t).errs = (textTy st o' t).errs
  | .missing => rfl
  | .func => rfl
  | .alias => rfl
  | .simple .. => by rw [textTy, textTy]; exact oe_typify st o o' rfl _ _ rfl
  | .intervalDay .. => by rw [textTy, textTy]; exact oe_typify st o o' rfl _ _ rfl
  | .intervalCompound .. => by rw [textTy, textTy]; exact oe_typify st o o' rfl _ _ rfl
  | .len .. => by rw [textTy, textTy]; exact oe_typify st o o' rfl _ _ rfl
  | .decimal .. => by rw [textTy, textTy]; exact oe_typify st o o' rfl _ _ rfl
  | .prec .. => by rw [textTy, textTy]; exact oe_typify st o o' rfl _ _ rfl
  | .struct ts _ _ => by rw [textTy, textTy]; exact oe_typify st o o' rfl _ _ (oe_tys ts)
  | .list t _ _ => by
    have h := oe_tyOpt t
    rw [textTy, textTy]; exact oe_typify st o o' rfl _ _ (by simp [h])
  | .map a b _ _ => by
    have h1 := oe_tyOpt a
    have h2 := oe_tyOpt b
    rw [textTy, textTy]; exact oe_typify st o o' rfl _ _ (by simp [h1, h2])
  | .user r ps _ _ => by rw [textTy, textTy]; exact oe_typify st o o' (oe_anchor st o o' _ _) _ _ (oe_params ps)
  | .userRef r => by rw [textTy, textTy]; exact oe_typify st o o' (oe_anchor st o o' _ _) _ _ rfl
theorem oe_tyOpt : (t : Option Ty) → (textTyOpt st o t).errs = (textTyOpt st o' t).errs
  | none => rfl
  | some t => by rw [textTyOpt, textTyOpt]; exact oe_ty t
theorem oe_tys : (l : List Ty) → (textTys st o l).map (·.errs) = (textTys st o' l).map (·.errs)
  | [] => rfl
  | t :: l => by rw [textTys, textTys, List.map_cons, List.map_cons, oe_ty t, oe_tys l]
theorem oe_param : (p : Param) → (textParam st o p).errs = (textParam st o' p).errs
  | .missing => rfl
  | .null => rfl
  | .bool true => rfl
  | .bool false => rfl
  | .int _ => rfl
  | .enum _ => rfl
  | .str _ => rfl
  | .ty t => by rw [textParam, textParam]; exact oe_ty t
theorem oe_params : (l : List Param) → (textParams st o l).map (·.errs) = (textParams st o' l).map (·.errs)
  | [] => rfl
  | t :: l => by rw [textParams, textParams, List.map_cons, List.map_cons, oe_param t, oe_params l]
end

theorem oe_outType (t : Option Ty) : (textOutType st o t).errs = (textOutType st o' t).errs := by
  cases t with
  | none => rfl
  | some t => simp [textOutType, oe_ty st o o' t]

theorem oe_tyReq (t : Option Ty) : (textTyReq st o t).errs = (textTyReq st o' t).errs := by
  cases t with
  | none => rfl
  | some t => simp [textTyReq, oe_ty st o o' t]

theorem sep_errs_map {l l' : List Out} {s : Str} (h : l.map (·.errs) = l'.map (·.errs)) :
    (Out.sep s l).errs = (Out.sep s l').errs := by
  rw [Out.errs_sep, Out.errs_sep, List.flatMap, List.flatMap, h]

theorem oe_invocation (f : Nat) {a b : List Out} (opts : List Out) (h : a.map (·.errs) = b.map (·.errs)) :
    (textInvocation st o f a opts).errs = (textInvocation st o' f b opts).errs := by
  simp [textInvocation, oe_anchor st o o', sep_errs_map h]

variable [UTab] [FTab]

theorem oe_value (v : Lit) : (textValue o v).errs = (textValue o' v).errs := by
  unfold textValue
  split <;> rfl

theorem oe_lit (l : Literal) : (textLit st o l).errs = (textLit st o' l).errs := by
  unfold textLit
  split
  · rfl
  · simp [oe_ty st o o', oe_value o o']
  · have : ∀ (p : Opts) v, (if showSuffix p l.nullable v then textSuffix v l.nullable else .s []).errs = [] := by
      intro p v
      split
      · exact textSuffix_errs _ _
      · rfl
    simp [oe_value o o', this]

mutual
theorem oe_expr : (e : Expr) → (textExpr st o e).errs = (textExpr st o' e).errs
  | .missing => rfl
  | .other => rfl
  | .literal l => by rw [textExpr, textExpr]; exact oe_lit st o o' l
  | .selection f => rfl
  | .call f args opts t => by
    rw [textExpr, textExpr, Out.errs_append, Out.errs_append, oe_invocation st o o' f _ (oe_args args), oe_outType st o o']
  | .cast e t fb => by
    have h := oe_exprReq e
    simp [textExpr, h, oe_tyReq st o o']
  | .ifThen cs e => by
    have h1 := oe_clauses cs
    have h2 := oe_exprReq e
    simp [textExpr, h1, h2]
theorem oe_exprReq : (e : Option Expr) → (textExprReq st o e).errs = (textExprReq st o' e).errs
  | none => rfl
  | some e => by rw [textExprReq, textExprReq]; exact oe_expr e
theorem oe_args : (l : List Arg) → (textArgs st o l).map (·.errs) = (textArgs st o' l).map (·.errs)
  | [] => rfl
  | .missing :: l => by have h := oe_args l; simp [textArgs, textArg, h]
  | .ty t :: l => by have h := oe_args l; simp [textArgs, textArg, h, oe_ty st o o']
  | .enum s :: l => by have h := oe_args l; simp [textArgs, textArg, h]
  | .value e :: l => by have h := oe_args l; have h' := oe_expr e; simp [textArgs, textArg, h, h']
theorem oe_clauses : (l : List Clause) → (textClauses st o l).errs = (textClauses st o' l).errs
  | [] => rfl
  | .mk c t :: l => by
    have h1 := oe_exprReq c
    have h2 := oe_exprReq t
    have h3 := oe_clauses l
    simp [textClauses, h1, h2, h3]
end

theorem oe_exprs (l : List Expr) : (l.map (textExpr st o)).map (·.errs) = (l.map (textExpr st o')).map (·.errs) := by
  rw [List.map_map, List.map_map]
  exact List.map_congr_left fun e _ => oe_expr st o o' e

mutual
theorem oe_extValue : (v : ExtValue) → (textExtValue st o v).errs = (textExtValue st o' v).errs
  | .string _ => rfl
  | .integer _ => rfl
  | .float _ => rfl
  | .boolean _ => rfl
  | .null => rfl
  | .enum _ => rfl
  | .error _ => rfl
  | .expr e => by rw [textExtValue, textExtValue]; exact oe_expr st o o' e
  | .tuple vs => by
    have h := oe_extValues vs
    rw [textExtValue, textExtValue]
    simp only [Out.errs_append, Out.errs_s, List.nil_append, List.append_nil]
    match vs, h with
    | [], _ => rfl
    | [v], h =>
      rw [textExtValues, textExtValues] at h
      rw [textTupleItems, textTupleItems, Out.errs_append, Out.errs_append]
      exact congrArg (· ++ _) (List.cons.inj h).1
    | v :: w :: l, h =>
      simp only [textExtValues, List.map_cons, List.cons.injEq] at h
      have h1 := h.1
      have h2 : (textExtValues st o (w :: l)).map (·.errs) = (textExtValues st o' (w :: l)).map (·.errs) := by
        simp only [textExtValues, List.map_cons, h.2.1, h.2.2]
      rw [textTupleItems, textTupleItems]
      simp only [Out.errs_append, h1, sep_errs_map h2, Out.errs_s]
theorem oe_extValues : (l : List ExtValue) → (textExtValues st o l).map (·.errs) = (textExtValues st o' l).map (·.errs)
  | [] => rfl
  | v :: l => by rw [textExtValues, textExtValues, List.map_cons, List.map_cons, oe_extValue v, oe_extValues l]
end

theorem oe_named (l : List (Str × ExtValue)) :
    (l.map (textNamed st o)).map (·.errs) = (l.map (textNamed st o')).map (·.errs) := by
  rw [List.map_map, List.map_map]
  exact List.map_congr_left fun p _ => by simp [textNamed, oe_extValue st o o']

theorem oe_columns (l : List ExtColumn) :
    (l.map (textExtColumn st o)).map (·.errs) = (l.map (textExtColumn st o')).map (·.errs) := by
  rw [List.map_map, List.map_map]
  refine List.map_congr_left fun c _ => ?_
  cases c with
  | named n t => simp [textExtColumn, oe_ty st o o']
  | expr e => simp [textExtColumn, oe_expr st o o']

omit [UTab] [FTab] in
theorem argList_errs (p n : List Out) : (textArgList p n).errs = ((p ++ n).map (·.errs)).flatten := by
  unfold textArgList
  split
  · next h => simp [h.1, h.2]
  · rw [Out.errs_sep, List.flatMap]

theorem oe_extArgs (a : ExtArgs) : (textExtArgs st o a).errs = (textExtArgs st o' a).errs := by
  unfold textExtArgs
  rw [Out.errs_append, Out.errs_append, argList_errs, argList_errs, List.map_append, List.map_append,
    oe_extValues st o o', oe_named st o o']
  congr 1
  split
  · rfl
  · simp only [Out.errs_append, sep_errs_map (oe_columns st o o' a.columns), Out.errs_s]

theorem oe_addendum (k : AddKind) (d : Except ExtErr (Str × ExtArgs)) :
    (textAddendum st o k d).errs = (textAddendum st o' k d).errs := by
  unfold textAddendum
  split
  · rfl
  · split
    · simp [oe_extArgs st o o']
    · rfl

variable (reg : Registry ExtArgs (List Nat))

theorem oe_adv (a : Option AdvExt) :
    (advAddenda ⟨st, o, reg⟩ a).map (·.errs) = (advAddenda ⟨st, o', reg⟩ a).map (·.errs) := by
  cases a with
  | none => rfl
  | some a =>
    simp only [advAddenda, List.map_append, List.map_map]
    congr 1
    · exact List.map_congr_left fun d _ => oe_addendum st o o' _ _
    · exact List.map_congr_left fun d _ => oe_addendum st o o' _ _

end

/-! ## Headers -/

/-- Two headers report the same. -/
structure LikeHead (h h' : Head) : Prop where
  name : h.name.errs = h'.name.errs
  none : h.args = .none ↔ h'.args = .none
  args : h.args.outs.map (·.errs) = h'.args.outs.map (·.errs)
  columns : h.columns.map (·.errs) = h'.columns.map (·.errs)
  emit : h.emit = h'.emit
  explicit : h.explicit = h'.explicit
  addenda : h.addenda.map (·.errs) = h'.addenda.map (·.errs)

theorem LikeHead.emitted {h h' : Head} (k : LikeHead h h') : h.emitted = h'.emitted := by
  have hl : h.columns.length = h'.columns.length := by simpa using congrArg List.length k.columns
  unfold Head.emitted
  rw [k.emit, hl]

theorem oe_implicit {o o' : Opts} (ho : o.showEmit = o'.showEmit) {c c' : List Out} (e : Option Emit)
    (h : c.map (·.errs) = c'.map (·.errs)) :
    (implicitCols o c e).map (·.errs) = (implicitCols o' c' e).map (·.errs) := by
  have hg : ∀ i, (Out.expect cs!"Emitted" (getCol c i)).errs = (Out.expect cs!"Emitted" (getCol c' i)).errs := by
    intro i
    unfold getCol
    split
    · rfl
    · have := congrArg (fun l => l[i.toNat]?) h
      simp only [List.getElem?_map] at this
      cases h1 : c[i.toNat]? with
      | none =>
        cases h2 : c'[i.toNat]? with
        | none => rfl
        | some y => rw [h1, h2] at this; cases this
      | some x =>
        cases h2 : c'[i.toNat]? with
        | none => rw [h1, h2] at this; cases this
        | some y => rw [h1, h2] at this; exact Option.some.inj this
  unfold implicitCols
  rw [ho]
  split
  · exact h
  · split
    · rw [List.map_map, List.map_map]
      exact List.map_congr_left fun i _ => hg i
    · exact h
    · exact h

theorem oe_output {o o' : Opts} (ho : o.showEmit = o'.showEmit) {h h' : Head} (k : LikeHead h h') :
    (textOutput o h).errs = (textOutput o' h').errs := by
  unfold textOutput
  rw [k.explicit, k.emit]
  split
  · simp only [Out.errs_append, sep_errs_map k.columns, Out.errs_s]
  · simp only [Out.errs_append, sep_errs_map (oe_implicit ho _ k.columns), Out.errs_s]

theorem rows_errs (pre : Str) (more : Bool) : ∀ l : List Out, (textRows pre more l).errs = (l.map (·.errs)).flatten
  | [] => rfl
  | [r] => by simp [textRows]
  | r :: s :: l => by rw [textRows, List.map_cons, List.flatten_cons, ← rows_errs pre more (s :: l)]; simp

/-- What a header with arguments reports. -/
theorem header_errs (o : Opts) (lvl : Nat) (h : Head) (hn : h.args ≠ .none) :
    (textHeader o lvl h).errs = h.name.errs ++ (h.args.outs.map (·.errs)).flatten ++ (textOutput o h).errs := by
  unfold textHeader
  cases ha : h.args with
  | none => exact absurd ha hn
  | inline p n => simp [argList_errs, HeadArgs.outs]
  | rows p n => simp [rows_errs, HeadArgs.outs]

theorem oe_header {o o' : Opts} (ho : o.showEmit = o'.showEmit) (lvl lvl' : Nat) {h h' : Head} (k : LikeHead h h') :
    (textHeader o lvl h).errs = (textHeader o' lvl' h').errs := by
  by_cases hn : h.args = .none
  · unfold textHeader
    rw [hn, k.none.1 hn]
    simp only [Out.errs_append, Out.errs_s, k.name, k.emit, sep_errs_map (oe_implicit ho h'.emit k.columns)]
  · rw [header_errs o lvl h hn, header_errs o' lvl' h' (fun e => hn (k.none.2 e)), k.name, k.args, oe_output ho k]

theorem addenda_errs (pre : Str) : ∀ l : List Out, (textAddenda pre l).errs = (l.map (·.errs)).flatten
  | [] => rfl
  | a :: l => by simp [textAddenda, addenda_errs pre l]

/-! ## Relations -/

section
variable [UTab] [FTab] (st : Store) (o o' : Opts) (reg : Registry ExtArgs (List Nat))

omit [FTab] in
theorem oe_readColumns (s : Option NamedStruct) :
    (readColumns st o s).map (·.errs) = (readColumns st o' s).map (·.errs) := by
  cases s with
  | none => rfl
  | some s =>
    simp only [readColumns, schemaValues, List.map_map]
    exact List.map_congr_left fun f _ => by simp [textField, oe_tyReq st o o']

theorem oe_expect (n : Str) (e : Option Expr) : (Out.expect n (e.map (textExpr st o))).errs =
    (Out.expect n (e.map (textExpr st o'))).errs := by
  cases e with
  | none => rfl
  | some e => exact oe_expr st o o' e

theorem oe_count (n : Str) (c : Option Count) :
    (c.toList.map fun c => textNamedArg n (textCount st o c)).map (·.errs) =
      (c.toList.map fun c => textNamedArg n (textCount st o' c)).map (·.errs) := by
  cases c with
  | none => rfl
  | some c =>
    cases c with
    | deprecated i => rfl
    | expr e => simp [textNamedArg, textCount, oe_expr st o o']

theorem oe_post (n : Str) (c : Option Expr) :
    (c.toList.map fun c => textNamedArg n (textExpr st o c)).map (·.errs) =
      (c.toList.map fun c => textNamedArg n (textExpr st o' c)).map (·.errs) := by
  cases c with
  | none => rfl
  | some c => simp [textNamedArg, oe_expr st o o']

omit [UTab] [FTab] in
theorem map_errs_nil {a b : List Out} (h : a.map (·.errs) = b.map (·.errs)) : a = [] ↔ b = [] := by
  cases a <;> cases b <;> simp at h ⊢

omit [UTab] [FTab] in
theorem tuple_errs {a b : List Out} (h : a.map (·.errs) = b.map (·.errs)) : (textTuple a).errs = (textTuple b).errs := by
  simp only [textTuple, Out.errs_append, Out.errs_s, sep_errs_map h]

omit [UTab] [FTab] in
theorem oe_groupingArgs {a b : List (List Out)} (h : a.map (·.map (·.errs)) = b.map (·.map (·.errs))) :
    (groupingArgs a).map (·.errs) = (groupingArgs b).map (·.errs) := by
  have key : ∀ {x y : List Out}, x.map (·.errs) = y.map (·.errs) →
      (if x = [] then Out.s cs!"_" else textTuple x).errs = (if y = [] then Out.s cs!"_" else textTuple y).errs := by
    intro x y hxy
    have hi := map_errs_nil hxy
    by_cases hx : x = []
    · rw [if_pos hx, if_pos (hi.1 hx)]
    · rw [if_neg hx, if_neg (fun e => hx (hi.2 e)), tuple_errs hxy]
  have gen : ∀ {a b : List (List Out)}, a.map (·.map (·.errs)) = b.map (·.map (·.errs)) →
      (a.map fun g => if g = [] then Out.s cs!"_" else textTuple g).map (·.errs) =
        (b.map fun g => if g = [] then Out.s cs!"_" else textTuple g).map (·.errs) := by
    intro a
    induction a with
    | nil => intro b h; cases b with
      | nil => rfl
      | cons y b => cases h
    | cons x a ih =>
      intro b h
      cases b with
      | nil => cases h
      | cons y b =>
        simp only [List.map_cons, List.cons.injEq] at h ⊢
        exact ⟨key h.1, ih h.2⟩
  match a, b, h with
  | [], [], _ => rfl
  | [x], [y], h =>
    simp only [List.map_cons, List.map_nil, List.cons.injEq, and_true] at h
    have hi := map_errs_nil h
    unfold groupingArgs
    by_cases hx : x = []
    · simp only [hx, hi.1 hx]
    · simp only [if_neg hx, if_neg (fun e => hx (hi.2 e))]
      exact h
  | [_], _ :: _ :: _, h => simp at h
  | _ :: _ :: _, [_], h => simp at h
  | x :: x' :: a, y :: y' :: b, h => exact gen h

theorem oe_groupings (ge : List Expr) (gs : List Grouping) :
    (groupingValues st o ge gs).1.map (·.errs) = (groupingValues st o' ge gs).1.map (·.errs) ∧
    (groupingValues st o ge gs).2.map (·.map (·.errs)) = (groupingValues st o' ge gs).2.map (·.map (·.errs)) := by
  unfold groupingValues
  split
  · refine ⟨oe_exprs st o o' _, ?_⟩
    rw [List.map_map, List.map_map]
    exact List.map_congr_left fun g _ => oe_exprs st o o' _
  · refine ⟨oe_exprs st o o' _, ?_⟩
    dsimp only
    split
    · rfl
    · rw [List.map_map, List.map_map]
      refine List.map_congr_left fun g _ => ?_
      simp only [Function.comp, List.map_map]
      exact List.map_congr_left fun i _ => oe_expect st o o' _ _

theorem oe_relHead (ws : List (Option Nat)) (op : RelOp) :
    LikeHead (relHead ⟨st, o, reg⟩ ws op) (relHead ⟨st, o', reg⟩ ws op) := by
  have hadv := oe_adv st o o' reg
  have app : ∀ {a b c d : List Out}, a.map (·.errs) = b.map (·.errs) → c.map (·.errs) = d.map (·.errs) →
      (a ++ c).map (·.errs) = (b ++ d).map (·.errs) := by
    intro a b c d h k
    rw [List.map_append, List.map_append, h, k]
  cases op with
  | read common schema filter ty adv r =>
    unfold relHead headRead
    cases ty with
    | named names x => exact ⟨rfl, by simp, rfl, oe_readColumns st o o' _, rfl, rfl, hadv _⟩
    | extension d =>
      refine ⟨rfl, by simp, rfl, oe_readColumns st o o' _, rfl, rfl, ?_⟩
      rw [List.map_cons, List.map_cons, hadv, oe_addendum st o o']
    | other => exact ⟨rfl, by simp, rfl, oe_readColumns st o o' _, rfl, rfl, hadv _⟩
    | «virtual» rows x =>
      have hr : (rows.map fun r => textTuple (r.map (textExpr st o))).map (·.errs) =
          (rows.map fun r => textTuple (r.map (textExpr st o'))).map (·.errs) := by
        rw [List.map_map, List.map_map]
        exact List.map_congr_left fun r _ => tuple_errs (oe_exprs st o o' r)
      have hf := oe_post st o o' cs!"filter" filter
      have hp : (if (rows.map fun r => textTuple (r.map (textExpr st o))) = [] ∧
            (filter.toList.map fun e => textNamedArg cs!"filter" (textExpr st o e)) ≠ [] then [Out.s cs!"_"]
            else rows.map fun r => textTuple (r.map (textExpr st o))).map (·.errs) =
          (if (rows.map fun r => textTuple (r.map (textExpr st o'))) = [] ∧
            (filter.toList.map fun e => textNamedArg cs!"filter" (textExpr st o' e)) ≠ [] then [Out.s cs!"_"]
            else rows.map fun r => textTuple (r.map (textExpr st o'))).map (·.errs) := by
        have h1 := map_errs_nil hr
        have h2 := map_errs_nil hf
        by_cases hc : (rows.map fun r => textTuple (r.map (textExpr st o))) = [] ∧
            (filter.toList.map fun e => textNamedArg cs!"filter" (textExpr st o e)) ≠ []
        · rw [if_pos hc, if_pos ⟨h1.1 hc.1, fun e => hc.2 (h2.2 e)⟩]
        · rw [if_neg hc, if_neg (fun e => hc ⟨h1.2 e.1, fun k => e.2 (h2.1 k)⟩)]
          exact hr
      refine ⟨rfl, ?_, ?_, oe_readColumns st o o' _, rfl, rfl, hadv _⟩
      · dsimp only
        constructor <;> intro h <;> split at h <;> cases h
      · have : ∀ (c : Prop) [Decidable c] (a b : List Out), (if c then HeadArgs.rows a b else .inline a b).outs = a ++ b := by
          intro c _ a b; split <;> rfl
        dsimp only
        rw [this, this]
        exact app hp hf
  | filter common cond adv =>
    refine ⟨rfl, by simp [relHead], ?_, rfl, rfl, rfl, hadv _⟩
    simp [relHead, HeadArgs.outs, oe_expect st o o']
  | project common exprs adv =>
    refine ⟨rfl, by simp [relHead], rfl, ?_, rfl, rfl, hadv _⟩
    exact app rfl (oe_exprs st o o' exprs)
  | aggregate common ge gs ms adv =>
    obtain ⟨h1, h2⟩ := oe_groupings st o o' ge gs
    refine ⟨rfl, by simp [relHead, headAggregate], ?_, ?_, rfl, rfl, hadv _⟩
    · exact app (oe_groupingArgs h2) rfl
    · refine app h1 ?_
      rw [List.map_filterMap, List.map_filterMap]
      refine congrArg (fun f => ms.filterMap f) (funext fun m => ?_)
      cases m.fn with
      | none => rfl
      | some a =>
        simp only [Option.map_some, textAggFn, Out.errs_append, oe_invocation st o o' a.f _ (oe_args st o o' a.args),
          oe_outType st o o']
  | sort common sorts adv =>
    refine ⟨rfl, by simp [relHead], ?_, rfl, rfl, rfl, hadv _⟩
    refine app ?_ rfl
    rw [List.map_map, List.map_map]
    refine List.map_congr_left fun f _ => tuple_errs ?_
    simp [oe_expect st o o']
  | fetch common count offset adv =>
    refine ⟨rfl, by simp [relHead], ?_, rfl, rfl, rfl, hadv _⟩
    exact app rfl (app (oe_count st o o' _ _) (oe_count st o o' _ _))
  | join common ty cond post adv =>
    refine ⟨rfl, by simp [relHead], ?_, rfl, rfl, rfl, hadv _⟩
    exact app (by simp [oe_expect st o o']) (oe_post st o o' _ _)
  | set common op adv => exact ⟨rfl, by simp [relHead], rfl, rfl, rfl, rfl, hadv _⟩
  | cross common adv => exact ⟨rfl, by simp [relHead], rfl, rfl, rfl, rfl, hadv _⟩
  | ext kind common detail =>
    simp only [relHead, headExt]
    split
    · refine ⟨rfl, by simp, ?_, oe_columns st o o' _, rfl, rfl, rfl⟩
      exact app (oe_extValues st o o' _) (oe_named st o o' _)
    · exact ⟨rfl, by simp, rfl, rfl, rfl, rfl, rfl⟩
  | other r => exact ⟨rfl, by simp [relHead], rfl, rfl, rfl, rfl, rfl⟩

mutual
theorem oe_width : (r : Rel) → relWidth ⟨st, o, reg⟩ r = relWidth ⟨st, o', reg⟩ r
  | .node op ins => by
    rw [relWidth, relWidth, oe_widths ins]
    exact (oe_relHead st o o' reg _ op).emitted
theorem oe_widths : (l : List (Option Rel)) → inputWidths ⟨st, o, reg⟩ l = inputWidths ⟨st, o', reg⟩ l
  | [] => rfl
  | none :: l => by rw [inputWidths, inputWidths, oe_widths l]
  | some r :: l => by rw [inputWidths, inputWidths, oe_widths l, oe_width r]
end

variable {o o'} (ho : o.showEmit = o'.showEmit)
include ho

mutual
theorem oe_rel (lvl : Nat) : (r : Rel) → (textRel ⟨st, o, reg⟩ lvl r).errs = (textRel ⟨st, o', reg⟩ lvl r).errs
  | .node op ins => by
    have k := oe_relHead st o o' reg (inputWidths ⟨st, o', reg⟩ ins) op
    have h := oe_inputs (lvl + 1) ins
    rw [textRel, textRel, oe_widths st o o' reg ins]
    simp only [Out.errs_append, oe_header ho lvl lvl k, addenda_errs, k.addenda]
    congr 1
    split
    · exact h
    · rfl
theorem oe_inputs (lvl : Nat) : (l : List (Option Rel)) →
    (textInputs ⟨st, o, reg⟩ lvl l).errs = (textInputs ⟨st, o', reg⟩ lvl l).errs
  | [] => rfl
  | none :: l => by rw [textInputs, textInputs]; exact oe_inputs lvl l
  | some r :: l => by
    have h1 := oe_rel lvl r
    have h2 := oe_inputs lvl l
    rw [textInputs, textInputs]
    simp only [Out.errs_append, h1, h2, Out.errs_s]
end

theorem oe_planRel (r : PlanRel) : (textPlanRel ⟨st, o, reg⟩ r).errs = (textPlanRel ⟨st, o', reg⟩ r).errs := by
  cases r with
  | rel r => exact oe_rel st reg ho 0 r
  | missing => rfl
  | root names input =>
    cases input with
    | none => rfl
    | some r => simp [textPlanRel, oe_rel st reg ho 1 r]

theorem oe_planRels : ∀ l : List PlanRel, (textPlanRels ⟨st, o, reg⟩ l).errs = (textPlanRels ⟨st, o', reg⟩ l).errs
  | [] => rfl
  | [r] => oe_planRel st reg ho r
  | r :: s :: l => by
    rw [textPlanRels, textPlanRels]
    simp only [Out.errs_append, oe_planRel st reg ho r, oe_planRels (s :: l), Out.errs_s]

theorem oe_plan (p : Plan) : (textPlan reg o p).errs = (textPlan reg o' p).errs := by
  unfold textPlan
  simp only [Out.errs_append, Out.errs_s, oe_planRels p.store reg ho p.rels]

end

end Verif
