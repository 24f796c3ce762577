import Verif.Spec.ExtArgs
import Verif.Proofs.ExprsRT
/-!
# Extension arguments are read back from their text
-/

namespace Verif
open StoreSpec TextSpec

set_option autoImplicit false

/-! ### Words -/

theorem prefix_before {w a r : Str} {c : Char} (h : w <+: a ++ c :: r) (hc : c ∉ w) : w <+: a := by
  obtain ⟨x, h⟩ := h
  induction w generalizing a with
  | nil => exact List.nil_prefix
  | cons d w ih =>
    cases a with
    | nil =>
      simp only [List.cons_append, List.nil_append, List.cons.injEq] at h
      exact absurd (by simp [h.1]) hc
    | cons e a =>
      simp only [List.cons_append, List.cons.injEq] at h
      obtain ⟨rfl, h⟩ := h
      exact List.prefix_cons_inj _ |>.2 (ih (fun hm => hc (by simp [hm])) h)

/-- A clear name, followed by anything not in a word, is not a value. -/
theorem clear_not_word {n r : Str} {c : Char} (hn : ClearName n) (hc : ∀ w ∈ valueWords, c ∉ w) (x : Str)
    (w : Str) (hw : w ∈ valueWords) : n ++ c :: r ≠ w ++ x := by
  intro h
  exact hn w hw (prefix_before ⟨x, h.symm⟩ (hc w hw))

theorem pValue_clear {n r : Str} {c : Char} (hn : ClearName n) (hc : ∀ w ∈ valueWords, c ∉ w)
    (hh : ∃ d t, n = d :: t ∧ isAlpha d = true) : pValue (n ++ c :: r) = none := by
  cases h : pValue (n ++ c :: r) with
  | none => rfl
  | some x =>
    obtain ⟨v, rest⟩ := x
    obtain ⟨d, t, rfl, hd⟩ := hh
    rcases pValue_head h with ⟨e, u, h, he⟩ | h | h | h
    · simp only [List.cons_append, List.cons.injEq] at h
      rw [← h.1] at he
      rw [(valueHead_not_alpha he).1] at hd; cases hd
    · exact absurd h (clear_not_word hn hc _ _ (by simp [valueWords]))
    · exact absurd h (clear_not_word hn hc _ _ (by simp [valueWords]))
    · exact absurd h (clear_not_word hn hc _ _ (by simp [valueWords]))

theorem pParamLit_none {s : Str} (h : pValue s = none) : pParamLit s = none := by
  simp [pParamLit, h]

theorem ExprFollow.noColon {s : Str} (h : ExprFollow s) : notAhead ':' s = some s := by
  unfold notAhead
  cases s with
  | nil => rfl
  | cons c s =>
    have := (nextNot_cons _ _ _).1 h.1
    rw [if_neg]
    intro hc
    simp only [List.head?_cons, Option.some.injEq] at hc
    subst hc; cases this

theorem pEnumValue_none {c : Char} {s : Str} (h : c ≠ '&') : pEnumValue (c :: s) = none := by
  simp [pEnumValue, lit_ne (Ne.symm h)]

/-! ### Shown names -/

theorem baseName_prefix (n : Str) : baseName n <+: n := by
  unfold baseName; exact List.takeWhile_prefix _

/-- As `textAnchor_function`, and what is shown is the declared name or a part of it. -/
theorem textAnchor_function' {st : Store} (hst : st.Ordered) (o : Opts) (ho : o.anchors ≠ .never) (f : Nat)
    (name : Str) (hd : Declared st .function f name) (hn : FunctionName name) :
    ∃ (n : Str) (a : Option Nat), textAnchor st o .function f = .s (n ++ showAnchor a) ∧
      FunctionName n ∧ n <+: name := by
  obtain ⟨na, h1, h2, h3, h4⟩ := Store.printed_function hst o.anchors ho f name hd
  refine ⟨na.shownName o.anchors, na.shownAnchor o.anchors, by unfold textAnchor; rw [h1], ?_⟩
  unfold NamedAnchor.shownName
  rw [h2]
  have : ∀ b : Bool, FunctionName (if b = true then name else baseName name) ∧
      (if b = true then name else baseName name) <+: name := by
    intro b
    cases b
    · exact ⟨hn.base, baseName_prefix _⟩
    · exact ⟨hn, List.prefix_refl _⟩
  exact this _

theorem ClearName.prefix {a b : Str} (h : ClearName b) (hp : a <+: b) : ClearName a :=
  fun w hw hwa => h w hw (hwa.trans hp)

/-! ### Scalars -/

/-- A scalar argument. -/
theorem pArg_scalar {x : Str} {sv : SVal} (hv : ∀ r, NextNot numContinues r → pValue (x ++ r) = some (sv, r))
    (hx : ∃ c t, x = c :: t ∧ c ≠ '&') (n : Nat) (rest : Str) (hr : ExprFollow rest) :
    pArgN (n + 1) (x ++ rest) = some (.lit sv, rest) := by
  have h1 : pParamLit (x ++ rest) = some (sv, rest) := by
    simp [pParamLit, hv rest (LitFollow.num hr.1), hr.noColon]
  have h2 : pEnumValue (x ++ rest) = none := by
    obtain ⟨c, t, rfl, hc⟩ := hx
    exact pEnumValue_none hc
  simp [pArgN, h1, h2, mapFst]

/-- Read as an expression, a scalar is an untyped literal. -/
theorem pExpr_scalar {x : Str} {sv : SVal} (hv : ∀ r, NextNot numContinues r → pValue (x ++ r) = some (sv, r))
    (hx : ∃ c t, x = c :: t ∧ (valueHead c = true ∨ (isAlpha c = true ∧ '(' ∉ c :: t ∧ c ≠ 'i')))
    (n : Nat) (rest : Str) (hr : ExprFollow rest) :
    pExprN (n + 1) (x ++ rest) = some (.lit ⟨sv, none⟩, rest) := by
  have h1 := pLiteral_plain x sv hv rest hr.1
  obtain ⟨c, t, rfl, h4⟩ := hx
  have hne : c ≠ 'i' ∧ c ≠ '(' ∧ c ≠ '$' := by
    rcases h4 with h4 | h4
    · have := valueHead_not_alpha h4; exact ⟨this.2.2.1, this.2.1, this.2.2.2.1⟩
    · exact ⟨h4.2.2, ident_ne_paren (isAlpha_ident h4.1), by rintro rfl; exact absurd h4.1 (by decide)⟩
  have hcall : pCallWith (pExprN n) (c :: t ++ rest) = none := by
    rcases h4 with h4 | h4
    · exact pCall_none_head (valueHead_not_alpha h4).1
    · exact pCall_none_text h4.2.1 hr.2
  rw [pExprN, h1, hcall]
  rw [List.cons_append, lit_if_none hne.1, pCast_none hne.2.1, pRef_none hne.2.2]
  rfl

/-! ### Expressions as arguments -/

theorem text_value_head [UTab] [FTab] (hA : AsciiPrintable) (st : Store) (o : Opts) (nullable : Bool) (v : Lit)
    (hn : ∀ t, v ≠ .null t) (h : Spelled st nullable v) :
    ∃ sv, (∀ r, NextNot numContinues r → pValue ((textValue o v).text ++ r) = some (sv, r)) ∧
      v.suffix.isSome = true := by
  obtain ⟨sv, h1, _, h3, _, _⟩ := value_text hA st o nullable v hn h
  exact ⟨sv, h1, h3⟩

theorem withType_shown (o : Opts) (hl : o.litTypes ≠ .never) (v : Lit) (nullable : Bool) (h : WithType o ⟨some v, nullable, 0⟩)
    (hb : ∀ b, v ≠ .binary b) : showSuffix o nullable v = true := by
  unfold showSuffix
  rcases h with h | h | h
  · rw [h]
  · simp only at h
    subst h
    split
    · rename_i e; exact absurd e hl
    · rfl
    · rfl
  · have := h v rfl
    split
    · rename_i e; exact absurd e hl
    · rfl
    · cases v with
      | int w i => cases w <;> first | exact absurd trivial this | (simp [Lit.isDefault])
      | binary b => exact absurd rfl (hb b)
      | bool b => exact absurd trivial this
      | fp64 b => exact absurd trivial this
      | string b => exact absurd trivial this
      | _ => simp [Lit.isDefault]

/-- A literal written with its type is not a scalar argument. -/
theorem pParamLit_typed [UTab] [FTab] (hA : AsciiPrintable) {st : Store} (o : Opts)
    (hl : o.litTypes ≠ .never) (l : Literal) (h : Survives st l) (ht : WithType o l) (rest : Str) :
    pParamLit ((textLit st o l).text ++ rest) = none := by
  obtain ⟨value, nullable, tvar⟩ := l
  obtain ⟨h0, v, h1, h2⟩ := h
  simp only at h0 h1 h2
  subst h0 h1
  by_cases hn : ∃ t, v = .null t
  · obtain ⟨t, rfl⟩ := hn
    have := pValue_null (':' :: ((textTy st o t).text ++ rest))
    simp [textLit] at this ⊢
    simp [pParamLit, this, notAhead]
  · have hn : ∀ t, v ≠ .null t := fun t e => hn ⟨t, e⟩
    have hb : ∀ b, v ≠ .binary b := by rintro b rfl; exact h2
    obtain ⟨sv, h3, h5⟩ := text_value_head hA st o nullable v hn h2
    have htx : textLit st o ⟨some v, nullable, 0⟩ =
        textValue o v ++ (if showSuffix o nullable v then textSuffix v nullable else .s []) := by
      cases v with
      | null t => exact absurd rfl (hn t)
      | _ => rfl
    have hv := h3 (':' :: ((textTy st o (v.ty nullable)).text ++ rest)) ((nextNot_cons _ _ _).2 (by decide))
    rw [htx, if_pos (withType_shown o hl v nullable ht hb), Out.text_append, textSuffix_ty st o v nullable h5]
    simp only [List.append_assoc, List.cons_append]
    simp [pParamLit, hv, notAhead]

theorem showAnchor_head (a : Option Nat) (r : Str) :
    ∃ c t, showAnchor a ++ '(' :: r = c :: t ∧ (c = '(' ∨ c = '#') := by
  cases a with
  | none => exact ⟨_, _, rfl, .inl rfl⟩
  | some a => exact ⟨_, _, rfl, .inr rfl⟩

theorem convExpr_ref_ok [FTab] {st : Store} {i : IntTok} {e : Expr} (h : convExpr st (.ref i) = .ok e) :
    ∃ j, e = .selection (.field j none) := by
  simp only [convExpr] at h
  cases hi : convIndex i with
  | ok j => rw [hi] at h; cases h; exact ⟨j, rfl⟩
  | err x => rw [hi] at h; cases h
  | panic => rw [hi] at h; cases h

/-- How the argument rule reads an expression. -/
def SArg.ofExpr : SExpr → SArg
  | .ref i => .ref i
  | e => .expr e

theorem convArg_ofExpr [FTab] {st : Store} {s : SExpr} {e : Expr} (h : convExpr st s = .ok e) :
    convArg st (SArg.ofExpr s) = .ok (.expr e) := by
  cases s with
  | ref i =>
    simp only [convExpr] at h
    cases hi : convIndex i with
    | ok j => rw [hi] at h; cases h; simp [SArg.ofExpr, convArg, hi]
    | err x => rw [hi] at h; cases h
    | panic => rw [hi] at h; cases h
  | _ => simp [SArg.ofExpr, convArg, h]

/-- An expression that is not taken for a scalar is read as an argument. -/
theorem pArg_expr [UTab] [FTab] (hA : AsciiPrintable) {st : Store} (hst : st.Ordered) (o : Opts)
    (ho : o.anchors ≠ .never) (hl : o.litTypes ≠ .never) (e : Expr) (h : Faithful st e) (ha : ArgExpr st o e) :
    ∃ s, convExpr st s = .ok e ∧
      ∀ (fuel : Nat) (rest : Str), ExprFollow rest →
        pArgN (fuel + 1) ((textExpr st o e).text ++ rest) = some (SArg.ofExpr s, rest) := by
  obtain ⟨s, h1, h2⟩ := pExpr_text hA hst o ho hl e h
  have fin : ∀ rest, ExprFollow rest → pEnumValue ((textExpr st o e).text ++ rest) = none →
      pParamLit ((textExpr st o e).text ++ rest) = none → pRef ((textExpr st o e).text ++ rest) = none →
      SArg.ofExpr s = .expr s → ∀ fuel, pArgN (fuel + 1) ((textExpr st o e).text ++ rest) = some (SArg.ofExpr s, rest) := by
    intro rest hr h3 h4 h5 h6 fuel
    rw [pArgN, h3, h4, h5, h2 rest hr, h6]; rfl
  refine ⟨s, h1, ?_⟩
  intro fuel rest hr
  cases e with
  | missing => exact (by simp [Faithful] at h)
  | other => exact (by simp [Faithful] at h)
  | literal l =>
    simp only [Faithful] at h
    simp only [ArgExpr] at ha
    obtain ⟨c, t, h3, h4⟩ := lit_shape hA hst o ho l h
    have hc : c ≠ '&' ∧ c ≠ '$' := by
      rcases h4 with h4 | h4
      · exact ⟨by rintro rfl; revert h4; decide, (valueHead_not_alpha h4).2.2.2.1⟩
      · exact ⟨by rintro rfl; exact absurd h4.1 (by decide), by rintro rfl; exact absurd h4.1 (by decide)⟩
    refine fin rest hr ?_ ?_ ?_ ?_ fuel
    · rw [textExpr, h3]; exact pEnumValue_none hc.1
    · rw [textExpr]; exact pParamLit_typed hA o hl l h ha rest
    · rw [textExpr, h3]; exact pRef_none hc.2
    · cases s with
      | ref i => obtain ⟨j, hj⟩ := convExpr_ref_ok h1; cases hj
      | _ => rfl
  | selection f =>
    cases f with
    | field i child =>
      cases child with
      | some c => exact (by simp [Faithful] at h)
      | none =>
        have hd : NextNot isDigit rest := NextNot.mono hr.1 fun c hc => by
          simp [litContinues, typeContinues, isDigit_ident hc]
        have htx : (textExpr st o (.selection (.field i none))).text ++ rest = '$' :: (decInt i ++ rest) := by
          simp [textExpr, textFieldRef, textRef]
        have hp : pRef ('$' :: (decInt i ++ rest)) = some (.ofInt i, rest) := by
          simp [pRef, lit, pInteger_decInt i rest hd]
        have h2' := h2 rest hr
        rw [htx] at h2' ⊢
        have hs : s = .ref (.ofInt i) := by
          rw [pExpr, pExprN, lit_if_none (by decide), pCast_none (by decide), pCall_none_head (by decide), hp] at h2'
          simp [mapFst] at h2'
          exact h2'.symm
        have hv : pParamLit ('$' :: (decInt i ++ rest)) = none := by
          apply pParamLit_none
          cases hx : pValue ('$' :: (decInt i ++ rest)) with
          | none => rfl
          | some x =>
            rcases pValue_head (v := x.1) (r := x.2) hx with ⟨c, t, h, hc⟩ | h | h | h
            · simp only [List.cons.injEq] at h; rw [← h.1] at hc; cases hc
            all_goals simp at h
        rw [pArgN, pEnumValue_none (by decide), hv, hp, hs]
        rfl
    | badReference => exact (by simp [Faithful] at h)
    | badSegment => exact (by simp [Faithful] at h)
  | call f args opts out =>
    cases out with
    | none => exact (by simp [Faithful] at h)
    | some t =>
      simp only [Faithful] at h
      simp only [ArgExpr] at ha
      obtain ⟨_, rfl, ⟨name, hd, hn⟩, _, _⟩ := h
      obtain ⟨n, a, h3, h4, h5⟩ := textAnchor_function' hst o ho f name hd hn
      have hcl := (ha name hd).prefix h5
      have htx := call_text o (args := args) (t := t) h3
      obtain ⟨c, tl, h6, h7⟩ := showAnchor_head a (joinS cs!", " ((textArgs st o args).map Out.text) ++ ')' :: ':' :: (textTy st o t).text)
      rw [h6] at htx
      obtain ⟨c0, t0, h8, h9⟩ := h4.head
      have hv : pValue (n ++ c :: (tl ++ rest)) = none := by
        refine pValue_clear hcl ?_ ⟨c0, t0, h8, h9⟩
        intro w hw
        simp only [valueWords, List.mem_cons, List.not_mem_nil, or_false] at hw
        rcases hw with rfl | rfl | rfl <;> rcases h7 with rfl | rfl <;> decide
      refine fin rest hr ?_ ?_ ?_ ?_ fuel
      · rw [htx, h8]; exact pEnumValue_none (by rintro rfl; exact absurd h9 (by decide))
      · rw [htx]; simp only [List.append_assoc, List.cons_append]; exact pParamLit_none hv
      · rw [htx, h8]; exact pRef_none (by rintro rfl; exact absurd h9 (by decide))
      · cases s with
        | ref i => obtain ⟨j, hj⟩ := convExpr_ref_ok h1; cases hj
        | _ => rfl
  | cast e t fb =>
    obtain ⟨tl, htx⟩ : ∃ tl, (textExpr st o (.cast e t fb)).text = '(' :: tl := ⟨_, by simp [textExpr]; rfl⟩
    refine fin rest hr ?_ ?_ ?_ ?_ fuel
    · rw [htx]; exact pEnumValue_none (by decide)
    · rw [htx]
      apply pParamLit_none
      cases hx : pValue ('(' :: tl ++ rest) with
      | none => rfl
      | some x =>
        rcases pValue_head (v := x.1) (r := x.2) hx with ⟨c, t, h, hc⟩ | h | h | h
        · simp only [List.cons_append, List.cons.injEq] at h; rw [← h.1] at hc; cases hc
        all_goals simp at h
    · rw [htx]; exact pRef_none (by decide)
    · cases s with
      | ref i => obtain ⟨j, hj⟩ := convExpr_ref_ok h1; cases hj
      | _ => rfl
  | ifThen ifs els =>
    obtain ⟨tl, htx⟩ : ∃ tl, (textExpr st o (.ifThen ifs els)).text = 'i' :: tl := ⟨_, by simp [textExpr]; rfl⟩
    refine fin rest hr ?_ ?_ ?_ ?_ fuel
    · rw [htx]; exact pEnumValue_none (by decide)
    · rw [htx]
      apply pParamLit_none
      cases hx : pValue ('i' :: tl ++ rest) with
      | none => rfl
      | some x =>
        rcases pValue_head (v := x.1) (r := x.2) hx with ⟨c, t, h, hc⟩ | h | h | h
        · simp only [List.cons_append, List.cons.injEq] at h; rw [← h.1] at hc; cases hc
        all_goals simp at h
    · rw [htx]; exact pRef_none (by decide)
    · cases s with
      | ref i => obtain ⟨j, hj⟩ := convExpr_ref_ok h1; cases hj
      | _ => rfl

/-! ### Values -/

/-- What is shown of a value's text: it is read as an argument, and as an expression it is read
whole or not at all. -/
structure ArgText [FTab] (st : Store) (x : Str) (a : SArg) (v : ExtValue) : Prop where
  conv : convArg st a = .ok v
  starts : ∃ c t, x = c :: t ∧ c ≠ ' ' ∧ c ≠ ')' ∧ c ≠ '_'
  arg : ∀ (fuel : Nat) (rest : Str), x.length < fuel → ExprFollow rest → pArgN fuel (x ++ rest) = some (a, rest)
  expr : ∀ (fuel : Nat) (rest : Str), x.length < fuel → ExprFollow rest →
    pExprN fuel (x ++ rest) = none ∨ ∃ s, pExprN fuel (x ++ rest) = some (s, rest)

theorem ArgText.starts' [FTab] {st : Store} {x : Str} {a : SArg} {v : ExtValue} (h : ArgText st x a v) : Starts x := by
  obtain ⟨c, t, h1, h2, _⟩ := h.starts
  exact ⟨c, t, h1, h2⟩

theorem argText_scalar [FTab] {st : Store} {x : Str} {sv : SVal} {v : ExtValue}
    (hv : ∀ r, NextNot numContinues r → pValue (x ++ r) = some (sv, r))
    (hx : ∃ c t, x = c :: t ∧ (valueHead c = true ∨ (isAlpha c = true ∧ '(' ∉ c :: t ∧ c ≠ 'i')))
    (hc : convParamLit sv = .ok v) : ArgText st x (.lit sv) v := by
  have hne : ∃ c t, x = c :: t ∧ c ≠ '&' ∧ c ≠ ' ' ∧ c ≠ ')' ∧ c ≠ '_' := by
    obtain ⟨c, t, h, h2⟩ := hx
    refine ⟨c, t, h, ?_⟩
    rcases h2 with h2 | h2
    · refine ⟨?_, ?_, ?_, ?_⟩ <;> (rintro rfl; revert h2; decide)
    · have := h2.1
      refine ⟨?_, ?_, ?_, ?_⟩ <;> (rintro rfl; revert this; decide)
  refine ⟨hc, ?_, ?_, ?_⟩
  · obtain ⟨c, t, h, _, h2⟩ := hne; exact ⟨c, t, h, h2⟩
  · intro fuel rest hf hr
    obtain ⟨fuel, rfl⟩ : ∃ f, fuel = f + 1 := ⟨fuel - 1, by omega⟩
    exact pArg_scalar hv (by obtain ⟨c, t, h, h2, _⟩ := hne; exact ⟨c, t, h, h2⟩) fuel rest hr
  · intro fuel rest hf hr
    obtain ⟨fuel, rfl⟩ : ∃ f, fuel = f + 1 := ⟨fuel - 1, by omega⟩
    exact .inr ⟨_, pExpr_scalar hv hx fuel rest hr⟩

theorem expr_head_ne [UTab] [FTab] (hA : AsciiPrintable) {st : Store} (hst : st.Ordered) (o : Opts)
    (ho : o.anchors ≠ .never) (e : Expr) (h : Faithful st e) :
    ∃ c t, (textExpr st o e).text = c :: t ∧ c ≠ ' ' ∧ c ≠ ')' ∧ c ≠ '_' := by
  cases e with
  | missing => exact (by simp [Faithful] at h)
  | other => exact (by simp [Faithful] at h)
  | literal l =>
    simp only [Faithful] at h
    obtain ⟨c, t, h1, h2⟩ := lit_shape hA hst o ho l h
    refine ⟨c, t, by rw [textExpr, h1], ?_⟩
    rcases h2 with h2 | h2
    · refine ⟨?_, ?_, ?_⟩ <;> (rintro rfl; revert h2; decide)
    · have := h2.1
      refine ⟨?_, ?_, ?_⟩ <;> (rintro rfl; revert this; decide)
  | selection f =>
    cases f with
    | field i child => exact ⟨'$', decInt i, by simp [textExpr, textFieldRef, textRef], by decide⟩
    | badReference => exact (by simp [Faithful] at h)
    | badSegment => exact (by simp [Faithful] at h)
  | call f args opts out =>
    cases out with
    | none => exact (by simp [Faithful] at h)
    | some t =>
      simp only [Faithful] at h
      obtain ⟨_, rfl, ⟨name, hd, hn⟩, _, _⟩ := h
      obtain ⟨n, a, h1, h3, _⟩ := textAnchor_function' hst o ho f name hd hn
      obtain ⟨c, tl, rfl, hc⟩ := h3.head
      rw [call_text o h1]
      refine ⟨c, _, rfl, ?_⟩
      refine ⟨?_, ?_, ?_⟩ <;> (rintro rfl; revert hc; decide)
  | cast e t fb => exact ⟨'(', _, by simp [textExpr]; rfl, by decide⟩
  | ifThen ifs els => exact ⟨'i', _, by simp [textExpr]; rfl, by decide⟩

theorem argText_expr [UTab] [FTab] (hA : AsciiPrintable) {st : Store} (hst : st.Ordered) (o : Opts)
    (ho : o.anchors ≠ .never) (hl : o.litTypes ≠ .never) (e : Expr) (h : Faithful st e) (ha : ArgExpr st o e) :
    ∃ a, ArgText st (textExpr st o e).text a (.expr e) := by
  obtain ⟨s, h1, h2⟩ := pArg_expr hA hst o ho hl e h ha
  obtain ⟨s', h3, h4⟩ := rt_expr hA hst o ho hl e h
  refine ⟨_, convArg_ofExpr h1, expr_head_ne hA hst o ho e h, ?_, ?_⟩
  · intro fuel rest hf hr
    obtain ⟨fuel, rfl⟩ : ∃ f, fuel = f + 1 := ⟨fuel - 1, by omega⟩
    exact h2 fuel rest hr
  · intro fuel rest hf hr
    exact .inr ⟨_, h4 fuel rest hf hr⟩

/-- Texts and parse trees of a list of values. -/
def ArgTexts [FTab] (st : Store) : List (Str × SArg) → List ExtValue → Prop
  | [], [] => True
  | i :: l, v :: vs => ArgText st i.1 i.2 v ∧ ArgTexts st l vs
  | _, _ => False

theorem ArgTexts.conv [FTab] {st : Store} {l : List (Str × SArg)} {vs : List ExtValue} (h : ArgTexts st l vs) :
    convArgList st (l.map (·.2)) = .ok vs := by
  induction l generalizing vs with
  | nil => cases vs with
    | nil => rfl
    | cons => exact h.elim
  | cons i l ih => cases vs with
    | nil => exact h.elim
    | cons v vs => simp [convArgList, h.1.conv, ih h.2]

theorem ArgTexts.mem [FTab] {st : Store} {l : List (Str × SArg)} {vs : List ExtValue} (h : ArgTexts st l vs) :
    ∀ i ∈ l, ∃ v, ArgText st i.1 i.2 v := by
  induction l generalizing vs with
  | nil => simp
  | cons i l ih => cases vs with
    | nil => exact h.elim
    | cons v vs =>
      intro j hj
      rcases List.mem_cons.1 hj with rfl | hj
      · exact ⟨v, h.1⟩
      · exact ih h.2 j hj

/-- The text between the parentheses of a tuple. -/
def tupleText : List Str → Str
  | [] => []
  | [x] => x ++ cs!","
  | x :: y :: l => joinS cs!", " (x :: y :: l)

theorem textTupleItems_text [UTab] [FTab] (st : Store) (o : Opts) (vs : List ExtValue) :
    (textTupleItems st o vs).text = tupleText ((textExtValues st o vs).map Out.text) := by
  cases vs with
  | nil => simp [textTupleItems, tupleText, textExtValues]
  | cons v vs =>
    cases vs with
    | nil => simp [textTupleItems, tupleText, textExtValues]
    | cons w l =>
      simp [textTupleItems, tupleText, textExtValues, Out.text_sep, joinS]

theorem length_tupleText {l : List Str} {x : Str} (h : x ∈ l) : x.length ≤ (tupleText l).length := by
  match l, h with
  | [y], h => simp at h; subst h; simp [tupleText]
  | y :: z :: l, h => exact length_le_joinS _ _ _ h

/-- A tuple of values is read as a tuple and not as an expression. -/
theorem argText_tuple [FTab] {st : Store} (items : List (Str × SArg)) (vs : List ExtValue)
    (h : ArgTexts st items vs) :
    ArgText st ('(' :: (tupleText (items.map (·.1)) ++ [')'])) (.tuple (items.map (·.2))) (.tuple vs) := by
  have hm := h.mem
  have hfst : ∀ rest, (items = [] ∧ tupleText (items.map (·.1)) ++ ')' :: rest = ')' :: rest) ∨
      ∃ i l v r, items = i :: l ∧ ArgText st i.1 i.2 v ∧
        tupleText (items.map (·.1)) ++ ')' :: rest = i.1 ++ ',' :: r := by
    intro rest
    match items, hm with
    | [], _ => exact .inl ⟨rfl, rfl⟩
    | [i], hm =>
      obtain ⟨v, hv⟩ := hm i (by simp)
      exact .inr ⟨i, [], v, ')' :: rest, rfl, hv, by simp [tupleText]⟩
    | i :: j :: l, hm =>
      obtain ⟨v, hv⟩ := hm i (by simp)
      exact .inr ⟨i, j :: l, v, ' ' :: (joinS cs!", " ((j :: l).map (·.1)) ++ ')' :: rest), rfl, hv, by simp [tupleText, joinS]⟩
  have hcast : ∀ (fuel : Nat) (rest : Str), (tupleText (items.map (·.1))).length < fuel →
      pCastWith (pExprN fuel) ('(' :: (tupleText (items.map (·.1)) ++ ')' :: rest)) = none := by
    intro fuel rest hf
    unfold pCastWith
    rcases hfst rest with ⟨h1, h2⟩ | ⟨i, l, v, r, h1, h2, h3⟩
    · rw [h2]
      have := pExprN_none (c := ')') (s := rest) (by decide) (by decide) (by decide) (by decide) fuel
      simp [lit, skipSp_cons, this]
    · rw [h3]
      have hlen : i.1.length < fuel := by
        have := length_tupleText (l := items.map (·.1)) (x := i.1) (by rw [h1]; simp)
        omega
      have hsk := h2.starts'.skip (',' :: r)
      rcases h2.expr fuel (',' :: r) hlen (exprFollow_comma _) with h4 | ⟨s, h4⟩
      · simp [lit, hsk, h4]
      · simp [lit, hsk, h4, skipSp_cons]
  refine ⟨by simp [convArg, h.conv], ⟨'(', _, rfl, by decide, by decide, by decide⟩, ?_, ?_⟩
  · intro fuel rest hf hr
    obtain ⟨fuel, rfl⟩ : ∃ f, fuel = f + 1 := ⟨fuel - 1, by omega⟩
    simp only [List.length_cons, List.length_append, List.length_nil] at hf
    have hx : '(' :: (tupleText (items.map (·.1)) ++ [')']) ++ rest = '(' :: (tupleText (items.map (·.1)) ++ ')' :: rest) := by simp
    rw [hx]
    have h1 : pEnumValue ('(' :: (tupleText (items.map (·.1)) ++ ')' :: rest)) = none := pEnumValue_none (by decide)
    have h2 : pParamLit ('(' :: (tupleText (items.map (·.1)) ++ ')' :: rest)) = none := by
      apply pParamLit_none
      cases hx : pValue ('(' :: (tupleText (items.map (·.1)) ++ ')' :: rest)) with
      | none => rfl
      | some x =>
        rcases pValue_head (v := x.1) (r := x.2) hx with ⟨c, t, h, hc⟩ | h | h | h
        · simp only [List.cons.injEq] at h; rw [← h.1] at hc; cases hc
        all_goals simp at h
    have h3 : pExpr ('(' :: (tupleText (items.map (·.1)) ++ ')' :: rest)) = none := by
      rw [pExpr, pExprN, lit_if_none (by decide), hcast, pCall_none_head (by decide), pRef_none (by decide)]
      · have : pLiteral ('(' :: (tupleText (items.map (·.1)) ++ ')' :: rest)) = none := by
          unfold pLiteral
          cases hx : pValue ('(' :: (tupleText (items.map (·.1)) ++ ')' :: rest)) with
          | none => rfl
          | some x =>
            rcases pValue_head (v := x.1) (r := x.2) hx with ⟨c, t, h, hc⟩ | h | h | h
            · simp only [List.cons.injEq] at h; rw [← h.1] at hc; cases hc
            all_goals simp at h
        rw [this]; rfl
      · simp only [List.length_cons, List.length_append]; omega
    have hlen : ∀ i ∈ items, i.1.length < fuel := by
      intro i hi
      have := length_tupleText (l := items.map (·.1)) (x := i.1) (List.mem_map_of_mem hi)
      omega
    have harg : ∀ i ∈ items, ∀ r, ExprFollow r → pArgN fuel (i.1 ++ r) = some (i.2, r) := by
      intro i hi r hr
      obtain ⟨v, hv⟩ := hm i hi
      exact hv.arg fuel r (hlen i hi) hr
    have h4 : pTupleWith (pArgN fuel) ('(' :: (tupleText (items.map (·.1)) ++ ')' :: rest)) = some (items.map (·.2), rest) := by
      unfold pTupleWith
      match items, hm, harg with
      | [], _, _ => simp [pTuple0, lit, tupleText, skipSp_cons]
      | [i], hm, harg =>
        obtain ⟨v, hv⟩ := hm i (by simp)
        have ha := harg i (by simp) (',' :: ')' :: rest) (exprFollow_comma _)
        have hsk := hv.starts'.skip (',' :: ')' :: rest)
        have h0 : pTuple0 ('(' :: (tupleText ([i].map (·.1)) ++ ')' :: rest)) = none := by
          obtain ⟨c, t, h1, h2, h3, _⟩ := hv.starts
          simp only [tupleText, List.map_cons, List.map_nil, List.append_assoc, List.cons_append, List.nil_append] at hsk ⊢
          simp only [pTuple0, lit_cons, if_true, lit_nil, Option.bind_eq_bind, Option.bind_some, hsk]
          rw [h1]
          simp [lit_ne (Ne.symm h3)]
        rw [h0]
        simp only [tupleText, List.map_cons, List.map_nil, List.append_assoc, List.cons_append, List.nil_append]
        simp [pTuple1With, hsk, ha, skipSp_cons]
      | i :: j :: l, hm, harg =>
        obtain ⟨v, hv⟩ := hm i (by simp)
        obtain ⟨w, hw⟩ := hm j (by simp)
        have htx : tupleText ((i :: j :: l).map (·.1)) = joinS cs!", " ((i :: j :: l).map (·.1)) := rfl
        rw [htx]
        obtain ⟨c, t, hc1, hc2, hc3, _⟩ := hv.starts
        have hsk : ∀ r, skipSp (joinS cs!", " ((i :: j :: l).map (·.1)) ++ r) = joinS cs!", " ((i :: j :: l).map (·.1)) ++ r := by
          intro r
          rw [List.map_cons, joinS_cons, hc1]
          exact skipSp_cons _ _ hc2
        have h0 : pTuple0 ('(' :: (joinS cs!", " ((i :: j :: l).map (·.1)) ++ ')' :: rest)) = none := by
          simp only [pTuple0, lit_cons, if_true, lit_nil, Option.bind_eq_bind, Option.bind_some, hsk]
          rw [List.map_cons, joinS_cons, hc1]
          simp [lit_ne (Ne.symm hc3)]
        have h1 : pTuple1With (pArgN fuel) ('(' :: (joinS cs!", " ((i :: j :: l).map (·.1)) ++ ')' :: rest)) = none := by
          obtain ⟨d, u, hd1, hd2, hd3, _⟩ := hw.starts
          have hr : joinS cs!", " ((i :: j :: l).map (·.1)) ++ ')' :: rest =
              i.1 ++ ',' :: ' ' :: (joinS cs!", " ((j :: l).map (·.1)) ++ ')' :: rest) := by simp [joinS]
          have ha := harg i (by simp) (',' :: ' ' :: (joinS cs!", " ((j :: l).map (·.1)) ++ ')' :: rest)) (exprFollow_comma _)
          have hs2 : skipSp (' ' :: (joinS cs!", " ((j :: l).map (·.1)) ++ ')' :: rest)) = joinS cs!", " ((j :: l).map (·.1)) ++ ')' :: rest := by
            have : skipSp (joinS cs!", " ((j :: l).map (·.1)) ++ ')' :: rest) = joinS cs!", " ((j :: l).map (·.1)) ++ ')' :: rest := by
              rw [List.map_cons, joinS_cons, hd1]
              exact skipSp_cons _ _ hd2
            simpa [skipSp] using this
          simp only [pTuple1With, lit_cons, if_true, lit_nil, Option.bind_eq_bind, Option.bind_some, hsk]
          rw [hr, ha]
          simp only [Option.bind_some]
          rw [skipSp_cons _ _ (by decide)]
          simp only [lit_cons, if_true, lit_nil, Option.bind_some, hs2]
          rw [List.map_cons, joinS_cons, hd1]
          simp [lit_ne (Ne.symm hd3)]
        have h2 := pSep1_join spCommaSp (pArgN fuel) cs!", " ExprFollow (')' :: rest) (i :: j :: l) (by simp) (by simp)
          (fun k hk r => spCommaSp_join _ (by
            obtain ⟨v, hv⟩ := hm k hk
            obtain ⟨c, t, h, hc⟩ := hv.starts'
            rw [h]; exact (nextNot_cons _ _ _).2 (by simpa using hc)))
          (fun r => exprFollow_comma _) (exprFollow_close _)
          (pStarN_stop _ _ _ (by simp [spCommaSp, skipSp_cons, lit])) harg
        rw [h0, h1]
        simp only [pTuple2With, lit_cons, if_true, lit_nil, Option.bind_eq_bind, Option.bind_some, hsk, h2]
        simp [pOpt, spComma, skipSp_cons, lit]
    rw [pArgN, h1, h2, h3, pRef_none (by decide), h4]
    rfl
  · intro fuel rest hf hr
    obtain ⟨fuel, rfl⟩ : ∃ f, fuel = f + 1 := ⟨fuel - 1, by omega⟩
    simp only [List.length_cons, List.length_append, List.length_nil] at hf
    left
    have hx : '(' :: (tupleText (items.map (·.1)) ++ [')']) ++ rest = '(' :: (tupleText (items.map (·.1)) ++ ')' :: rest) := by simp
    rw [hx, pExprN, lit_if_none (by decide), hcast _ _ (by omega), pCall_none_head (by decide), pRef_none (by decide)]
    have : pLiteral ('(' :: (tupleText (items.map (·.1)) ++ ')' :: rest)) = none := by
      unfold pLiteral
      cases hx : pValue ('(' :: (tupleText (items.map (·.1)) ++ ')' :: rest)) with
      | none => rfl
      | some x =>
        rcases pValue_head (v := x.1) (r := x.2) hx with ⟨c, t, h, hc⟩ | h | h | h
        · simp only [List.cons.injEq] at h; rw [← h.1] at hc; cases hc
        all_goals simp at h
    rw [this]; rfl

theorem decInt_head (i : Int) : ∃ c t, decInt i = c :: t ∧ valueHead c = true := by
  have := pInteger_decInt i [] (NextNot.nil _)
  rw [List.append_nil] at this
  exact pInteger_start this

theorem floatText_head {x : Str} (h : FloatText x) : ∃ c t, x = c :: t ∧ valueHead c = true := by
  obtain ⟨neg, ds, fs, h1, h2, h3, h4, rfl⟩ := h
  cases neg with
  | true => exact ⟨'-', _, rfl, rfl⟩
  | false =>
    cases ds with
    | nil => exact absurd rfl h1
    | cons c ds => exact ⟨c, _, rfl, by simp [valueHead, h3 c (by simp)]⟩

mutual
/-- A value is read back from its text. -/
theorem argText_value [UTab] [FTab] (hA : AsciiPrintable) {st : Store} (hst : st.Ordered) (o : Opts)
    (ho : o.anchors ≠ .never) (hl : o.litTypes ≠ .never) :
    (v : ExtValue) → ValueOk st o v → ∃ a, ArgText st (textExtValue st o v).text a v
  | .string s, h => by
    simp only [ValueOk] at h
    exact ⟨_, argText_scalar (fun r _ => pValue_string s r h) ⟨'\'', _, rfl, .inl (by decide)⟩ rfl⟩
  | .integer i, h => by
    simp only [ValueOk] at h
    refine ⟨_, argText_scalar (fun r hr => pValue_int i r hr) ?_ (by simp [convParamLit, ofInt_toI64 h])⟩
    obtain ⟨c, t, h1, h2⟩ := decInt_head i
    exact ⟨c, t, h1, .inl h2⟩
  | .float f, h => by
    simp only [ValueOk] at h
    refine ⟨_, argText_scalar (fun r hr => pValue_float _ r h.1 hr) ?_ (by simp [convParamLit, textExtValue, h.2])⟩
    obtain ⟨c, t, h1, h2⟩ := floatText_head h.1
    exact ⟨c, t, h1, .inl h2⟩
  | .boolean b, _ => by
    refine ⟨_, argText_scalar (fun r _ => pValue_bool b r) ?_ rfl⟩
    cases b
    · exact ⟨'f', _, rfl, .inr (by decide)⟩
    · exact ⟨'t', _, rfl, .inr (by decide)⟩
  | .null, _ => ⟨_, argText_scalar (fun r _ => pValue_null r) ⟨'n', _, rfl, .inr (by decide)⟩ rfl⟩
  | .error _, h => by simp [ValueOk] at h
  | .expr e, h => by
    simp only [ValueOk] at h
    exact argText_expr hA hst o ho hl e h.1 h.2
  | .enum s, h => by
    simp only [ValueOk] at h
    refine ⟨.enum s, rfl, ⟨'&', s, rfl, by decide⟩, ?_, ?_⟩
    · intro fuel rest hf hr
      obtain ⟨fuel, rfl⟩ : ∃ f, fuel = f + 1 := ⟨fuel - 1, by omega⟩
      have hi : NextNot isIdentChar rest := TyFollow.ident (LitFollow.ty hr.1)
      have : pEnumValue ((textExtValue st o (.enum s)).text ++ rest) = some (s, rest) := by
        simp [textExtValue, pEnumValue, lit, pIdent_name h hi]
      rw [pArgN, this]; rfl
    · intro fuel rest hf hr
      exact .inl (pExprN_none (by decide) (by decide) (by decide) (by decide) fuel)
  | .tuple vs, h => by
    simp only [ValueOk] at h
    obtain ⟨items, h1, h2⟩ := argText_values hA hst o ho hl vs h
    refine ⟨.tuple (items.map (·.2)), ?_⟩
    have := argText_tuple items vs h2
    rw [h1] at this
    simpa [textExtValue, textTupleItems_text] using this
/-- A list of values is read back from their texts. -/
theorem argText_values [UTab] [FTab] (hA : AsciiPrintable) {st : Store} (hst : st.Ordered) (o : Opts)
    (ho : o.anchors ≠ .never) (hl : o.litTypes ≠ .never) :
    (vs : List ExtValue) → ValuesOk st o vs → ∃ items : List (Str × SArg),
      items.map (·.1) = (textExtValues st o vs).map Out.text ∧ ArgTexts st items vs
  | [], _ => ⟨[], rfl, trivial⟩
  | v :: vs, h => by
    simp only [ValuesOk] at h
    obtain ⟨a, ha⟩ := argText_value hA hst o ho hl v h.1
    obtain ⟨items, h1, h2⟩ := argText_values hA hst o ho hl vs h.2
    exact ⟨((textExtValue st o v).text, a) :: items, by simp [textExtValues, h1], ha, h2⟩
end

end Verif
