import Verif.Spec.ExtArgsExact
import Verif.Proofs.ExtArgs
import Verif.Proofs.ExprsExactRead
/-!
# Argument values that survive are read back, and no others
-/

namespace Verif
open StoreSpec TextSpec Grammar

set_option autoImplicit false

/-! ## Literals and names taken for scalars -/

theorem textLit_value [UTab] [FTab] (st : Store) (o : Opts) {v : Lit} (hn : ∀ t, v ≠ .null t) (nullable : Bool) (tvar : Nat) :
    textLit st o ⟨some v, nullable, tvar⟩ = textValue o v ++ (if showSuffix o nullable v then textSuffix v nullable else .s []) := by
  cases v with
  | null t => exact absurd rfl (hn t)
  | _ => rfl

theorem isDefault_iff {v : Lit} (hb : ∀ b, v ≠ .binary b) : v.isDefault = true ↔ Untyped v := by
  cases v with
  | binary b => exact absurd rfl (hb b)
  | int w i => cases w <;> simp [Lit.isDefault, Untyped]
  | _ => simp [Lit.isDefault, Untyped]

theorem showSuffix_iff (o : Opts) (nullable : Bool) {v : Lit} (hb : ∀ b, v ≠ .binary b) :
    showSuffix o nullable v = true ↔ o.litTypes = .always ∨ (o.litTypes = .required ∧ (nullable = true ∨ ¬ Untyped v)) := by
  have := isDefault_iff hb
  unfold showSuffix
  cases h : o.litTypes with
  | never => simp
  | always => simp
  | required =>
    rw [← this]
    cases nullable <;> cases v.isDefault <;> simp

/-- A surviving literal is taken for a scalar exactly if its type is not shown. -/
theorem pParamLit_lit [UTab] [FTab] (hA : AsciiPrintable) {h : List Op} (o : Opts) (l : Literal) (hs : SurvivesLit (run h) o l)
    (rest : Str) (hr : ExprFollow rest) : pParamLit ((textLit (run h) o l).text ++ rest) = none ↔ TypeShown o l := by
  obtain ⟨value, nullable, tvar⟩ := l
  obtain ⟨h0, v, h1, h2⟩ := hs
  simp only at h0 h1 h2
  subst h0 h1
  by_cases hn : ∃ t, v = .null t
  · obtain ⟨t, rfl⟩ := hn
    have h3 := pValue_null (':' :: ((textTy (run h) o t).text ++ rest))
    have : TypeShown o ⟨some (.null t), nullable, 0⟩ := by
      intro v hv
      cases hv
      exact .inl ⟨t, rfl⟩
    refine ⟨fun _ => this, fun _ => ?_⟩
    simp [textLit, textValue] at h3 ⊢
    simp [pParamLit, h3, notAhead]
  · have hn : ∀ t, v ≠ .null t := fun t e => hn ⟨t, e⟩
    have h2 : Spelled (run h) nullable v := by
      cases v with
      | null t => exact absurd rfl (hn t)
      | _ => exact h2.1
    have hb : ∀ b, v ≠ .binary b := by rintro b rfl; exact h2
    obtain ⟨sv, h3, h5⟩ := text_value_head hA (run h) o nullable v hn h2
    have hts : TypeShown o ⟨some v, nullable, 0⟩ ↔ showSuffix o nullable v = true := by
      rw [showSuffix_iff o nullable hb]
      constructor
      · intro ht
        rcases ht v rfl with ⟨t, rfl⟩ | ht
        · exact absurd rfl (hn t)
        · exact ht
      · rintro ht w hw
        cases hw
        exact .inr ht
    rw [hts, textLit_value _ _ hn]
    by_cases hsuf : showSuffix o nullable v = true
    · refine ⟨fun _ => hsuf, fun _ => ?_⟩
      have hv := h3 (':' :: ((textTy (run h) o (v.ty nullable)).text ++ rest)) ((nextNot_cons _ _ _).2 (by decide))
      rw [if_pos hsuf, Out.text_append, textSuffix_ty (run h) o v nullable h5]
      simp only [List.append_assoc, List.cons_append]
      simp [pParamLit, hv, notAhead]
    · have hv := h3 rest (LitFollow.num hr.1)
      refine ⟨fun hp => ?_, fun e => absurd e hsuf⟩
      exfalso
      rw [if_neg hsuf, Out.text_append] at hp
      simp [pParamLit, hv, hr.noColon] at hp

theorem pValue_word {w : Str} (hw : w ∈ valueWords) (x : Str) : ∃ sv, pValue (w ++ x) = some (sv, x) := by
  simp only [valueWords, List.mem_cons, List.not_mem_nil, or_false] at hw
  rcases hw with rfl | rfl | rfl
  · exact ⟨_, pValue_bool true x⟩
  · exact ⟨_, pValue_bool false x⟩
  · exact ⟨_, pValue_null x⟩

/-- A call is taken for a scalar exactly if its name begins with a word that no colon follows. -/
theorem pParamLit_name {nm r : Str} {c : Char} (hn : FunctionName nm) (hc : ∀ w ∈ valueWords, c ∉ w) (hcol : c ≠ ':') :
    pParamLit (nm ++ c :: r) = none ↔ ∀ w ∈ valueWords, w <+: nm → w ++ cs!":" <+: nm := by
  constructor
  · intro hp w hw hpre
    obtain ⟨t, rfl⟩ := hpre
    obtain ⟨sv, hv⟩ := pValue_word hw (t ++ c :: r)
    rw [List.append_assoc] at hp
    simp only [pParamLit, hv, Option.bind_eq_bind, Option.bind_some] at hp
    cases t with
    | nil =>
      have : notAhead ':' (c :: r) = some (c :: r) := by simp [notAhead, hcol]
      rw [List.nil_append, this] at hp
      cases hp
    | cons d t =>
      by_cases hd : d = ':'
      · subst hd
        exact ⟨t, by simp⟩
      · have : notAhead ':' (d :: t ++ c :: r) = some (d :: t ++ c :: r) := by simp [notAhead, hd]
        rw [this] at hp
        cases hp
  · intro hcl
    by_cases hex : ∃ w ∈ valueWords, w <+: nm
    · obtain ⟨w, hw, hpre⟩ := hex
      obtain ⟨t, ht⟩ := hcl w hw hpre
      obtain ⟨sv, hv⟩ := pValue_word hw (':' :: (t ++ c :: r))
      have hx : nm ++ c :: r = w ++ (':' :: (t ++ c :: r)) := by rw [← ht]; simp
      rw [hx]
      simp [pParamLit, hv, notAhead]
    · apply pParamLit_none
      exact pValue_clear (fun w hw hpre => hex ⟨w, hw, hpre⟩) hc hn.head

theorem anchor_char {c : Char} (h : c = '(' ∨ c = '#') : (∀ w ∈ valueWords, c ∉ w) ∧ c ≠ ':' ∧ isAlpha c = false := by
  refine ⟨?_, ?_, ?_⟩
  · intro w hw
    simp only [valueWords, List.mem_cons, List.not_mem_nil, or_false] at hw
    rcases hw with rfl | rfl | rfl <;> rcases h with rfl | rfl <;> decide
  · rcases h with rfl | rfl <;> decide
  · rcases h with rfl | rfl <;> decide

theorem shownFn_unique {st : Store} {v : Visibility} {f : Nat} {nm nm' : Str} {a a' : Option Nat}
    (h : ShownFn st v f nm a) (h' : ShownFn st v f nm' a') : nm = nm' ∧ a = a' := by
  obtain ⟨n, b, hd, hb, hs⟩ := h
  obtain ⟨n', b', hd', hb', hs'⟩ := h'
  obtain rfl : n' = n := by
    obtain ⟨u, hu⟩ := hd
    obtain ⟨u', hu'⟩ := hd'
    rw [hu] at hu'
    cases hu'
    rfl
  obtain rfl : b' = b := by rw [← (bareName_iff _ _).1 hb, ← (bareName_iff _ _).1 hb']
  cases v with
  | never => exact ⟨hs.1.trans hs'.1.symm, hs.2.trans hs'.2.symm⟩
  | always => exact ⟨hs.1.trans hs'.1.symm, hs.2.trans hs'.2.symm⟩
  | required =>
    simp only at hs hs'
    rcases hs with ⟨h1, rfl, rfl⟩ | ⟨h1, h2, h3, rfl, rfl⟩ | ⟨h1, h2, rfl, rfl⟩ <;>
      rcases hs' with ⟨g1, rfl, rfl⟩ | ⟨g1, g2, g3, rfl, rfl⟩ | ⟨g1, g2, rfl, rfl⟩
    · exact ⟨rfl, rfl⟩
    · exact absurd g1 h1
    · exact absurd g1 h1
    · exact absurd h1 g1
    · exact ⟨rfl, rfl⟩
    · rcases g2 with g2 | g2
      · exact absurd h2 g2
      · exact absurd g2 h3
    · exact absurd h1 g1
    · rcases h2 with h2 | h2
      · exact absurd g2 h2
      · exact absurd h2 g3
    · exact ⟨rfl, rfl⟩

theorem pValue_none_head {c : Char} {t : Str} (h : c ∈ ['$', '(', 'i', '&']) : pValue (c :: t) = none := by
  simp only [List.mem_cons, List.not_mem_nil, or_false] at h
  rcases h with rfl | rfl | rfl | rfl <;> exact pValue_other (by decide) (by decide)

/-- A surviving expression is taken for a scalar exactly if `NotScalar` says so. -/
theorem pParamLit_expr [UTab] [FTab] (hA : AsciiPrintable) {h : List Op} (o : Opts) (e : Expr) (hs : SurvivesExpr (run h) o e)
    (rest : Str) (hr : ExprFollow rest) :
    pParamLit ((textExpr (run h) o e).text ++ rest) = none ↔ NotScalar (run h) o e := by
  cases e with
  | missing => exact (by simp [SurvivesExpr] at hs)
  | other => exact (by simp [SurvivesExpr] at hs)
  | literal l =>
    simp only [SurvivesExpr] at hs
    rw [textExpr]
    exact pParamLit_lit hA o l hs rest hr
  | selection f =>
    refine ⟨fun _ => trivial, fun _ => ?_⟩
    cases f with
    | field i child =>
      apply pParamLit_none
      have : (textExpr (run h) o (.selection (.field i child))).text = '$' :: decInt i := by simp [textExpr, textFieldRef, textRef]
      rw [this, List.cons_append]
      exact pValue_none_head (by decide)
    | badReference => exact (by simp [SurvivesExpr] at hs)
    | badSegment => exact (by simp [SurvivesExpr] at hs)
  | cast e t fb =>
    refine ⟨fun _ => trivial, fun _ => ?_⟩
    obtain ⟨tl, htx⟩ : ∃ tl, (textExpr (run h) o (.cast e t fb)).text = '(' :: tl := ⟨_, by simp [textExpr]; rfl⟩
    rw [htx]
    exact pParamLit_none (pValue_none_head (by decide))
  | ifThen ifs els =>
    refine ⟨fun _ => trivial, fun _ => ?_⟩
    obtain ⟨tl, htx⟩ : ∃ tl, (textExpr (run h) o (.ifThen ifs els)).text = 'i' :: tl := ⟨_, by simp [textExpr]; rfl⟩
    rw [htx]
    exact pParamLit_none (pValue_none_head (by decide))
  | call f args opts out =>
    cases out with
    | none => exact (by simp [SurvivesExpr] at hs)
    | some t =>
      simp only [SurvivesExpr] at hs
      obtain ⟨rfl, ⟨nm, a, h1, h2⟩, -, -⟩ := hs
      have htx := call_text o (args := args) (t := t) (textAnchor_fn h1)
      obtain ⟨c, tl, h6, h7⟩ := showAnchor_head a (joinS cs!", " ((textArgs (run h) o args).map Out.text) ++ ')' :: ':' :: (textTy (run h) o t).text)
      rw [h6] at htx
      have hch := anchor_char h7
      rw [htx, List.append_assoc, List.cons_append, pParamLit_name (usableFn_name h2) hch.1 hch.2.1]
      constructor
      · intro hw nm' a' h1'
        obtain ⟨rfl, -⟩ := shownFn_unique h1 h1'
        exact hw
      · intro hw
        exact hw nm a h1

theorem expr_head_exact [UTab] [FTab] (hA : AsciiPrintable) {h : List Op} (o : Opts) (e : Expr) (hs : SurvivesExpr (run h) o e) :
    ∃ c t, (textExpr (run h) o e).text = c :: t ∧ c ≠ ' ' ∧ c ≠ ')' ∧ c ≠ '_' ∧ c ≠ '&' := by
  cases e with
  | missing => exact (by simp [SurvivesExpr] at hs)
  | other => exact (by simp [SurvivesExpr] at hs)
  | literal l =>
    simp only [SurvivesExpr] at hs
    obtain ⟨c, t, h1, h2⟩ := lit_shape_exact hA o l hs
    refine ⟨c, t, by rw [textExpr, h1], ?_⟩
    rcases h2 with h2 | h2
    · refine ⟨?_, ?_, ?_, ?_⟩ <;> (rintro rfl; revert h2; decide)
    · have := h2.1
      refine ⟨?_, ?_, ?_, ?_⟩ <;> (rintro rfl; revert this; decide)
  | selection f =>
    cases f with
    | field i child => exact ⟨'$', decInt i, by simp [textExpr, textFieldRef, textRef], by decide⟩
    | badReference => exact (by simp [SurvivesExpr] at hs)
    | badSegment => exact (by simp [SurvivesExpr] at hs)
  | call f args opts out =>
    cases out with
    | none => exact (by simp [SurvivesExpr] at hs)
    | some t =>
      simp only [SurvivesExpr] at hs
      obtain ⟨rfl, ⟨nm, a, h1, h2⟩, -, -⟩ := hs
      obtain ⟨c, tl, rfl, hc⟩ := (usableFn_name h2).head
      rw [call_text o (textAnchor_fn h1)]
      refine ⟨c, _, rfl, ?_⟩
      refine ⟨?_, ?_, ?_, ?_⟩ <;> (rintro rfl; revert hc; decide)
  | cast e t fb => exact ⟨'(', _, by simp [textExpr]; rfl, by decide⟩
  | ifThen ifs els => exact ⟨'i', _, by simp [textExpr]; rfl, by decide⟩

/-! ## Surviving values are read back -/

theorem argText_expr_exact [UTab] [FTab] (hA : AsciiPrintable) {h : List Op} (o : Opts) (e : Expr) (hs : SurvivesExpr (run h) o e)
    (hn : NotScalar (run h) o e) : ∃ a, ArgText (run h) (textExpr (run h) o e).text a (.expr e) := by
  obtain ⟨s, h1, h2⟩ := read_expr hA o e hs
  obtain ⟨c, t, hx, hc1, hc2, hc3, hc4⟩ := expr_head_exact hA o e hs
  refine ⟨_, convArg_ofExpr h1, ⟨c, t, hx, hc1, hc2, hc3⟩, ?_, fun fuel rest hf hr => .inr ⟨_, h2 fuel rest hf hr⟩⟩
  intro fuel rest hf hr
  obtain ⟨fuel, rfl⟩ : ∃ f, fuel = f + 1 := ⟨fuel - 1, by omega⟩
  have hp := (pParamLit_expr hA o e hs rest hr).2 hn
  have he : pEnumValue ((textExpr (run h) o e).text ++ rest) = none := by rw [hx]; exact pEnumValue_none hc4
  have hx' : pExpr ((textExpr (run h) o e).text ++ rest) = some (s, rest) :=
    h2 _ rest (by simp only [List.length_append]; omega) hr
  rw [pArgN, he, hp]
  cases hrf : pRef ((textExpr (run h) o e).text ++ rest) with
  | none =>
    have hof : SArg.ofExpr s = .expr s := by
      cases s with
      | ref i =>
        obtain ⟨j, rfl⟩ := convExpr_ref_ok h1
        exfalso
        have hd : NextNot isDigit rest := NextNot.mono hr.1 fun c hc => by
          simp [litContinues, typeContinues, isDigit_ident hc]
        have htx : (textExpr (run h) o (.selection (.field j none))).text ++ rest = '$' :: (decInt j ++ rest) := by
          simp [textExpr, textFieldRef, textRef]
        rw [htx] at hrf
        simp [pRef, lit, pInteger_decInt j rest hd] at hrf
      | _ => rfl
    rw [hx', hof]; rfl
  | some w =>
    obtain ⟨i, r⟩ := w
    -- a reference: the expression rule reads it the same way
    have hdol : c = '$' := by
      by_cases hd : c = '$'
      · exact hd
      · rw [hx, List.cons_append, pRef_none hd] at hrf
        cases hrf
    subst hdol
    rw [pExpr, pExprN] at hx'
    have hxe : (textExpr (run h) o e).text ++ rest = '$' :: (t ++ rest) := by rw [hx]; rfl
    rw [hxe] at hx' hrf ⊢
    rw [lit_if_none (by decide), pCast_none (by decide), pCall_none_head (by decide), hrf] at hx'
    simp [mapFst] at hx'
    obtain ⟨rfl, rfl⟩ := hx'
    rfl

mutual
/-- A surviving value is read back from its text. -/
theorem argText_survives [UTab] [FTab] (hA : AsciiPrintable) {h : List Op} (o : Opts) :
    (v : ExtValue) → SurvivesValue (run h) o v → ∃ a, ArgText (run h) (textExtValue (run h) o v).text a v
  | .string s, hs => by
    simp only [SurvivesValue] at hs
    exact ⟨_, argText_scalar (fun r _ => pValue_string s r hs) ⟨'\'', _, rfl, .inl (by decide)⟩ rfl⟩
  | .integer i, hs => by
    simp only [SurvivesValue] at hs
    refine ⟨_, argText_scalar (fun r hr => pValue_int i r hr) ?_ (by simp [convParamLit, ofInt_toI64 hs])⟩
    obtain ⟨c, t, h1, h2⟩ := decInt_head i
    exact ⟨c, t, h1, .inl h2⟩
  | .float f, hs => by
    simp only [SurvivesValue] at hs
    refine ⟨_, argText_scalar (fun r hr => pValue_float _ r hs.1 hr) ?_ (by simp [convParamLit, textExtValue, hs.2])⟩
    obtain ⟨c, t, h1, h2⟩ := floatText_head hs.1
    exact ⟨c, t, h1, .inl h2⟩
  | .boolean b, _ => by
    refine ⟨_, argText_scalar (fun r _ => pValue_bool b r) ?_ rfl⟩
    cases b
    · exact ⟨'f', _, rfl, .inr (by decide)⟩
    · exact ⟨'t', _, rfl, .inr (by decide)⟩
  | .null, _ => ⟨_, argText_scalar (fun r _ => pValue_null r) ⟨'n', _, rfl, .inr (by decide)⟩ rfl⟩
  | .error _, hs => by simp [SurvivesValue] at hs
  | .expr e, hs => by
    simp only [SurvivesValue] at hs
    exact argText_expr_exact hA o e hs.1 hs.2
  | .enum s, hs => by
    simp only [SurvivesValue] at hs
    refine ⟨.enum s, rfl, ⟨'&', s, rfl, by decide⟩, ?_, ?_⟩
    · intro fuel rest hf hr
      obtain ⟨fuel, rfl⟩ : ∃ f, fuel = f + 1 := ⟨fuel - 1, by omega⟩
      have hi : NextNot isIdentChar rest := TyFollow.ident (LitFollow.ty hr.1)
      have : pEnumValue ((textExtValue (run h) o (.enum s)).text ++ rest) = some (s, rest) := by
        simp [textExtValue, pEnumValue, lit, pIdent_name hs hi]
      rw [pArgN, this]; rfl
    · intro fuel rest hf hr
      exact .inl (pExprN_none (by decide) (by decide) (by decide) (by decide) fuel)
  | .tuple vs, hs => by
    simp only [SurvivesValue] at hs
    obtain ⟨items, h1, h2⟩ := argTexts_survive hA o vs hs
    refine ⟨.tuple (items.map (·.2)), ?_⟩
    have := argText_tuple items vs h2
    rw [h1] at this
    simpa [textExtValue, textTupleItems_text] using this
/-- A list of surviving values is read back from their texts. -/
theorem argTexts_survive [UTab] [FTab] (hA : AsciiPrintable) {h : List Op} (o : Opts) :
    (vs : List ExtValue) → SurvivesValues (run h) o vs → ∃ items : List (Str × SArg),
      items.map (·.1) = (textExtValues (run h) o vs).map Out.text ∧ ArgTexts (run h) items vs
  | [], _ => ⟨[], rfl, trivial⟩
  | v :: vs, hs => by
    simp only [SurvivesValues] at hs
    obtain ⟨a, ha⟩ := argText_survives hA o v hs.1
    obtain ⟨items, h1, h2⟩ := argTexts_survive hA o vs hs.2
    exact ⟨((textExtValue (run h) o v).text, a) :: items, by simp [textExtValues, h1], ha, h2⟩
end

/-! ## What is read back survives -/

theorem argN_parts {fuel : Nat} {x r : Str} {a : SArg} (h : pArgN (fuel + 1) x = some (a, r)) :
    match a with
    | .enum s => pEnumValue x = some (s, r)
    | .lit v => pParamLit x = some (v, r)
    | .ref i => pRef x = some (i, r) ∧ pParamLit x = none
    | .expr e => pExpr x = some (e, r) ∧ pParamLit x = none
    | .tuple l => pTupleWith (pArgN fuel) x = some (l, r) := by
  rw [pArgN] at h
  rcases or_some h with h | ⟨h0, h⟩
  · rcases or_some h with h | ⟨h0, h⟩
    · rcases or_some h with h | ⟨h0, h⟩
      · rcases or_some h with h | ⟨-, h⟩
        · obtain ⟨i, h1, rfl⟩ := mapFst_some h; exact h1
        · obtain ⟨i, h1, rfl⟩ := mapFst_some h; exact h1
      · obtain ⟨i, h1, rfl⟩ := mapFst_some h
        refine ⟨h1, ?_⟩
        cases hp : pParamLit x with
        | none => rfl
        | some w => rw [hp] at h0; cases he : pEnumValue x <;> rw [he] at h0 <;> simp [mapFst] at h0
    · obtain ⟨i, h1, rfl⟩ := mapFst_some h
      refine ⟨h1, ?_⟩
      cases hp : pParamLit x with
      | none => rfl
      | some w =>
        rw [hp] at h0
        cases he : pEnumValue x <;> rw [he] at h0 <;> simp [mapFst] at h0
  · obtain ⟨i, h1, rfl⟩ := mapFst_some h; exact h1

theorem paramLit_parts {x r : Str} {v : SVal} (h : pParamLit x = some (v, r)) : pValue x = some (v, r) := by
  unfold pParamLit at h
  simp only [Option.bind_eq_bind, Option.bind_eq_some_iff] at h
  obtain ⟨⟨v', r'⟩, h1, q, h2, h3⟩ := h
  cases h3
  unfold notAhead at h2
  split at h2
  · cases h2
  · cases h2; exact h1

theorem convArg_scalar [FTab] {st : Store} {a : SArg} {v : ExtValue} (h : convArg st a = .ok v) :
    match v with
    | .string s => a = .lit (.str s)
    | .integer i => ∃ t, a = .lit (.int t) ∧ t.toI64 = some i
    | .float f => ∃ x, a = .lit (.float x) ∧ FTab.parse64 x = f
    | .error _ => False
    | .enum s => a = .enum s
    | .expr e => (∃ i j, a = .ref i ∧ e = .selection (.field j none) ∧ convIndex i = .ok j) ∨ ∃ s, a = .expr s ∧ convExpr st s = .ok e
    | .tuple vs => ∃ l, a = .tuple l ∧ convArgList st l = .ok vs
    | _ => True := by
  cases a with
  | enum s => cases h; rfl
  | lit w =>
    rw [convArg] at h
    cases w with
    | str s => cases h; rfl
    | int i =>
      simp only [convParamLit] at h
      split at h
      · next j hj => cases h; exact ⟨i, rfl, hj⟩
      · cases h
    | float x => cases h; exact ⟨x, rfl, rfl⟩
    | bool b => cases h; trivial
    | null => cases h; trivial
  | ref i =>
    rw [convArg] at h
    obtain ⟨j, h1, h2⟩ := Res.bind_ok_iff.1 h
    cases h2
    exact .inl ⟨i, j, rfl, rfl, h1⟩
  | expr s =>
    rw [convArg] at h
    obtain ⟨j, h1, h2⟩ := Res.bind_ok_iff.1 h
    cases h2
    exact .inr ⟨s, rfl, h1⟩
  | tuple l =>
    rw [convArg] at h
    obtain ⟨j, h1, h2⟩ := Res.bind_ok_iff.1 h
    cases h2
    exact ⟨l, rfl, h1⟩

theorem convArgList_cons [FTab] {st : Store} {a : SArg} {l : List SArg} {vs : List ExtValue} (h : convArgList st (a :: l) = .ok vs) :
    ∃ v vs', vs = v :: vs' ∧ convArg st a = .ok v ∧ convArgList st l = .ok vs' := by
  rw [convArgList] at h
  obtain ⟨v, h1, h2⟩ := Res.bind_ok_iff.1 h
  obtain ⟨vs', h3, h2⟩ := Res.bind_ok_iff.1 h2
  cases h2
  exact ⟨v, vs', rfl, h1, h3⟩

/-- The text of a value that was read starts with no space. -/
theorem starts_of_read_value [UTab] [FTab] (hF : FloatsShown) {h : List Op} (o : Opts) {fuel : Nat} {x r : Str} {a : SArg} {v : ExtValue}
    (hp : pArgN fuel x = some (a, r)) (hc : convArg (run h) a = .ok v) : Starts (textExtValue (run h) o v).text := by
  cases fuel with
  | zero => cases hp
  | succ fuel =>
  have hk := convArg_scalar hc
  cases v with
  | string s => exact ⟨'\'', _, rfl, by decide⟩
  | integer i =>
    obtain ⟨c, t, h1, h2⟩ := decInt_head i
    exact ⟨c, t, h1, (valueHead_not_alpha h2).2.2.2.2⟩
  | float f => exact floatShown_starts (hF f).2
  | boolean b => cases b <;> exact ⟨_, _, rfl, by decide⟩
  | null => exact ⟨_, _, rfl, by decide⟩
  | error e => exact hk.elim
  | enum s => exact ⟨'&', _, rfl, by decide⟩
  | tuple vs => exact ⟨'(', _, by simp [textExtValue]; rfl, by decide⟩
  | expr e =>
    rcases hk with ⟨i, j, rfl, rfl, -⟩ | ⟨s, rfl, hs⟩
    · exact ⟨'$', decInt j, by simp [textExtValue, textExpr, textFieldRef, textRef], by decide⟩
    · exact starts_of_read hF o (argN_parts hp).1 hs

theorem tuple_parts {p : Str → Option (SArg × Str)} {x r : Str} {l : List SArg} (h : pTupleWith p ('(' :: x) = some (l, r)) :
    l = [] ∨ (∃ a s1 s2, l = [a] ∧ p (skipSp x) = some (a, s1) ∧ lit cs!"," (skipSp s1) = some s2) ∨
      ∃ a l' s1 s2, l = a :: l' ∧ l' ≠ [] ∧ p (skipSp x) = some (a, s1) ∧ pStarN spCommaSp p s1.length s1 = (l', s2) := by
  unfold pTupleWith at h
  rcases or_some h with h | ⟨-, h⟩
  · rcases or_some h with h | ⟨-, h⟩
    · unfold pTuple0 at h
      simp only [Option.bind_eq_bind, Option.bind_eq_some_iff] at h
      obtain ⟨_, _, _, _, h3⟩ := h
      cases h3
      exact .inl rfl
    · unfold pTuple1With at h
      simp only [lit_cons, lit_nil, if_true, Option.bind_eq_bind, Option.bind_some, Option.bind_eq_some_iff] at h
      obtain ⟨⟨a, s1⟩, h1, s2, h2, s3, h3, h4⟩ := h
      cases h4
      exact .inr (.inl ⟨a, s1, s2, rfl, h1, h2⟩)
  · unfold pTuple2With at h
    simp only [lit_cons, lit_nil, if_true, Option.bind_eq_bind, Option.bind_some, Option.bind_eq_some_iff] at h
    obtain ⟨⟨l2, s1⟩, h1, h2⟩ := h
    right; right
    unfold pSep1 at h1
    split at h1
    · cases h1
    · next a s0 he =>
      cases h1
      split at h2
      · cases h2
      · next hlen =>
        simp only [Option.pure_def, Option.bind_some, Option.bind_eq_some_iff] at h2
        obtain ⟨_, _, h3⟩ := h2
        cases h3
        refine ⟨a, _, s0, _, rfl, ?_, he, Prod.ext rfl rfl⟩
        intro e
        rw [e] at hlen
        simp at hlen

mutual
theorem survives_value_of_read [UTab] [FTab] (hA : AsciiPrintable) (hF : FloatsShown) {h : List Op} (o : Opts) :
    (v : ExtValue) → ∀ (fuel : Nat) (rest r : Str) (a : SArg), (textExtValue (run h) o v).text.length < fuel → ExprFollow rest →
      pArgN fuel ((textExtValue (run h) o v).text ++ rest) = some (a, r) → convArg (run h) a = .ok v → SurvivesValue (run h) o v
  | .string s => by
    intro fuel rest r a hf hr hp hc
    obtain ⟨fuel, rfl⟩ : ∃ f, fuel = f + 1 := ⟨fuel - 1, by omega⟩
    have ha : a = .lit (.str s) := convArg_scalar hc
    subst ha
    have hk := paramLit_parts (argN_parts hp)
    rw [show (textExtValue (run h) o (.string s)).text = showString s from rfl, pValue_shownString] at hk
    injection hk with hk
    injection hk with hk _
    injection hk with hk
    rw [SurvivesValue]
    exact (unescape_escape_iff s).1 hk
  | .integer i => by
    intro fuel rest r a hf hr hp hc
    obtain ⟨t, rfl, ht⟩ := convArg_scalar hc
    rw [SurvivesValue]
    exact (toI64_range ht).1
  | .float f => by
    intro fuel rest r a hf hr hp hc
    obtain ⟨fuel, rfl⟩ : ∃ f, fuel = f + 1 := ⟨fuel - 1, by omega⟩
    obtain ⟨x, rfl, hx⟩ := convArg_scalar hc
    have hk := paramLit_parts (argN_parts hp)
    rw [SurvivesValue]
    rcases (pValue_shown (hF f).2 (LitFollow.num hr.1) hk).2 with ⟨h1, h2⟩ | ⟨i, h2⟩
    · injection h2 with h2
      subst h2
      exact ⟨h1, hx⟩
    · cases h2
  | .boolean b => by intros; rw [SurvivesValue]; trivial
  | .null => by intros; rw [SurvivesValue]; trivial
  | .error e => by
    intro fuel rest r a hf hr hp hc
    exact (convArg_scalar hc).elim
  | .enum s => by
    intro fuel rest r a hf hr hp hc
    obtain ⟨fuel, rfl⟩ : ∃ f, fuel = f + 1 := ⟨fuel - 1, by omega⟩
    have ha : a = .enum s := convArg_scalar hc
    subst ha
    have hk : pEnumValue _ = _ := argN_parts hp
    unfold pEnumValue at hk
    simp only [Option.bind_eq_bind, Option.bind_eq_some_iff] at hk
    obtain ⟨_, _, hk⟩ := hk
    rw [SurvivesValue]
    exact pIdent_is hk
  | .expr e => by
    intro fuel rest r a hf hr hp hc
    obtain ⟨fuel, rfl⟩ : ∃ f, fuel = f + 1 := ⟨fuel - 1, by omega⟩
    rw [SurvivesValue]
    rcases convArg_scalar hc with ⟨i, j, rfl, rfl, hj⟩ | ⟨s, rfl, hs⟩
    · refine ⟨?_, trivial⟩
      have : convExpr (run h) (.ref i) = .ok (.selection (.field j none)) := by rw [convExpr, hj]; rfl
      have hi := convExpr_image (Store.ordered_run h) _ _ this
      rw [ExprImage] at hi
      rw [SurvivesExpr]
      exact hi
    · have hk := argN_parts hp
      have hse := survives_expr_of_read hA hF o e _ rest _ s (by simp only [textExtValue, List.length_append]; omega) hr hk.1 hs
      exact ⟨hse, (pParamLit_expr hA o e hse rest hr).1 hk.2⟩
  | .tuple vs => by
    intro fuel rest r a hf hr hp hc
    obtain ⟨fuel, rfl⟩ : ∃ f, fuel = f + 1 := ⟨fuel - 1, by omega⟩
    obtain ⟨l, rfl, hl⟩ := convArg_scalar hc
    rw [SurvivesValue]
    have htx : (textExtValue (run h) o (.tuple vs)).text ++ rest = '(' :: (tupleText ((textExtValues (run h) o vs).map Out.text) ++ ')' :: rest) := by
      simp [textExtValue, textTupleItems_text]
    have hlen : ∀ x ∈ (textExtValues (run h) o vs).map Out.text, x.length < fuel := by
      intro x hx
      have := length_tupleText hx
      have : (textExtValue (run h) o (.tuple vs)).text.length = (tupleText ((textExtValues (run h) o vs).map Out.text)).length + 2 := by
        simp [textExtValue, textTupleItems_text]
      omega
    have hk : pTupleWith (pArgN fuel) _ = _ := argN_parts hp
    rw [htx] at hk
    rcases tuple_parts hk with rfl | ⟨a, s1, s2, rfl, h1, h2⟩ | ⟨a, l', s1, s2, rfl, hne, h1, h2⟩
    · cases hl; rw [SurvivesValues]; trivial
    · obtain ⟨v, vs', rfl, h3, h4⟩ := convArgList_cons hl
      cases h4
      have hst := starts_of_read_value hF o h1 h3
      have hx : tupleText ((textExtValues (run h) o [v]).map Out.text) ++ ')' :: rest = (textExtValue (run h) o v).text ++ (',' :: ')' :: rest) := by
        simp [textExtValues, tupleText]
      rw [hx, hst.skip] at h1
      rw [SurvivesValues, SurvivesValues]
      exact ⟨survives_value_of_read hA hF o v fuel _ _ _ (hlen _ (by simp [textExtValues])) (exprFollow_comma _) h1 h3, trivial⟩
    · obtain ⟨v, vs', rfl, h3, h4⟩ := convArgList_cons hl
      have hst := starts_of_read_value hF o h1 h3
      have hx : tupleText ((textExtValues (run h) o (v :: vs')).map Out.text) ++ ')' :: rest =
          (textExtValue (run h) o v).text ++ (((textExtValues (run h) o vs').map Out.text).flatMap (cs!", " ++ ·) ++ ')' :: rest) := by
        cases vs' with
        | nil =>
          cases l' with
          | nil => exact absurd rfl hne
          | cons b l' => obtain ⟨_, _, e, -⟩ := convArgList_cons h4; cases e
        | cons w vs' => simp [textExtValues, tupleText, joinS_cons]
      rw [hx, hst.skip] at h1
      have hl1 := hlen _ (by simp [textExtValues] : (textExtValue (run h) o v).text ∈ (textExtValues (run h) o (v :: vs')).map Out.text)
      have hv := survives_value_of_read hA hF o v fuel _ _ _ hl1 (flat_exprFollow _ rest) h1 h3
      obtain ⟨a', ha'⟩ := argText_survives hA o v hv
      rw [ha'.arg fuel _ hl1 (flat_exprFollow _ rest)] at h1
      cases h1
      rw [SurvivesValues]
      exact ⟨hv, (survives_values_of_read hA hF o vs' fuel _ _ _ _
        (fun x hx => hlen x (by simp only [textExtValues, List.map_cons]; exact List.mem_cons_of_mem _ hx)) h2 h4).1⟩
theorem survives_values_of_read [UTab] [FTab] (hA : AsciiPrintable) (hF : FloatsShown) {h : List Op} (o : Opts) :
    (vs : List ExtValue) → ∀ (fuel n : Nat) (rest r : Str) (l : List SArg),
      (∀ x ∈ (textExtValues (run h) o vs).map Out.text, x.length < fuel) →
      pStarN spCommaSp (pArgN fuel) n (((textExtValues (run h) o vs).map Out.text).flatMap (cs!", " ++ ·) ++ ')' :: rest) = (l, r) →
      convArgList (run h) l = .ok vs → SurvivesValues (run h) o vs ∧ r = ')' :: rest
  | [] => by
    intro fuel n rest r l hlen hp hc
    rw [SurvivesValues]
    cases l with
    | cons s l => obtain ⟨_, _, e, -⟩ := convArgList_cons hc; cases e
    | nil =>
      cases n with
      | zero => cases hp; exact ⟨trivial, rfl⟩
      | succ n =>
        have : spCommaSp (')' :: rest) = none := by simp [spCommaSp, skipSp_cons]
        simp only [textExtValues, List.map_nil, List.flatMap_nil, List.nil_append, pStarN, this] at hp
        cases hp
        exact ⟨trivial, rfl⟩
  | v :: vs => by
    intro fuel n rest r l hlen hp hc
    cases l with
    | nil => cases hc
    | cons s l =>
      obtain ⟨v', vs', he, h1, h2⟩ := convArgList_cons hc
      injection he with he1 he2
      subst he1 he2
      cases n with
      | zero => simp [pStarN] at hp
      | succ n =>
        have hx : ((textExtValues (run h) o (v :: vs)).map Out.text).flatMap (cs!", " ++ ·) ++ ')' :: rest =
            cs!", " ++ ((textExtValue (run h) o v).text ++ (((textExtValues (run h) o vs).map Out.text).flatMap (cs!", " ++ ·) ++ ')' :: rest)) := by
          simp [textExtValues]
        rw [hx, pStarN, spCommaSp_skip] at hp
        simp only at hp
        cases hpp : pArgN fuel (skipSp ((textExtValue (run h) o v).text ++ (((textExtValues (run h) o vs).map Out.text).flatMap (cs!", " ++ ·) ++ ')' :: rest))) with
        | none => rw [hpp] at hp; cases hp
        | some w =>
          obtain ⟨s', s2⟩ := w
          rw [hpp] at hp
          simp only [Prod.mk.injEq, List.cons.injEq] at hp
          obtain ⟨⟨rfl, hss⟩, hr⟩ := hp
          rw [(starts_of_read_value hF o hpp h1).skip] at hpp
          have hl : (textExtValue (run h) o v).text.length < fuel := hlen _ (by simp [textExtValues])
          have hs := survives_value_of_read hA hF o v _ _ _ _ hl (flat_exprFollow _ rest) hpp h1
          obtain ⟨a', ha'⟩ := argText_survives hA o v hs
          rw [ha'.arg fuel _ hl (flat_exprFollow _ rest)] at hpp
          cases hpp
          rw [SurvivesValues]
          have := survives_values_of_read hA hF o vs _ _ rest _ _
            (fun x hx => hlen x (by simp only [textExtValues, List.map_cons]; exact List.mem_cons_of_mem _ hx)) (Prod.ext hss hr) h2
          exact ⟨⟨hs, this.1⟩, this.2⟩
end

end Verif
