import Verif.Spec.ExprsExact
import Verif.Proofs.LiteralsExact
import Verif.Proofs.ExprsErr
import Verif.Proofs.HazardsText
import Verif.Props.Types
/-!
# Expressions that survive are read back
-/

namespace Verif
open StoreSpec TextSpec Grammar

set_option autoImplicit false

/-! ## References to functions -/

theorem textAnchor_fn {h : List Op} {o : Opts} {f : Nat} {nm : Str} {a : Option Nat}
    (hs : ShownFn (run h) o.anchors f nm a) : textAnchor (run h) o .function f = .s (nm ++ showAnchor a) := by
  obtain ⟨n, b, hd, hb, hm⟩ := hs
  obtain ⟨h1, h2, h3, h4, h5⟩ := C09_function_text h o f n b hd hb
  cases ho : o.anchors with
  | never => rw [ho] at hm; obtain ⟨rfl, rfl⟩ := hm; rw [h1 ho]; simp [showAnchor]
  | always => rw [ho] at hm; obtain ⟨rfl, rfl⟩ := hm; rw [h2 ho]; simp [showAnchor]
  | required =>
    rw [ho] at hm
    rcases hm with ⟨h6, rfl, rfl⟩ | ⟨h6, h7, h8, rfl, rfl⟩ | ⟨h6, h7, rfl, rfl⟩
    · rw [h3 ho h6]; simp [showAnchor]
    · rw [h4 ho h6 h7 h8]; simp [showAnchor]
    · rw [h5 ho h6 h7]; simp [showAnchor]

theorem shownFn_parts {st : Store} {v : Visibility} {f : Nat} {nm : Str} {a : Option Nat} (hs : ShownFn st v f nm a) :
    (a = none ∨ a = some f) ∧ ∃ n b, Declared st .function f n ∧ BareName n b ∧ (nm = n ∨ nm = b) := by
  obtain ⟨n, b, hd, hb, hm⟩ := hs
  cases v with
  | never => exact ⟨.inl hm.2, n, b, hd, hb, .inr hm.1⟩
  | always => exact ⟨.inr hm.2, n, b, hd, hb, .inl hm.1⟩
  | required =>
    rcases hm with ⟨-, rfl, rfl⟩ | ⟨-, -, -, rfl, rfl⟩ | ⟨-, -, rfl, rfl⟩
    · exact ⟨.inl rfl, n, _, hd, hb, .inr rfl⟩
    · exact ⟨.inl rfl, _, b, hd, hb, .inl rfl⟩
    · exact ⟨.inr rfl, _, b, hd, hb, .inl rfl⟩

theorem shownFn_exists (st : Store) (v : Visibility) {f : Nat} {n : Str} (hd : Declared st .function f n) : ∃ nm a, ShownFn st v f nm a := by
  have hb : BareName n (baseName n) := (bareName_iff _ _).2 rfl
  cases v with
  | never => exact ⟨_, _, n, _, hd, hb, rfl, rfl⟩
  | always => exact ⟨_, _, n, _, hd, hb, rfl, rfl⟩
  | required =>
    by_cases h1 : Rival st f n
    · by_cases h2 : ':' ∈ n
      · by_cases h3 : Twin st .function f n
        · exact ⟨_, _, n, _, hd, hb, .inr (.inr ⟨h1, .inr h3, rfl, rfl⟩)⟩
        · exact ⟨_, _, n, _, hd, hb, .inr (.inl ⟨h1, h2, h3, rfl, rfl⟩)⟩
      · exact ⟨_, _, n, _, hd, hb, .inr (.inr ⟨h1, .inl h2, rfl, rfl⟩)⟩
    · exact ⟨_, _, n, _, hd, hb, .inl ⟨h1, rfl, rfl⟩⟩

theorem spelledBy_bare {n b : Str} (hb : BareName n b) : SpelledBy n b := by
  rcases hb with ⟨h1, rfl | h2⟩
  · exact .inl rfl
  · exact .inr ⟨h1, h2⟩

theorem usableFn_name {st : Store} {f : Nat} {nm : Str} {a : Option Nat} (h : UsableFn st f nm a) : FunctionName nm := by
  cases a with
  | none => exact h.1
  | some a => exact h.1

theorem usableFn_resolves {h : List Op} {v : Visibility} {f : Nat} {nm : Str} {a : Option Nat} (hs : ShownFn (run h) v f nm a)
    (hu : UsableFn (run h) f nm a) : unwrapU32 (a.map fun a => ⟨false, a⟩) = .ok a ∧ (run h).getAndValidateAnchor .function a nm = .ok f := by
  obtain ⟨ha, n, b, hd, hb, hn⟩ := shownFn_parts hs
  have hsp : SpelledBy n nm := by
    rcases hn with rfl | rfl
    · exact .inl rfl
    · exact spelledBy_bare hb
  rw [Store.getAndValidate_function (Store.ordered_run h)]
  rcases ha with rfl | rfl
  · exact ⟨rfl, ⟨n, hd, hsp⟩, hu.2⟩
  · exact ⟨unwrapU32_anchor (.inr rfl) hu.2, ⟨n, hd, hsp⟩, rfl⟩

/-! ## No parenthesis in types -/

mutual
theorem survives_no_paren {h : List Op} (o : Opts) : (t : Ty) → SurvivesTy (run h) o.anchors t → '(' ∉ (textTy (run h) o t).text
  | .simple k n v, hs => by
    unfold SurvivesTy at hs
    subst hs
    simp [textTy, textifyType, textVariation_zero, textParamList, Out.sep, simple_no_paren, textNul_no_paren]
  | .intervalDay (some p) n v, hs => by
    unfold SurvivesTy at hs
    obtain ⟨rfl, -⟩ := hs
    simp [textTy, textifyType, textVariation_zero, textParamList, Out.sep, textIntParam, textNul_no_paren, decInt_no_paren]
  | .prec k p n v, hs => by
    unfold SurvivesTy at hs
    obtain ⟨rfl, -⟩ := hs
    simp [textTy, textifyType, textVariation_zero, textParamList, Out.sep, textIntParam, textNul_no_paren, decInt_no_paren, prec_no_paren]
  | .list (some t) n v, hs => by
    unfold SurvivesTy at hs
    obtain ⟨rfl, ht⟩ := hs
    have := survives_no_paren o t ht
    simp [textTy, textTyOpt, textifyType, textVariation_zero, textParamList, Out.sep, textNul_no_paren, this]
  | .user ref ps n v, hs => by
    unfold SurvivesTy at hs
    obtain ⟨rfl, ⟨nm, a, h1, h2, -⟩, hps⟩ := hs
    have htext : (textTy (run h) o (.user ref ps n 0)).text =
        nm ++ (showAnchor a ++ ((textNul n).text ++ (paramsText ((textParams (run h) o ps).map Out.text)))) := by
      simp [textTy, textUser, textifyType, textAnchor_shown h1, textVariation_zero, textParamList_text]
    have := survives_params_no_paren o ps hps
    have hp : '(' ∉ paramsText ((textParams (run h) o ps).map Out.text) := by
      unfold paramsText
      split
      · simp
      · have := joinS_no (sp := cs!", ") (by decide) this
        simp [this]
    rw [htext]
    simp [ident_no_paren (usable_ident h2).1, showAnchor_no_paren, textNul_no_paren, hp]
  | .missing, hs | .intervalDay none _ _, hs | .intervalCompound _ _ _, hs | .len _ _ _ _, hs | .decimal _ _ _ _, hs | .struct _ _ _, hs
  | .list none _ _, hs | .map _ _ _ _, hs | .userRef _, hs | .func, hs | .alias, hs => by simp [SurvivesTy] at hs
theorem survives_params_no_paren {h : List Op} (o : Opts) : (ps : List Param) → SurvivesParams (run h) o.anchors ps →
    ∀ x ∈ (textParams (run h) o ps).map Out.text, '(' ∉ x
  | [], _ => by simp [textParams]
  | .ty t :: ps, hs => by
    unfold SurvivesParams at hs
    have h1 := survives_no_paren o t hs.1
    have h2 := survives_params_no_paren o ps hs.2
    intro x hx
    simp only [textParams, textParam, List.map_cons, List.mem_cons] at hx
    rcases hx with rfl | hx
    · exact h1
    · exact h2 x hx
  | .missing :: _, hs | .null :: _, hs | .bool _ :: _, hs | .int _ :: _, hs | .enum _ :: _, hs | .str _ :: _, hs => by
    simp [SurvivesParams] at hs
end

theorem suffix_no_paren (v : Lit) (n : Bool) : '(' ∉ (textSuffix v n).text := by
  unfold textSuffix
  cases hsuf : v.suffix with
  | none => simp
  | some x =>
    obtain ⟨name, p⟩ := x
    have hname : '(' ∉ name := by
      cases v with
      | int w i => cases w <;> (simp only [Lit.suffix] at hsuf; cases hsuf; decide)
      | prec k p v => cases k <;> (simp only [Lit.suffix] at hsuf; cases hsuf; decide)
      | _ => simp only [Lit.suffix] at hsuf; cases hsuf; try decide
    have hp : '(' ∉ (match p with | some p => cs!"<" ++ decInt p ++ cs!">" | none => []) := by
      cases p with
      | none => simp
      | some p => simp [decInt_no_paren]
    have hq : '(' ∉ (if n = true then cs!"?" else []) := by cases n <;> decide
    simp only [Out.text_s, List.mem_append, not_or]
    exact ⟨⟨⟨by decide, hname⟩, hq⟩, hp⟩

theorem lit_shape_exact [UTab] [FTab] (hA : AsciiPrintable) {h : List Op} (o : Opts) (l : Literal) (hs : SurvivesLit (run h) o l) :
    ∃ c t, (textLit (run h) o l).text = c :: t ∧
      (valueHead c = true ∨ (isAlpha c = true ∧ '(' ∉ c :: t ∧ c ≠ 'i')) := by
  obtain ⟨value, nullable, tvar⟩ := l
  obtain ⟨h0, v, h1, h2⟩ := hs
  simp only at h0 h1 h2
  subst h0 h1
  by_cases hn : ∃ t, v = .null t
  · obtain ⟨t, rfl⟩ := hn
    have := survives_no_paren o t h2.1
    exact ⟨'n', cs!"ull" ++ cs!":" ++ (textTy (run h) o t).text, by simp [textLit, textValue], Or.inr ⟨by decide, by simp [this], by decide⟩⟩
  · have hn : ∀ t, v ≠ .null t := fun t e => hn ⟨t, e⟩
    have h2 : Spelled (run h) nullable v := by
      cases v with
      | null t => exact absurd rfl (hn t)
      | _ => exact h2.1
    obtain ⟨sv, h3, h4, h5, h6, h7⟩ := value_text hA (run h) o nullable v hn h2
    have ht : textLit (run h) o ⟨some v, nullable, 0⟩ =
        textValue o v ++ (if showSuffix o nullable v then textSuffix v nullable else .s []) := by
      cases v with
      | null t => exact absurd rfl (hn t)
      | _ => rfl
    have hsuf : '(' ∉ (if showSuffix o nullable v then textSuffix v nullable else .s []).text := by
      split
      · exact suffix_no_paren v nullable
      · simp
    rw [ht, Out.text_append]
    have := h3 [] (NextNot.nil _)
    rw [List.append_nil] at this
    rcases pValue_head this with ⟨c, t, h, hc⟩ | h | h | h
    · exact ⟨c, _, by rw [h]; rfl, Or.inl hc⟩
    · exact ⟨'t', _, by rw [h]; rfl, Or.inr ⟨by decide, by simp [hsuf], by decide⟩⟩
    · exact ⟨'f', _, by rw [h]; rfl, Or.inr ⟨by decide, by simp [hsuf], by decide⟩⟩
    · exact ⟨'n', _, by rw [h]; rfl, Or.inr ⟨by decide, by simp [hsuf], by decide⟩⟩

theorem survives_starts {h : List Op} (o : Opts) (t : Ty) (hs : SurvivesTy (run h) o.anchors t) : Starts (textTy (run h) o t).text := by
  obtain ⟨c, tl, h, hc⟩ := survives_head o t hs
  exact ⟨c, tl, h, alpha_ne_space hc⟩

theorem pType_survives {h : List Op} (o : Opts) (t : Ty) (hs : SurvivesTy (run h) o.anchors t) :
    ∃ s, convTy (run h) s = .ok t ∧ ∀ rest, TyFollow rest → pType ((textTy (run h) o t).text ++ rest) = some (s, rest) := by
  obtain ⟨s, h1, h2⟩ := survives_ty o t hs
  exact ⟨s, h1, fun rest hr => h2 _ rest (by simp only [List.length_append]; omega) hr⟩

theorem expr_starts_exact [UTab] [FTab] (hA : AsciiPrintable) {h : List Op} (o : Opts) (e : Expr) (hs : SurvivesExpr (run h) o e) :
    Starts (textExpr (run h) o e).text := by
  cases e with
  | missing => exact (by simp [SurvivesExpr] at hs)
  | other => exact (by simp [SurvivesExpr] at hs)
  | literal l =>
    simp only [SurvivesExpr] at hs
    obtain ⟨c, t, h1, h2⟩ := lit_shape_exact hA o l hs
    refine ⟨c, t, by rw [textExpr, h1], ?_⟩
    rcases h2 with h2 | h2
    · exact (valueHead_not_alpha h2).2.2.2.2
    · exact alpha_ne_space h2.1
  | selection f =>
    cases f with
    | field i child => exact ⟨'$', decInt i, by simp [textExpr, textFieldRef, textRef], by decide⟩
    | badReference => exact (by simp [SurvivesExpr] at hs)
    | badSegment => exact (by simp [SurvivesExpr] at hs)
  | call f args opts out =>
    cases out with
    | none => exact (by simp [SurvivesExpr] at hs)
    | some t =>
      simp only [SurvivesExpr] at hs
      obtain ⟨rfl, ⟨nm, a, h1, h2⟩, _, _⟩ := hs
      obtain ⟨c, tl, rfl, hc⟩ := (usableFn_name h2).head
      rw [call_text o (textAnchor_fn h1)]
      exact ⟨c, _, rfl, alpha_ne_space hc⟩
  | cast e t fb => exact ⟨'(', _, by simp [textExpr]; rfl, by decide⟩
  | ifThen ifs els => exact ⟨'i', _, by simp [textExpr]; rfl, by decide⟩

mutual
/-- An expression that survives is read back from its text, whatever follows. -/
theorem read_expr [UTab] [FTab] (hA : AsciiPrintable) {h : List Op} (o : Opts) :
    (e : Expr) → SurvivesExpr (run h) o e → ∃ s, convExpr (run h) s = .ok e ∧
      ∀ (fuel : Nat) (rest : Str), (textExpr (run h) o e).text.length < fuel → ExprFollow rest →
        pExprN fuel ((textExpr (run h) o e).text ++ rest) = some (s, rest)
  | .literal l, hs => by
    unfold SurvivesExpr at hs
    obtain ⟨s, h1, h2⟩ := read_of_survives_lit hA o l hs
    refine ⟨.lit s, by simp [convExpr, h1], ?_⟩
    intro fuel rest hf hr
    obtain ⟨fuel, rfl⟩ : ∃ f, fuel = f + 1 := ⟨fuel - 1, by omega⟩
    obtain ⟨c, t, h3, h4⟩ := lit_shape_exact hA o l hs
    have hp := h2 rest hr.1
    have hne : c ≠ 'i' ∧ c ≠ '(' ∧ c ≠ '$' := by
      rcases h4 with h4 | h4
      · have := valueHead_not_alpha h4; exact ⟨this.2.2.1, this.2.1, this.2.2.2.1⟩
      · exact ⟨h4.2.2, ident_ne_paren (isAlpha_ident h4.1), by rintro rfl; exact absurd h4.1 (by decide)⟩
    have hcall : pCallWith (pExprN fuel) (c :: t ++ rest) = none := by
      rcases h4 with h4 | h4
      · exact pCall_none_head (valueHead_not_alpha h4).1
      · exact pCall_none_text h4.2.1 hr.2
    rw [textExpr, pExprN, hp, h3, hcall]
    rw [List.cons_append, lit_if_none hne.1, pCast_none hne.2.1, pRef_none hne.2.2]
    rfl
  | .selection (.field i none), hs => by
    unfold SurvivesExpr at hs
    refine ⟨.ref (.ofInt i), by simp [convExpr, convIndex, ofInt_toI32 hs], ?_⟩
    intro fuel rest hf hr
    obtain ⟨fuel, rfl⟩ : ∃ f, fuel = f + 1 := ⟨fuel - 1, by omega⟩
    have hd : NextNot isDigit rest := NextNot.mono hr.1 fun c hc => by
      simp [litContinues, typeContinues, isDigit_ident hc]
    have h1 : (textExpr (run h) o (.selection (.field i none))).text ++ rest = '$' :: (decInt i ++ rest) := by
      simp [textExpr, textFieldRef, textRef]
    have hp : pRef ('$' :: (decInt i ++ rest)) = some (.ofInt i, rest) := by
      simp [pRef, lit, pInteger_decInt i rest hd]
    rw [h1, pExprN, lit_if_none (by decide), pCast_none (by decide), pCall_none_head (by decide), hp]
    rfl
  | .call f args opts (some t), hs => by
    unfold SurvivesExpr at hs
    obtain ⟨rfl, ⟨n, a, h0, h2⟩, hargs, ht⟩ := hs
    have h1 := textAnchor_fn h0
    have h3 := usableFn_name h2
    obtain ⟨hu, h4⟩ := usableFn_resolves h0 h2
    obtain ⟨sty, hty1, hty2⟩ := pType_survives o t ht
    obtain ⟨items, hi1, hi2, hi3, hi4⟩ := read_args hA o args hargs
    refine ⟨.call n (a.map fun a => ⟨false, a⟩) none (items.map (·.2)) sty, ?_, ?_⟩
    · simp [convExpr, hu, unwrapU32_none, hi3, hty1, h4, ofLookup]
    · intro fuel rest hf hr
      obtain ⟨fuel, rfl⟩ : ∃ f, fuel = f + 1 := ⟨fuel - 1, by omega⟩
      have htext := call_text o (args := args) (t := t) h1
      have hlen : ∀ x ∈ (textArgs (run h) o args).map Out.text, x.length < fuel := by
        apply args_length
        rw [htext] at hf
        simp only [List.length_append, List.length_cons] at hf
        omega
      have hpar : ∀ s, pExprN fuel (')' :: s) = none := fun s =>
        pExprN_none (by decide) (by decide) (by decide) (by decide) fuel
      have hitems := hi4 fuel hlen
      have hcall := pCall_text (a := a) items rest h3 hpar hi2 hitems (survives_starts o t ht) (hty2 rest (LitFollow.ty hr.1))
      have hif := pIfThen_none_call (a := a) items (':' :: ((textTy (run h) o t).text ++ rest)) h3 hpar hi2 hitems
      rw [hi1] at hcall hif
      obtain ⟨c, tl, rfl, hc⟩ := h3.head
      rw [htext]
      simp only [List.append_assoc, List.cons_append] at hcall hif ⊢
      rw [pExprN, hif, pCast_none (ident_ne_paren (isAlpha_ident hc)), hcall]
      rfl
  | .cast (some e) (some t) fb, hs => by
    unfold SurvivesExpr at hs
    obtain ⟨hfb, he, ht⟩ := hs
    obtain ⟨s, h1, h2⟩ := read_expr hA o e he
    obtain ⟨sty, hty1, hty2⟩ := pType_survives o t ht
    have hnum := (pBehavior_text hfb (survives_head o t ht) []).1
    refine ⟨.cast s (.of fb) sty, by simp [convExpr, h1, hty1, hnum], ?_⟩
    intro fuel rest hf hr
    obtain ⟨fuel, rfl⟩ : ∃ f, fuel = f + 1 := ⟨fuel - 1, by omega⟩
    have htext : (textExpr (run h) o (.cast (some e) (some t) fb)).text =
        '(' :: ((textExpr (run h) o e).text ++ (cs!")::" ++ ((textBehavior fb).text ++ (textTy (run h) o t).text))) := by
      simp [textExpr, textExprReq, textTyReq]
    have hlen : (textExpr (run h) o e).text.length < fuel := by
      rw [htext] at hf
      simp only [List.length_append, List.length_cons] at hf
      omega
    have hcast := pCast_text (e := pExprN fuel) (x := ((textExpr (run h) o e).text, s)) rest hfb (expr_starts_exact hA o e he)
      (fun r hr => h2 fuel r hlen hr) (survives_head o t ht) (hty2 rest (LitFollow.ty hr.1))
    rw [htext]
    simp only [List.append_assoc, List.cons_append] at hcast ⊢
    rw [pExprN, lit_if_none (by decide), hcast]
    rfl
  | .ifThen ifs (some e), hs => by
    unfold SurvivesExpr at hs
    obtain ⟨hne, hc, he⟩ := hs
    obtain ⟨s, h1, h2⟩ := read_expr hA o e he
    obtain ⟨l, hl1, hl2, hl3, hl4, hl5⟩ := read_clauses hA o ifs hc
    refine ⟨.ifThen (l.map fun i => (i.1.2, i.2.2)) s, by simp [convExpr, h1, hl3], ?_⟩
    intro fuel rest hf hr
    obtain ⟨fuel, rfl⟩ : ∃ f, fuel = f + 1 := ⟨fuel - 1, by omega⟩
    have htext : (textExpr (run h) o (.ifThen ifs (some e))).text =
        cs!"if_then(" ++ (clausesText l ++ (cs!"_ -> " ++ ((textExpr (run h) o e).text ++ [')']))) := by
      simp [textExpr, textExprReq, hl1]
    rw [htext] at hf
    simp only [List.length_append, List.length_cons] at hf
    have hif := pIfThen_text (e := pExprN fuel) l (x := ((textExpr (run h) o e).text, s)) rest (by
        intro h; rw [h] at hl4; exact hne (List.length_eq_zero_iff.1 hl4.symm))
      (hl5 fuel (by omega)) hl2 (expr_starts_exact hA o e he)
      (fun r hr => h2 fuel r (by omega) hr)
      (fun s => pExprN_none (by decide) (by decide) (by decide) (by decide) fuel)
    rw [htext]
    simp only [List.append_assoc, List.cons_append, List.nil_append] at hif ⊢
    rw [pExprN, hif]
    rfl
/-- Arguments that survive are read back from their texts. -/
theorem read_args [UTab] [FTab] (hA : AsciiPrintable) {h : List Op} (o : Opts) :
    (l : List Arg) → SurvivesArgs (run h) o l →
      ∃ items : List (Str × SExpr), items.map (·.1) = (textArgs (run h) o l).map Out.text ∧
        (∀ i ∈ items, Starts i.1) ∧ convArgs (run h) (items.map (·.2)) = .ok l ∧
        ∀ (fuel : Nat), (∀ x ∈ (textArgs (run h) o l).map Out.text, x.length < fuel) →
          ∀ i ∈ items, ∀ r, ExprFollow r → pExprN fuel (i.1 ++ r) = some (i.2, r)
  | [], _ => ⟨[], rfl, by simp, rfl, by simp⟩
  | .value e :: l, hs => by
    unfold SurvivesArgs at hs
    obtain ⟨items, h1, h2, h3, h4⟩ := read_args hA o l hs.2
    obtain ⟨s, hconv, hsx⟩ := read_expr hA o e hs.1
    refine ⟨((textExpr (run h) o e).text, s) :: items, by simp [h1, textArgs, textArg], ?_, ?_, ?_⟩
    · intro i hi
      rcases List.mem_cons.1 hi with rfl | hi
      · exact expr_starts_exact hA o e hs.1
      · exact h2 i hi
    · simp [convArgs, hconv, h3]
    · intro fuel hlen i hi r hr
      rcases List.mem_cons.1 hi with rfl | hi
      · exact hsx fuel r (hlen _ (by simp [textArgs, textArg])) hr
      · exact h4 fuel (fun x hx => hlen x (by simp only [textArgs, List.map_cons]; exact List.mem_cons_of_mem _ hx))
          i hi r hr
/-- Clauses that survive are read back from their texts. -/
theorem read_clauses [UTab] [FTab] (hA : AsciiPrintable) {h : List Op} (o : Opts) :
    (cs : List Clause) → SurvivesClauses (run h) o cs →
      ∃ l : List ((Str × SExpr) × (Str × SExpr)), (textClauses (run h) o cs).text = clausesText l ∧
        (∀ i ∈ l, Starts i.1.1 ∧ Starts i.2.1) ∧
        convClauses (run h) (l.map fun i => (i.1.2, i.2.2)) = .ok cs ∧ l.length = cs.length ∧
        ∀ (fuel : Nat), (clausesText l).length < fuel →
          ∀ i ∈ l, ∀ r, ExprFollow r → pExprN fuel (i.1.1 ++ r) = some (i.1.2, r) ∧
            pExprN fuel (i.2.1 ++ r) = some (i.2.2, r)
  | [], _ => ⟨[], by simp [textClauses, clausesText], by simp, rfl, rfl, by simp⟩
  | .mk (some c) (some t) :: l, hs => by
    unfold SurvivesClauses at hs
    obtain ⟨hc, ht, h'⟩ := hs
    obtain ⟨items, h1, h2, h3, h4, h5⟩ := read_clauses hA o l h'
    obtain ⟨sc, hc1, hc2⟩ := read_expr hA o c hc
    obtain ⟨sr, ht1, ht2⟩ := read_expr hA o t ht
    refine ⟨(((textExpr (run h) o c).text, sc), ((textExpr (run h) o t).text, sr)) :: items, ?_, ?_, ?_, by simp [h4], ?_⟩
    · simp [textClauses, textExprReq, clausesText, h1]
    · intro i hi
      rcases List.mem_cons.1 hi with rfl | hi
      · exact ⟨expr_starts_exact hA o c hc, expr_starts_exact hA o t ht⟩
      · exact h2 i hi
    · simp [convClauses, hc1, ht1, h3]
    · intro fuel hlen i hi r hr
      simp only [clausesText, List.flatMap_cons, List.length_append, List.length_cons] at hlen
      rcases List.mem_cons.1 hi with rfl | hi
      · exact ⟨hc2 fuel r (by omega) hr, ht2 fuel r (by omega) hr⟩
      · exact h5 fuel (by simp only [clausesText]; omega) i hi r hr
end

end Verif
