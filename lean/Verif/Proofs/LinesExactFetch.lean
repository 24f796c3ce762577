import Verif.Proofs.LinesExactOps
/-!
# Fetches whose lines survive
-/

namespace Verif
open StoreSpec TextSpec RelSpec

set_option autoImplicit false

/-! ## Numbers at the front of an expression -/

theorem pInteger_digits (neg : Bool) {ds x : Str} (h1 : ds ≠ []) (h2 : ∀ c ∈ ds, isDigit c = true) :
    pInteger ((if neg then ['-'] else []) ++ ds ++ x) ≠ none := by
  obtain ⟨d, ds, rfl⟩ : ∃ d l, ds = d :: l := by
    cases ds with
    | nil => exact absurd rfl h1
    | cons d l => exact ⟨d, l, rfl⟩
  have hd : isDigit d = true := h2 d (by simp)
  have hm : d ≠ '-' := by rintro rfl; exact absurd hd (by decide)
  have key : ∀ y, pDigits (d :: y) ≠ none := by
    intro y
    simp [pDigits, hd]
  cases neg with
  | true =>
    simp only [if_true, List.cons_append, List.nil_append, pInteger, pMinus]
    cases hk : pDigits (d :: (ds ++ x)) with
    | none => exact absurd hk (key _)
    | some r => simp
  | false =>
    have hp : pMinus (d :: (ds ++ x)) = (false, d :: (ds ++ x)) := by
      unfold pMinus
      split
      · rename_i heq; exact absurd (List.cons.inj heq).1 hm
      · rfl
    simp only [Bool.false_eq_true, if_false, List.cons_append, List.nil_append, pInteger, hp]
    cases hk : pDigits (d :: (ds ++ x)) with
    | none => exact absurd hk (key _)
    | some r => simp

theorem pInteger_int (i : Int) (x : Str) : pInteger (decInt i ++ x) ≠ none := by
  unfold decInt
  by_cases hi : i < 0
  · have := pInteger_digits true (x := x) (dec_ne_nil i.natAbs) (dec_all_digits _)
    simpa [hi] using this
  · have := pInteger_digits false (x := x) (dec_ne_nil i.natAbs) (dec_all_digits _)
    simpa [hi] using this

theorem pInteger_float {y : Str} (h : FloatText y) (x : Str) : pInteger (y ++ x) ≠ none := by
  obtain ⟨neg, ds, fs, h1, -, h3, -, rfl⟩ := h
  have := pInteger_digits neg (x := '.' :: (fs ++ x)) h1 h3
  simpa using this

section
variable [UTab] [FTab] (hA : AsciiPrintable) (hF : FloatsShown) {h : List Op} {o : Opts}

omit hA hF in
/-- The text of a numeric literal that survives starts with an integer. -/
theorem numeric_text {e : Expr} (hs : SurvivesExpr (run h) o e) (hn : Numeric e) (x : Str) :
    pInteger ((textExpr (run h) o e).text ++ x) ≠ none := by
  unfold Numeric at hn
  split at hn
  · next k i n t =>
    simp only [textExpr, textLit, textValue, Out.text_append, List.append_assoc]
    exact pInteger_int _ _
  · next f n t =>
    simp only [SurvivesExpr] at hs
    obtain ⟨-, v, hv, h2⟩ := hs
    cases hv
    simp only [textExpr, textLit, textValue, Out.text_append, List.append_assoc]
    exact pInteger_float h2.1.1 _
  · next f n t =>
    simp only [SurvivesExpr] at hs
    obtain ⟨-, v, hv, h2⟩ := hs
    cases hv
    simp only [textExpr, textLit, textValue, Out.text_append, List.append_assoc]
    exact pInteger_float h2.1.1 _
  · exact hn.elim

include hA in
/-- Any other expression that survives starts with something else. -/
theorem not_numeric_text {e : Expr} (hs : SurvivesExpr (run h) o e) (hn : ¬ Numeric e) (x : Str) :
    pInteger ((textExpr (run h) o e).text ++ x) = none := by
  have key : ∃ c t, (textExpr (run h) o e).text = c :: t ∧ isDigit c = false ∧ c ≠ '-' := by
    cases e with
    | missing => exact (by simp [SurvivesExpr] at hs)
    | other => exact (by simp [SurvivesExpr] at hs)
    | literal l =>
      simp only [SurvivesExpr] at hs
      obtain ⟨c, t, h1, -⟩ := lit_shape_exact hA o l hs
      refine ⟨c, t, by rw [textExpr, h1], ?_⟩
      obtain ⟨value, nullable, tvar⟩ := l
      obtain ⟨h0, v, h3, h4⟩ := hs
      simp only at h0 h3 h4
      subst h0 h3
      have hv1 : ∀ k i, v ≠ .int k i := by rintro k i rfl; exact hn trivial
      have hv2 : ∀ f, v ≠ .fp32 f := by rintro f rfl; exact hn trivial
      have hv3 : ∀ f, v ≠ .fp64 f := by rintro f rfl; exact hn trivial
      by_cases hnl : ∃ t, v = .null t
      · obtain ⟨t', rfl⟩ := hnl
        simp only [textLit] at h1
        cases h1
        decide
      · have hnl : ∀ t, v ≠ .null t := fun t e => hnl ⟨t, e⟩
        have h4 : Spelled (run h) nullable v := by
          cases v with
          | null t => exact absurd rfl (hnl t)
          | _ => exact h4.1
        have hnn := notNum_textValue (run h) o nullable v h4 hv1 hv2 hv3
        obtain ⟨sv, h5, _⟩ := value_text hA (run h) o nullable v hnl h4
        have h6 := h5 [] (NextNot.nil _)
        rw [List.append_nil] at h6
        have hne : ∃ d u, (textValue o v).text = d :: u := by
          rcases pValue_head h6 with ⟨d, u, h, _⟩ | h | h | h
          · exact ⟨d, u, h⟩
          all_goals exact ⟨_, _, h⟩
        obtain ⟨d, u, hd⟩ := hne
        rw [textLit_value (run h) o hnl, Out.text_append, hd] at h1
        cases h1
        exact hnn _ _ hd
    | selection f =>
      cases f with
      | field i child => exact ⟨'$', decInt i, by simp [textExpr, textFieldRef, textRef], by decide, by decide⟩
      | badReference => exact (by simp [SurvivesExpr] at hs)
      | badSegment => exact (by simp [SurvivesExpr] at hs)
    | call f args opts out =>
      cases out with
      | none => exact (by simp [SurvivesExpr] at hs)
      | some t =>
        simp only [SurvivesExpr] at hs
        obtain ⟨rfl, ⟨nm, a, h1, h2⟩, -, -⟩ := hs
        obtain ⟨c, tl, rfl, hc⟩ := (usableFn_name h2).head
        rw [call_text o (textAnchor_fn h1)]
        refine ⟨c, _, rfl, ?_, ?_⟩
        · cases hd : isDigit c with
          | false => rfl
          | true =>
            exfalso
            simp only [isAlpha, isUpper, isLower, isDigit, Bool.or_eq_true, Bool.and_eq_true, decide_eq_true_eq] at hc hd
            omega
        · rintro rfl
          revert hc
          decide
    | cast e t fb => exact ⟨'(', _, by simp [textExpr]; rfl, by decide, by decide⟩
    | ifThen ifs els => exact ⟨'i', _, by simp [textExpr]; rfl, by decide, by decide⟩
  obtain ⟨c, t, h1, h2, h3⟩ := key
  rw [h1]
  exact pInteger_head h2 h3

/-! ## Limits and offsets -/

omit hA hF in
theorem number_shown (st : Store) (i : Int) :
    (textExpr st o (number i)).text = decInt i ++ if o.litTypes = .always then cs!":i64" else [] := by
  cases hl : o.litTypes <;> simp [number, textExpr, textLit, textValue, showSuffix, hl, Lit.isDefault, textSuffix, Lit.suffix]

include hA in
/-- What survives is read back. -/
theorem count_item (hF : FloatsShown) {c : Count} (hs : SurvivesCount (run h) o c) :
    ∃ v, Item ExprFollow pFetchValue (textCount (run h) o c).text v ∧ convFetchValue (run h) v = .ok (.expr (amount c)) := by
  have key : ∀ i : Int, 0 ≤ i → i < 2 ^ 63 → Item ExprFollow pFetchValue (decInt i) (.int (.ofInt i)) ∧
      convFetchValue (run h) (.int (.ofInt i)) = .ok (.expr (number i)) := by
    intro i h1 h2
    refine ⟨⟨decInt_starts i, fun rest hr => ?_⟩, ?_⟩
    · simp [pFetchValue, pInteger_decInt i rest (litContinues_digit hr), mapFst]
    · have : (IntTok.ofInt i).toI64 = some i := ofInt_toI64 ⟨by omega, h2⟩
      simp only [convFetchValue, this]
      rw [if_neg (by omega)]
      rfl
  cases c with
  | deprecated i =>
    obtain ⟨h1, h2⟩ := key i hs.1 hs.2
    exact ⟨_, h1, h2⟩
  | expr e =>
    rcases hs with ⟨hl, i, rfl, h1, h2⟩ | ⟨he, hn⟩
    · obtain ⟨h3, h4⟩ := key i h1 h2
      refine ⟨_, ?_, h4⟩
      rw [textCount, number_shown, if_neg hl, List.append_nil]
      exact h3
    · obtain ⟨s, k1, k2⟩ := survivor hA he
      refine ⟨.expr s, ⟨survivor_starts hA hF he, fun rest hr => ?_⟩, ?_⟩
      · simp [pFetchValue, textCount, not_numeric_text hA he hn, k2 rest hr, mapFst]
      · simp [convFetchValue, k1, plain, Res.bind, amount]

include hA hF in
/-- What is read back survives, unless the text goes on with a type. -/
theorem count_read {c : Count} {v : SFetch} {rest r : Str} (hr : ExprFollow rest)
    (hp : pFetchValue (skipSp ((textCount (run h) o c).text ++ rest)) = some (v, r))
    (hc : convFetchValue (run h) v = .ok (.expr (amount c))) :
    (SurvivesCount (run h) o c ∧ r = rest) ∨ ∃ t, r = ':' :: t := by
  have inv : ∀ tok : IntTok, convFetchValue (run h) (.int tok) = .ok (.expr (amount c)) →
      ∃ i, amount c = number i ∧ 0 ≤ i ∧ i < 2 ^ 63 := by
    intro tok hc
    simp only [convFetchValue] at hc
    split at hc
    · cases hc
    · next i hi =>
      split at hc
      · cases hc
      · next hneg =>
        injection hc with hc
        injection hc with hc
        unfold IntTok.toI64 at hi
        split at hi
        · next hb =>
          cases hi
          exact ⟨_, hc.symm, by omega, hb.2⟩
        · cases hi
  unfold pFetchValue at hp
  cases c with
  | deprecated i =>
    have hst := decInt_starts i
    simp only [textCount, Out.text_s] at hp
    rw [hst.skip, pInteger_decInt i rest (litContinues_digit hr)] at hp
    simp only [mapFst, Option.some_or, Option.some.injEq, Prod.mk.injEq] at hp
    obtain ⟨rfl, rfl⟩ := hp
    obtain ⟨j, h1, h2, h3⟩ := inv _ hc
    simp only [amount, number] at h1
    cases h1
    exact .inl ⟨⟨h2, h3⟩, rfl⟩
  | expr e =>
    simp only [textCount] at hp
    cases hi : pInteger (skipSp ((textExpr (run h) o e).text ++ rest)) with
    | some a =>
      obtain ⟨tok, r'⟩ := a
      rw [hi] at hp
      simp only [mapFst, Option.some_or, Option.some.injEq, Prod.mk.injEq] at hp
      obtain ⟨rfl, rfl⟩ := hp
      obtain ⟨j, h1, h2, h3⟩ := inv _ hc
      simp only [amount] at h1
      subst h1
      rw [number_shown, List.append_assoc, (decInt_starts j).skip] at hi
      by_cases hl : o.litTypes = .always
      · rw [if_pos hl, pInteger_decInt j (cs!":i64" ++ rest) ((nextNot_cons _ _ _).2 (by decide))] at hi
        cases hi
        exact .inr ⟨_, rfl⟩
      · rw [if_neg hl, List.nil_append, pInteger_decInt j _ (litContinues_digit hr)] at hi
        cases hi
        exact .inl ⟨.inl ⟨hl, j, rfl, h2, h3⟩, rfl⟩
    | none =>
      rw [hi] at hp
      simp only [mapFst, Option.none_or] at hp
      split at hp
      case h_2 => cases hp
      next s r' hp' =>
      cases hp
      have hp := hp'
      simp only [convFetchValue] at hc
      obtain ⟨e', k1, hc⟩ := Res.bind_ok_iff.1 hc
      rw [plain_ok] at k1
      cases hc
      simp only [amount] at k1
      obtain ⟨h1, rfl⟩ := expr_in_line_skip hA hF hr hp k1
      refine .inl ⟨.inr ⟨h1, fun hn => ?_⟩, rfl⟩
      rw [(survivor_starts hA hF h1).skip] at hi
      exact numeric_text h1 hn _ hi

/-- A named argument of a fetch, as text. -/
def fetchText (st : Store) (o : Opts) (name : Str) (c : Count) : Str := name ++ '=' :: (textCount st o c).text

include hA hF in
theorem fetch_arg {name : Str} (hn : firstOf name [cs!"limit", cs!"offset"] = true) {c : Count} {n' : Str} {v : SFetch}
    {rest r : Str} (hr : ExprFollow rest) (hp : pFetchArg (fetchText (run h) o name c ++ rest) = some ((n', v), r)) :
    n' = name ∧ (convFetchValue (run h) v = .ok (.expr (amount c)) →
      (SurvivesCount (run h) o c ∧ r = rest) ∨ ∃ t, r = ':' :: t) := by
  have h1 : pFirst [cs!"limit", cs!"offset"] (name ++ '=' :: ((textCount (run h) o c).text ++ rest)) =
      some (name, '=' :: ((textCount (run h) o c).text ++ rest)) :=
    pFirst_firstOf hn ((nextNot_cons _ _ _).2 (by decide))
  unfold pFetchArg fetchText at hp
  simp only [List.append_assoc, List.cons_append, h1, Option.bind_eq_bind, Option.bind_some] at hp
  rw [skipSp_cons _ _ (by decide)] at hp
  simp only [lit, if_true, Option.bind_some, Option.bind_eq_some_iff] at hp
  obtain ⟨⟨v', r'⟩, h2, h3⟩ := hp
  cases h3
  exact ⟨rfl, fun hc => count_read hA hF hr h2 hc⟩

omit hA hF in
theorem colon_stops (t : Str) : spCommaSp (':' :: t) = none ∧ pArrow (':' :: t) = none := by
  constructor <;> simp [spCommaSp, pArrow, skipSp, lit]

omit hA hF in
theorem amount_back {c : Count} {x : Option SFetch} {l : Option Count}
    (hc : convOptR (convFetchValue (run h)) x = .ok l) (he : (some c).map amount = l.map amount) :
    ∃ v, x = some v ∧ convFetchValue (run h) v = .ok (.expr (amount c)) := by
  cases x with
  | none => cases hc; cases he
  | some v =>
    simp only [convOptR] at hc
    obtain ⟨b, k1, hc⟩ := Res.bind_ok_iff.1 hc
    cases hc
    refine ⟨v, rfl, ?_⟩
    rw [k1]
    have : ∃ e, b = .expr e := by
      cases v with
      | int i =>
        simp only [convFetchValue] at k1
        split at k1
        · cases k1
        · split at k1
          · cases k1
          · cases k1; exact ⟨_, rfl⟩
      | expr e =>
        simp only [convFetchValue] at k1
        obtain ⟨e', -, k1⟩ := Res.bind_ok_iff.1 k1
        cases k1
        exact ⟨_, rfl⟩
    obtain ⟨e, rfl⟩ := this
    simp only [Option.map_some, Option.some.injEq] at he
    rw [he]
    rfl

include hA hF in
/-- What the arguments of a fetch that is read are, and where reading them ends. -/
theorem fetch_args (count offset : Option Count) (n : Nat) (c : Option Common) {args : List (Str × SFetch)} {r s : Str} {l m : Option Count}
    (hp : pFetchArgs ((textArgList [] ((count.toList.map fun c => textNamedArg cs!"limit" (textCount (run h) o c)) ++
        (offset.toList.map fun c => textNamedArg cs!"offset" (textCount (run h) o c)))).text ++ endText o n c) = some (args, r))
    (ha : pArrow r = some s)
    (h1 : convOptR (convFetchValue (run h)) (fetchArg args cs!"limit") = .ok l) (h2 : count.map amount = l.map amount)
    (h3 : convOptR (convFetchValue (run h)) (fetchArg args cs!"offset") = .ok m) (h4 : offset.map amount = m.map amount) :
    (∀ x, count = some x → SurvivesCount (run h) o x) ∧ (∀ x, offset = some x → SurvivesCount (run h) o x) ∧ r = endText o n c := by
  have one : ∀ (name : Str) (x : Count), firstOf name [cs!"limit", cs!"offset"] = true →
      pFetchArgs (fetchText (run h) o name x ++ endText o n c) = some (args, r) →
      (∀ v, fetchArg args name = some v → convFetchValue (run h) v = .ok (.expr (amount x))) →
      SurvivesCount (run h) o x ∧ r = endText o n c := by
    intro name x hn hp hv
    unfold pFetchArgs pSep1 at hp
    have hu : lit cs!"_" (fetchText (run h) o name x ++ endText o n c) = none := by
      unfold fetchText
      cases name with
      | nil => simp [lit]
      | cons d name =>
        have : d ≠ '_' := by rintro rfl; simp [firstOf, clash] at hn
        simp [lit, this.symm]
    rw [hu] at hp
    cases hq : pFetchArg (fetchText (run h) o name x ++ endText o n c) with
    | none => rw [hq] at hp; cases hp
    | some a =>
      obtain ⟨⟨n', v⟩, t⟩ := a
      obtain ⟨rfl, g⟩ := fetch_arg hA hF hn (exprFollow_end o n c) hq
      rw [hq] at hp
      simp only [Option.some_or, Option.some.injEq, Prod.mk.injEq] at hp
      obtain ⟨rfl, rfl⟩ := hp
      rcases g (hv v (by simp [fetchArg])) with ⟨g1, rfl⟩ | ⟨t', rfl⟩
      · refine ⟨g1, ?_⟩
        rw [pStarN_stop _ _ _ (spCommaSp_end o n c)]
      · rw [pStarN_stop _ _ _ (colon_stops t').1] at ha
        rw [(colon_stops t').2] at ha
        cases ha
  cases count with
  | none =>
    cases offset with
    | none =>
      refine ⟨(fun x hx => by cases hx), (fun x hx => by cases hx), ?_⟩
      have ht : (textArgList [] (((none : Option Count).toList.map fun c => textNamedArg cs!"limit" (textCount (run h) o c)) ++
        ((none : Option Count).toList.map fun c => textNamedArg cs!"offset" (textCount (run h) o c)))).text = cs!"_" := by
        simp [textArgList]
      rw [ht] at hp
      simp [pFetchArgs, pSep1, pFetchArg, pFirst, lit] at hp
      exact hp.2.symm
    | some y =>
      have ht : (textArgList [] (((none : Option Count).toList.map fun c => textNamedArg cs!"limit" (textCount (run h) o c)) ++
        ((some y).toList.map fun c => textNamedArg cs!"offset" (textCount (run h) o c)))).text = fetchText (run h) o cs!"offset" y := by
        simp [textArgList, textNamedArg, fetchText, Out.sep]
      rw [ht] at hp
      obtain ⟨v, v1, v2⟩ := amount_back h3 h4
      obtain ⟨g1, g2⟩ := one _ y (by decide) hp (by
        intro v' hv'
        rw [v1] at hv'
        cases hv'
        exact v2)
      refine ⟨(fun x hx => by cases hx), (fun x hx => by cases hx; exact g1), g2⟩
  | some x =>
    obtain ⟨v, v1, v2⟩ := amount_back h1 h2
    cases offset with
    | none =>
      have ht : (textArgList [] (((some x).toList.map fun c => textNamedArg cs!"limit" (textCount (run h) o c)) ++
        ((none : Option Count).toList.map fun c => textNamedArg cs!"offset" (textCount (run h) o c)))).text = fetchText (run h) o cs!"limit" x := by
        simp [textArgList, textNamedArg, fetchText, Out.sep]
      rw [ht] at hp
      obtain ⟨g1, g2⟩ := one _ x (by decide) hp (by
        intro v' hv'
        rw [v1] at hv'
        cases hv'
        exact v2)
      refine ⟨(fun x hx => by cases hx; exact g1), (fun x hx => by cases hx), g2⟩
    | some y =>
      obtain ⟨w, w1, w2⟩ := amount_back h3 h4
      have ht : (textArgList [] (((some x).toList.map fun c => textNamedArg cs!"limit" (textCount (run h) o c)) ++
          ((some y).toList.map fun c => textNamedArg cs!"offset" (textCount (run h) o c)))).text =
          fetchText (run h) o cs!"limit" x ++ (cs!", " ++ fetchText (run h) o cs!"offset" y) := by
        simp [textArgList, textNamedArg, fetchText, Out.sep]
      rw [ht, List.append_assoc, List.append_assoc] at hp
      unfold pFetchArgs pSep1 at hp
      have hu : lit cs!"_" (fetchText (run h) o cs!"limit" x ++ (cs!", " ++ (fetchText (run h) o cs!"offset" y ++ endText o n c))) = none := by
        simp [fetchText, lit]
      rw [hu] at hp
      have hfo : ExprFollow (cs!", " ++ (fetchText (run h) o cs!"offset" y ++ endText o n c)) := exprFollow_comma _
      cases hq : pFetchArg (fetchText (run h) o cs!"limit" x ++ (cs!", " ++ (fetchText (run h) o cs!"offset" y ++ endText o n c))) with
      | none => rw [hq] at hp; cases hp
      | some a =>
        obtain ⟨⟨n', v'⟩, t⟩ := a
        obtain ⟨rfl, g⟩ := fetch_arg hA hF (by decide) hfo hq
        rw [hq] at hp
        simp only [Option.some_or, Option.some.injEq, Prod.mk.injEq] at hp
        obtain ⟨rfl, rfl⟩ := hp
        simp only [fetchArg, if_true, Option.some.injEq] at v1
        subst v1
        rcases g v2 with ⟨g1, rfl⟩ | ⟨t', rfl⟩
        · have hst : Starts (fetchText (run h) o cs!"offset" y) := ⟨'o', _, rfl, by decide⟩
          generalize hf : (cs!", " ++ (fetchText (run h) o cs!"offset" y ++ endText o n c)).length = fuel at ha w1 ⊢
          cases fuel with
          | zero => simp at hf
          | succ fuel =>
            rw [pStarN, spCommaSp_starts hst] at ha w1 ⊢
            simp only at ha w1 ⊢
            cases hq2 : pFetchArg (fetchText (run h) o cs!"offset" y ++ endText o n c) with
            | none =>
              rw [hq2] at w1
              simp [fetchArg] at w1
            | some a =>
              obtain ⟨⟨n2, w'⟩, t2⟩ := a
              obtain ⟨rfl, g'⟩ := fetch_arg hA hF (by decide) (exprFollow_end o n c) hq2
              rw [hq2] at w1 ha
              simp [fetchArg] at w1
              subst w1
              simp only at ha ⊢
              rcases g' w2 with ⟨g2, rfl⟩ | ⟨t', rfl⟩
              · refine ⟨(fun x hx => by cases hx; exact g1), (fun x hx => by cases hx; exact g2), ?_⟩
                rw [pStarN_stop _ _ _ (spCommaSp_end o n c)]
              · rw [pStarN_stop _ _ _ (colon_stops t').1] at ha
                rw [(colon_stops t').2] at ha
                cases ha
        · rw [pStarN_stop _ _ _ (colon_stops t').1] at ha
          rw [(colon_stops t').2] at ha
          cases ha

variable {reg : Registry ExtArgs (List Nat)} (ho : o.showEmit = false)
include hA hF ho

theorem fetch_kept (kids : List (Rel × Nat)) (c : Option Common) (count offset : Option Count)
    (hn : Countable reg (kids.map (·.2)) (.fetch c count offset none)) :
    (LineBack ⟨run h, o, reg⟩ kids (.fetch c count offset none) → SurvivesLine (run h) o (kids.map (·.2)) (.fetch c count offset none)) ∧
      (SurvivesLine (run h) o (kids.map (·.2)) (.fetch c count offset none) → LineKept ⟨run h, o, reg⟩ kids (.fetch c count offset none)) := by
  have hn2 : (kids.map (·.2)).sum + (shown (kids.map (·.2)).sum c).length ≤ 2 ^ 31 := hn.2
  have hb : (textHeader o 0 (relHead ⟨run h, o, reg⟩ (kids.map fun k => some k.2) (.fetch c count offset none))).text =
      cs!"Fetch[" ++ ((textArgList [] ((count.toList.map fun c => textNamedArg cs!"limit" (textCount (run h) o c)) ++
        (offset.toList.map fun c => textNamedArg cs!"offset" (textCount (run h) o c)))).text ++ endText o (kids.map (·.2)).sum c) := by
    rw [line_text, headBody_end (n := (kids.map (·.2)).sum) (c := c) 0 _ _ _ rfl rfl (by simp only [relHead, total_kids]) rfl]
    rfl
  constructor
  · rintro ⟨line, rest, op', ins, w, h1, h2, h3⟩
    simp only at h1 h2
    rw [hb, pRelLine_fetch_eq] at h1
    unfold pFetch at h1
    rw [lit_append] at h1
    simp only [Option.bind_eq_bind, Option.bind_some, Option.bind_eq_some_iff] at h1
    obtain ⟨⟨args, s1⟩, h4, s2, h5, ⟨refs, s3⟩, h6, h7⟩ := h1
    cases h7
    simp only [convLine, standardAdv_nil, Res.bind, convBody] at h2
    obtain ⟨r, k1, h2⟩ := Res.bind_ok_iff.1 h2
    split at h2
    · cases h2
    obtain ⟨p, k3, h2⟩ := Res.bind_ok_iff.1 h2
    obtain ⟨l, k4, h2⟩ := Res.bind_ok_iff.1 h2
    obtain ⟨m, k5, h2⟩ := Res.bind_ok_iff.1 h2
    cases h2
    obtain ⟨n, rfl⟩ := oneKid_ok k1
    simp only [OpEquiv, List.map_cons, List.map_nil, List.sum_cons, List.sum_nil, Nat.add_zero] at h3 h4 hn2
    obtain ⟨h8, h9, h10, h11, -⟩ := h3
    obtain ⟨g1, g2, rfl⟩ := fetch_args hA hF count offset n c h4 h5 k4 h10 k5 h11
    have hR := end_read ho hn2 h5 h6
    refine ⟨rfl, by rw [h9, hints_conv k3], g1, g2, ?_⟩
    simpa [Among] using hR.2
  · rintro ⟨hl, hh, hc, hf, hr⟩
    have hR : InRange (kids.map (·.2)).sum (shown (kids.map (·.2)).sum c) := ⟨hn2, hr⟩
    obtain ⟨r, n, rfl⟩ : ∃ r n, kids = [(r, n)] := oneKid rfl hl
    simp only [List.map_cons, List.map_nil, List.sum_cons, List.sum_nil, Nat.add_zero] at hR hn2
    have arg : ∀ (name : Str) (x : Option Count), firstOf name [cs!"limit", cs!"offset"] = true →
        (∀ y, x = some y → SurvivesCount (run h) o y) →
        ∃ v : Option SFetch, x.isSome = v.isSome ∧
          convOptR (convFetchValue (run h)) v = .ok (x.map fun y => .expr (amount y)) ∧
          ∃ items : List (Str × (Str × SFetch)), (∀ i ∈ items, Item ExprFollow pFetchArg i.1 i.2) ∧
            (x.toList.map fun y => textNamedArg name (textCount (run h) o y)).map Out.text = items.map (·.1) ∧
            items.map (·.2) = v.toList.map fun y => (name, y) := by
      intro name x hn hx
      cases x with
      | none => exact ⟨none, rfl, rfl, [], by simp, rfl, rfl⟩
      | some y =>
        obtain ⟨v, h3, h4⟩ := count_item hA hF (hx y rfl)
        refine ⟨some v, rfl, by simp [convOptR, h4, Res.bind], [(name ++ '=' :: (textCount (run h) o y).text, (name, v))], ?_, ?_, rfl⟩
        · intro i hi
          rw [List.mem_singleton] at hi
          subst hi
          exact item_fetchArg h3 hn
        · simp [textNamedArg]
    obtain ⟨v, v1, v2, iv, v3, v4, v5⟩ := arg cs!"limit" count (by decide) hc
    obtain ⟨w, w1, w2, iw, w3, w4, w5⟩ := arg cs!"offset" offset (by decide) hf
    refine ⟨.fetch ((v.toList.map fun y => (cs!"limit", y)) ++ w.toList.map fun y => (cs!"offset", y))
      ((shown n c).map IntTok.ofInt), [], .fetch (mkCommon (makeEmit (shown n c) n)) (count.map fun y => .expr (amount y))
      (offset.map fun y => .expr (amount y)) none, [some r], (shown n c).length, by simp, by simp [outWidth, directWidth, common], ?_, ?_, ?_⟩
    · rw [hb, pRelLine_fetch_eq]
      simp only [List.map_cons, List.map_nil, List.sum_cons, List.sum_nil, Nat.add_zero, end_text ho hR]
      have h3 := pFetch_text (m := shown n c) (items := iv ++ iw) (by
        intro i hi
        rcases List.mem_append.1 hi with hi | hi
        · exact v3 i hi
        · exact w3 i hi)
      have h6 : ∀ l : List Out, l.map Out.text = (iv ++ iw).map (·.1) → (textArgList [] l).text =
          if iv ++ iw = [] then cs!"_" else joinS cs!", " ((iv ++ iw).map (·.1)) := by
        intro l hl
        have : l = [] ↔ iv ++ iw = [] := by
          rw [← List.map_eq_nil_iff (f := Out.text), hl, List.map_eq_nil_iff]
        unfold textArgList
        by_cases hn : l = []
        · rw [if_pos ⟨rfl, hn⟩, if_pos (this.1 hn)]
          rfl
        · rw [if_neg (fun h => hn h.2), if_neg (fun h => hn (this.2 h)), List.nil_append, Out.text_sep, hl]
      rw [h6 _ (by rw [List.map_append, List.map_append, v4, w4])]
      rw [List.map_append (f := fun x : Str × (Str × SFetch) => x.2), v5, w5] at h3
      exact h3
    · have hd : hasDup (((v.toList.map fun y => (cs!"limit", y)) ++ w.toList.map fun y => (cs!"offset", y)).map (·.1)) = false := by
        cases v <;> cases w <;> simp [hasDup]
      have hlim : fetchArg ((v.toList.map fun y => (cs!"limit", y)) ++ w.toList.map fun y => (cs!"offset", y)) cs!"limit" = v := by
        cases v <;> cases w <;> simp [fetchArg]
      have hoff : fetchArg ((v.toList.map fun y => (cs!"limit", y)) ++ w.toList.map fun y => (cs!"offset", y)) cs!"offset" = w := by
        cases v <;> cases w <;> simp [fetchArg]
      simp only [convLine, standardAdv_nil, Res.bind, convBody, oneChild, hd, hlim, hoff, v2, w2, List.map_cons, List.map_nil,
        List.sum_cons, List.sum_nil, Nat.add_zero, convEmit_text (n := n) (InRange.i32 hR)]
      rfl
    · simp only [OpEquiv, List.map_cons, List.map_nil, List.sum_cons, List.sum_nil, Nat.add_zero]
      refine ⟨(shown_makeEmit (by omega)).symm, hh, ?_, ?_, trivial⟩
      · cases count <;> rfl
      · cases offset <;> rfl

theorem fetch_exact (kids : List (Rel × Nat)) (c : Option Common) (count offset : Option Count)
    (hn : Countable reg (kids.map (·.2)) (.fetch c count offset none)) :
    LineBack ⟨run h, o, reg⟩ kids (.fetch c count offset none) ↔ SurvivesLine (run h) o (kids.map (·.2)) (.fetch c count offset none) :=
  ⟨(fetch_kept hA hF ho kids c count offset hn).1, fun hs => kept_back ((fetch_kept hA hF ho kids c count offset hn).2 hs)⟩

end
end Verif
