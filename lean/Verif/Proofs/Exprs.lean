import Verif.Proofs.LiteralsMore
import Verif.Spec.Exprs
/-!
# Expressions: printing and reading
-/

namespace Verif
open StoreSpec TextSpec

set_option autoImplicit false

/-- The text cannot be taken for the argument list of a call that began before it. -/
def NoCall (s : Str) : Prop := NextNot (· == '(') (s.dropWhile callChar)

/-- What may stand after an expression: nothing that continues it. -/
def ExprFollow (s : Str) : Prop := NextNot litContinues s ∧ NoCall s

/-! ### What a rule consumes -/

/-- `r` is what is left of `s` after some characters of a class. -/
def Eats (C : Char → Bool) (s r : Str) : Prop := ∃ p, s = p ++ r ∧ ∀ c ∈ p, C c = true

theorem Eats.refl (C : Char → Bool) (s : Str) : Eats C s s := ⟨[], rfl, by simp⟩

theorem Eats.trans {C : Char → Bool} {s r t : Str} (h : Eats C s r) (g : Eats C r t) : Eats C s t := by
  obtain ⟨p, rfl, hp⟩ := h
  obtain ⟨q, rfl, hq⟩ := g
  refine ⟨p ++ q, by simp, ?_⟩
  intro c hc
  rcases List.mem_append.1 hc with h | h
  · exact hp c h
  · exact hq c h

theorem takeWhile_mem {p : Char → Bool} {s : Str} {c : Char} (h : c ∈ s.takeWhile p) : p c = true := by
  induction s with
  | nil => cases h
  | cons d s ih =>
    rw [List.takeWhile_cons] at h
    split at h
    · rcases List.mem_cons.1 h with rfl | h
      · assumption
      · exact ih h
    · cases h

theorem eats_takeWhile (C D : Char → Bool) (s : Str) (h : ∀ c, D c = true → C c = true) :
    Eats C s (s.dropWhile D) :=
  ⟨s.takeWhile D, by simp, fun _ hc => h _ (takeWhile_mem hc)⟩

theorem eats_skipSp (s : Str) : Eats callChar s (skipSp s) := by
  unfold skipSp
  apply eats_takeWhile
  intro c hc
  simp only [beq_iff_eq] at hc
  subst hc; decide

theorem eats_lit {p s r : Str} (h : lit p s = some r) (hp : ∀ c ∈ p, callChar c = true) :
    Eats callChar s r := ⟨p, lit_some h, hp⟩

theorem eats_pIdent {s i r : Str} (h : pIdent s = some (i, r)) : Eats callChar s r := by
  unfold pIdent at h
  split at h
  · cases h
  · rename_i c cs
    split at h
    · rename_i hc
      injection h with h
      injection h with h1 h2
      subst h2
      refine Eats.trans (r := cs) ⟨[c], rfl, ?_⟩ (eats_takeWhile _ _ _ ?_)
      · simp only [List.mem_singleton]
        rintro d rfl
        simp [callChar, isAlpha_ident hc]
      · intro d hd; simp [callChar, hd]
    · cases h

theorem eats_pInteger {s r : Str} {i : IntTok} (h : pInteger s = some (i, r)) : Eats callChar s r := by
  obtain ⟨x, rfl, neg, ds, _, hd, rfl, _⟩ := pInteger_some h
  refine ⟨_, rfl, ?_⟩
  intro c hc
  rcases List.mem_append.1 hc with h | h
  · cases neg <;> simp at h; subst h; decide
  · simp [callChar, isDigit_ident (hd c h)]

theorem eats_anchor {s r : Str} {i : IntTok} {k : Char} (hk : callChar k = true)
    (h : (do pInteger (skipSp (← lit [k] s))) = some (i, r)) : Eats callChar s r := by
  obtain ⟨t, h1, h2⟩ := Option.bind_eq_some_iff.1 h
  exact (eats_lit h1 (by simpa using hk)).trans ((eats_skipSp t).trans (eats_pInteger h2))

theorem eats_pOpt {α : Type} {p : Str → Option (α × Str)} (s : Str)
    (h : ∀ a r, p s = some (a, r) → Eats callChar s r) : Eats callChar s (pOpt p s).2 := by
  unfold pOpt
  cases hp : p s with
  | none => exact Eats.refl _ _
  | some x => exact h x.1 x.2 (by rw [hp])

theorem isAlnum_call {c : Char} (h : isAlnum c = true) : callChar c = true := by
  simp [callChar, isIdentChar, h]

theorem eats_pShortName {s i r : Str} (h : pShortName s = some (i, r)) : Eats callChar s r := by
  unfold pShortName at h
  split at h
  · cases h
  · rename_i c cs
    split at h
    · rename_i hc
      injection h with h
      injection h with h1 h2
      subst h2
      refine Eats.trans (r := cs) ⟨[c], rfl, ?_⟩ (eats_takeWhile _ _ _ fun _ => isAlnum_call)
      simp only [List.mem_singleton]
      rintro d rfl
      simp [callChar, isAlpha_ident hc]
    · cases h

theorem mapFst_some {α β : Type} {f : α → β} {x : Option (α × Str)} {b : β} {r : Str}
    (h : mapFst f x = some (b, r)) : ∃ a, x = some (a, r) ∧ f a = b := by
  cases x with
  | none => cases h
  | some y =>
    simp only [mapFst, Option.map_some, Option.some.injEq, Prod.mk.injEq] at h
    exact ⟨y.1, by rw [← h.2], h.1⟩

theorem eats_pShortArg {s i r : Str} (h : pShortArg s = some (i, r)) : Eats callChar s r := by
  unfold pShortArg at h
  rcases Option.or_eq_some_iff.1 h with h | ⟨_, h⟩
  · split at h
    · rename_i t ht
      obtain ⟨a, ha, _⟩ := mapFst_some h
      exact (eats_lit ht (by decide)).trans (eats_pShortName ha)
    · cases h
  · exact eats_pShortName h

theorem eats_pStarN {α : Type} {sep : Str → Option Str} {p : Str → Option (α × Str)}
    (hs : ∀ s r, sep s = some r → Eats callChar s r)
    (hp : ∀ s a r, p s = some (a, r) → Eats callChar s r) (n : Nat) (s : Str) :
    Eats callChar s (pStarN sep p n s).2 := by
  induction n generalizing s with
  | zero => exact Eats.refl _ _
  | succ n ih =>
    unfold pStarN
    split
    · exact Eats.refl _ _
    · rename_i r hr
      split
      · exact Eats.refl _ _
      · rename_i a t ht
        exact ((hs _ _ hr).trans (hp _ _ _ ht)).trans (ih _)

theorem eats_pArgSig {s i r : Str} (h : pArgSig s = some (i, r)) : Eats callChar s r := by
  unfold pArgSig at h
  obtain ⟨l, h, _⟩ := mapFst_some h
  unfold pSep1 at h
  split at h
  · cases h
  · rename_i a t ht
    simp only [Option.some.injEq, Prod.mk.injEq] at h
    rw [← h.2]
    exact (eats_pShortArg ht).trans (eats_pStarN (fun _ _ h => eats_lit h (by decide)) (fun _ _ _ h => eats_pShortArg h) _ _)

theorem eats_pFunSig {s i r : Str} (h : pFunSig s = some (i, r)) : Eats callChar s r := by
  unfold pFunSig at h
  split at h
  · cases h
  · rename_i a t ht
    refine (eats_pIdent ht).trans ?_
    split at h
    · injection h with h; injection h with h1 h2; rw [h2]; exact Eats.refl _ _
    · rename_i u hu
      refine (eats_lit hu (by decide)).trans ?_
      split at h
      · injection h with h; injection h with h1 h2; rw [h2]; exact Eats.refl _ _
      · rename_i v w hw
        injection h with h; injection h with h1 h2; rw [← h2]; exact eats_pArgSig hw

/-- A call is read only where an opening parenthesis follows characters that calls begin with. -/
theorem call_shape {e : Str → Option (SExpr × Str)} {s : Str} {x : SExpr × Str}
    (h : pCallWith e s = some x) : ∃ r, Eats callChar s ('(' :: r) := by
  unfold pCallWith at h
  obtain ⟨⟨name, s1⟩, h1, h⟩ := Option.bind_eq_some_iff.1 h
  simp only at h
  obtain ⟨⟨args, s2⟩, h2, h⟩ := Option.bind_eq_some_iff.1 h
  unfold pArgsWith at h2
  obtain ⟨s3, h3, h2⟩ := Option.bind_eq_some_iff.1 h2
  refine ⟨s3, ?_⟩
  have := lit_some h3
  simp only [List.cons_append, List.nil_append] at this
  rw [← this]
  refine (eats_pFunSig h1).trans ((eats_skipSp _).trans ((eats_pOpt _ ?_).trans ((eats_skipSp _).trans
    ((eats_pOpt _ ?_).trans (eats_skipSp _)))))
  · intro a r h; exact eats_anchor (by decide) h
  · intro a r h; exact eats_anchor (by decide) h

/-! ### Texts without a parenthesis -/

theorem ident_ne_paren {c : Char} (h : isIdentChar c = true) : c ≠ '(' := by
  rintro rfl; simp [isIdentChar, isAlnum, isAlpha, isUpper, isLower, isDigit] at h

theorem dec_no_paren (n : Nat) : '(' ∉ dec n := fun h =>
  absurd rfl (ident_ne_paren (isDigit_ident (dec_all_digits n _ h)))

theorem decInt_no_paren (i : Int) : '(' ∉ decInt i := by
  unfold decInt
  split
  · simp [dec_no_paren]
  · exact dec_no_paren _

theorem ident_no_paren {n : Str} (h : isIdentifier n = true) : '(' ∉ n := by
  obtain ⟨c, t, rfl, hc, ht⟩ := (isIdentifier_iff n).1 h
  intro h
  rcases List.mem_cons.1 h with h | h
  · exact ident_ne_paren (isAlpha_ident hc) h.symm
  · exact ident_ne_paren (ht _ h) rfl

theorem showAnchor_no_paren (a : Option Nat) : '(' ∉ showAnchor a := by
  cases a with
  | none => simp [showAnchor]
  | some a => simp [showAnchor, dec_no_paren]

theorem textNul_no_paren (n : Nul) : '(' ∉ (textNul n).text := by
  cases n <;> simp [textNul]

theorem joinS_no {c : Char} {sp : Str} {l : List Str} (hs : c ∉ sp) (hl : ∀ x ∈ l, c ∉ x) : c ∉ joinS sp l := by
  cases l with
  | nil => simp [joinS]
  | cons a l =>
    rw [joinS_cons]
    simp only [List.mem_append, List.mem_flatMap, not_or, not_exists, not_and]
    exact ⟨hl a (by simp), fun x hx => ⟨hs, hl x (by simp [hx])⟩⟩

theorem simple_no_paren (k : SimpleKind) : '(' ∉ k.name := by cases k <;> decide
theorem prec_no_paren (k : PrecKind) : '(' ∉ k.name := by cases k <;> decide

mutual
theorem ty_no_paren {st : Store} (hst : st.Ordered) (o : Opts) (ho : o.anchors ≠ .never) :
    (t : Ty) → Writable st t → '(' ∉ (textTy st o t).text
  | .simple k n v, h => by
    unfold Writable at h
    subst h
    simp [textTy, textifyType, textVariation_zero, textParamList, Out.sep, simple_no_paren, textNul_no_paren]
  | .intervalDay (some p) n v, h => by
    unfold Writable at h
    obtain ⟨rfl, h0, h1⟩ := h
    simp [textTy, textifyType, textVariation_zero, textParamList, Out.sep, textIntParam, textNul_no_paren, decInt_no_paren]
  | .prec k p n v, h => by
    unfold Writable at h
    obtain ⟨rfl, h0, h1⟩ := h
    simp [textTy, textifyType, textVariation_zero, textParamList, Out.sep, textIntParam, textNul_no_paren, decInt_no_paren, prec_no_paren]
  | .list (some t) n v, h => by
    unfold Writable at h
    obtain ⟨rfl, ht⟩ := h
    have := ty_no_paren hst o ho t ht
    simp [textTy, textTyOpt, textifyType, textVariation_zero, textParamList, Out.sep, textNul_no_paren, this]
  | .user ref ps n v, h => by
    unfold Writable at h
    obtain ⟨rfl, href, ⟨name, hd, hname⟩, hps⟩ := h
    obtain ⟨a, h1, h2, h3⟩ := textAnchor_type hst o ho ref name hd hname.1
    have htext : (textTy st o (.user ref ps n 0)).text =
        name ++ (showAnchor a ++ ((textNul n).text ++ (paramsText ((textParams st o ps).map Out.text)))) := by
      simp [textTy, textUser, textifyType, h1, textVariation_zero, textParamList_text]
    have := params_no_paren hst o ho ps hps
    have hp : '(' ∉ paramsText ((textParams st o ps).map Out.text) := by
      unfold paramsText
      split
      · simp
      · have := joinS_no (sp := cs!", ") (by decide) this
        simp [this]
    rw [htext]
    simp [ident_no_paren hname.1, showAnchor_no_paren, textNul_no_paren, hp]
theorem params_no_paren {st : Store} (hst : st.Ordered) (o : Opts) (ho : o.anchors ≠ .never) :
    (ps : List Param) → WritableParams st ps → ∀ x ∈ (textParams st o ps).map Out.text, '(' ∉ x
  | [], _ => by simp [textParams]
  | .ty t :: ps, h => by
    unfold WritableParams at h
    have h1 := ty_no_paren hst o ho t h.1
    have h2 := params_no_paren hst o ho ps h.2
    intro x hx
    simp only [textParams, textParam, List.map_cons, List.mem_cons] at hx
    rcases hx with rfl | hx
    · exact h1
    · exact h2 x hx
end

/-! ### Literals are not calls -/

theorem pDigits_head {s : Str} {x : Str × Str} (h : pDigits s = some x) : ∃ c t, s = c :: t ∧ isDigit c = true := by
  unfold pDigits at h
  cases s with
  | nil => simp at h
  | cons c t =>
    refine ⟨c, t, rfl, ?_⟩
    cases hc : isDigit c with
    | true => rfl
    | false => simp [hc] at h

theorem pMinus_cases (s : Str) : (∃ t, s = '-' :: t ∧ pMinus s = (true, t)) ∨ pMinus s = (false, s) := by
  unfold pMinus
  split
  · exact Or.inl ⟨_, rfl, rfl⟩
  · exact Or.inr rfl

/-- The characters numbers and strings begin with. -/
def valueHead (c : Char) : Bool := isDigit c || c == '-' || c == '\''

theorem pInteger_start {s : Str} {x : IntTok × Str} (h : pInteger s = some x) : ∃ c t, s = c :: t ∧ valueHead c = true := by
  unfold pInteger at h
  simp only at h
  split at h
  · cases h
  · rename_i ds r hd
    rcases pMinus_cases s with ⟨t, rfl, _⟩ | hm
    · exact ⟨_, _, rfl, rfl⟩
    · rw [hm] at hd
      obtain ⟨c, t, rfl, hc⟩ := pDigits_head hd
      exact ⟨c, t, rfl, by simp [valueHead, hc]⟩

theorem pFloat_start {s : Str} {x : Str × Str} (h : pFloat s = some x) : ∃ c t, s = c :: t ∧ valueHead c = true := by
  unfold pFloat at h
  simp only at h
  split at h
  · cases h
  · rename_i ds r hd
    rcases pMinus_cases s with ⟨t, rfl, _⟩ | hm
    · exact ⟨_, _, rfl, rfl⟩
    · rw [hm] at hd
      obtain ⟨c, t, rfl, hc⟩ := pDigits_head hd
      exact ⟨c, t, rfl, by simp [valueHead, hc]⟩

theorem pString_head {s : Str} {x : Str × Str} (h : pString s = some x) : ∃ c t, s = c :: t ∧ valueHead c = true := by
  unfold pString at h
  split at h
  · cases h
  · rename_i r hr
    exact ⟨_, _, lit_some hr, rfl⟩

/-- A value begins with a digit, a sign or a quote, or is one of three words. -/
theorem pValue_head {s r : Str} {v : SVal} (h : pValue s = some (v, r)) :
    (∃ c t, s = c :: t ∧ valueHead c = true) ∨ s = cs!"true" ++ r ∨ s = cs!"false" ++ r ∨ s = cs!"null" ++ r := by
  unfold pValue at h
  rcases Option.or_eq_some_iff.1 h with h | ⟨_, h⟩
  · rcases Option.or_eq_some_iff.1 h with h | ⟨_, h⟩
    · rcases Option.or_eq_some_iff.1 h with h | ⟨_, h⟩
      · rcases Option.or_eq_some_iff.1 h with h | ⟨_, h⟩
        · obtain ⟨a, h, _⟩ := mapFst_some h
          exact Or.inl (pFloat_start h)
        · obtain ⟨a, h, _⟩ := mapFst_some h
          exact Or.inl (pInteger_start h)
      · obtain ⟨a, h, _⟩ := mapFst_some h
        unfold pBoolean at h
        split at h
        · rename_i hl
          simp only [Option.some.injEq, Prod.mk.injEq] at h
          rw [← h.2]; exact Or.inr (Or.inl (lit_some hl))
        · split at h
          · rename_i hl
            simp only [Option.some.injEq, Prod.mk.injEq] at h
            rw [← h.2]; exact Or.inr (Or.inr (Or.inl (lit_some hl)))
          · cases h
    · obtain ⟨a, h, _⟩ := mapFst_some h
      exact Or.inl (pString_head h)
  · obtain ⟨a, h, h2⟩ := Option.map_eq_some_iff.1 h
    simp only [Prod.mk.injEq] at h2
    rw [← h2.2]
    exact Or.inr (Or.inr (Or.inr (lit_some h)))

/-- The text of a literal begins with a digit, a sign or a quote, or with a letter and has no
parenthesis in it. -/
theorem lit_shape [UTab] [FTab] (hA : AsciiPrintable) {st : Store} (hst : st.Ordered) (o : Opts)
    (ho : o.anchors ≠ .never) (l : Literal) (h : Survives st l) :
    ∃ c t, (textLit st o l).text = c :: t ∧
      (valueHead c = true ∨ (isAlpha c = true ∧ '(' ∉ c :: t ∧ c ≠ 'i')) := by
  obtain ⟨value, nullable, tvar⟩ := l
  obtain ⟨h0, v, h1, h2⟩ := h
  simp only at h0 h1 h2
  subst h0 h1
  by_cases hn : ∃ t, v = .null t
  · obtain ⟨t, rfl⟩ := hn
    simp only [Spelled] at h2
    obtain ⟨hw, rfl⟩ := h2
    have := ty_no_paren hst o ho t hw
    exact ⟨'n', cs!"ull" ++ cs!":" ++ (textTy st o t).text, by simp [textLit], Or.inr ⟨by decide, by simp [this], by decide⟩⟩
  · have hn : ∀ t, v ≠ .null t := fun t e => hn ⟨t, e⟩
    obtain ⟨sv, h3, h4, h5, h6, h7⟩ := value_text hA st o nullable v hn h2
    have ht : textLit st o ⟨some v, nullable, 0⟩ =
        textValue o v ++ (if showSuffix o nullable v then textSuffix v nullable else .s []) := by
      cases v with
      | null t => exact absurd rfl (hn t)
      | _ => rfl
    have hsuf : '(' ∉ (if showSuffix o nullable v then textSuffix v nullable else .s []).text := by
      split
      · rw [textSuffix_ty st o v nullable h5]
        have := ty_no_paren hst o ho _ h4
        simp [this]
      · simp
    rw [ht, Out.text_append]
    have := h3 [] (NextNot.nil _)
    rw [List.append_nil] at this
    rcases pValue_head this with ⟨c, t, h, hc⟩ | h | h | h
    · exact ⟨c, _, by rw [h]; rfl, Or.inl hc⟩
    · exact ⟨'t', _, by rw [h]; rfl, Or.inr ⟨by decide, by simp [hsuf], by decide⟩⟩
    · exact ⟨'f', _, by rw [h]; rfl, Or.inr ⟨by decide, by simp [hsuf], by decide⟩⟩
    · exact ⟨'n', _, by rw [h]; rfl, Or.inr ⟨by decide, by simp [hsuf], by decide⟩⟩

theorem dropWhile_eats {C : Char → Bool} {s r : Str} {c : Char} (h : Eats C s (c :: r)) (hc : C c = false) :
    s.dropWhile C = c :: r := by
  obtain ⟨p, rfl, hp⟩ := h
  exact (takeWhile_append_of_all hp ((nextNot_cons _ _ _).2 hc)).2

theorem pCall_none_text {e : Str → Option (SExpr × Str)} {x rest : Str} (hx : '(' ∉ x) (hr : NoCall rest) :
    pCallWith e (x ++ rest) = none := by
  cases h : pCallWith e (x ++ rest) with
  | none => rfl
  | some y =>
    exfalso
    obtain ⟨r, hr'⟩ := call_shape h
    have hd := dropWhile_eats hr' (by decide)
    by_cases hall : ∀ c ∈ x, callChar c = true
    · have h3 : (x ++ rest).dropWhile callChar = rest.dropWhile callChar := by
        clear hr' hd h hx
        induction x with
        | nil => rfl
        | cons c x ih =>
          have := hall c (by simp)
          simp only [List.cons_append, List.dropWhile_cons, this, if_true]
          exact ih (fun d hd => hall d (by simp [hd]))
      rw [h3] at hd
      have := hr '(' (by rw [hd]; rfl)
      simp at this
    · have h3 : ∃ c t, (x ++ rest).dropWhile callChar = c :: t ∧ c ∈ x := by
        clear hr' hd h hx
        induction x with
        | nil => simp at hall
        | cons c x ih =>
          by_cases hc : callChar c = true
          · simp only [List.cons_append, List.dropWhile_cons, hc, if_true]
            obtain ⟨d, t, h1, h2⟩ := ih (by
              intro h; apply hall; intro d hd
              rcases List.mem_cons.1 hd with rfl | hd
              · exact hc
              · exact h d hd)
            exact ⟨d, t, h1, by simp [h2]⟩
          · exact ⟨c, x ++ rest, by simp [hc], by simp⟩
      obtain ⟨c, t, h4, h5⟩ := h3
      rw [hd] at h4
      simp only [List.cons.injEq] at h4
      rw [← h4.1] at h5
      exact hx h5

theorem pCall_none_head {e : Str → Option (SExpr × Str)} {c : Char} {s : Str} (hc : isAlpha c = false) :
    pCallWith e (c :: s) = none := by
  simp [pCallWith, pFunSig, pIdent, hc]

theorem valueHead_not_alpha {c : Char} (h : valueHead c = true) : isAlpha c = false ∧ c ≠ '(' ∧ c ≠ 'i' ∧ c ≠ '$' ∧ c ≠ ' ' := by
  have hd : isDigit c = true → isAlpha c = false := by
    intro h
    simp only [isDigit, isAlpha, isUpper, isLower, Bool.and_eq_true, decide_eq_true_eq, Bool.or_eq_false_iff, Bool.and_eq_false_iff, decide_eq_false_iff_not, Char.le_def, UInt32.le_iff_toNat_le] at h ⊢
    have h0 : ('9' : Char).val.toNat = 57 := rfl
    have h1 : ('A' : Char).val.toNat = 65 := rfl
    have h2 : ('a' : Char).val.toNat = 97 := rfl
    omega
  refine ⟨?_, ?_, ?_, ?_, ?_⟩
  · simp only [valueHead, Bool.or_eq_true, beq_iff_eq] at h
    rcases h with (h | h) | h
    · exact hd h
    · subst h; decide
    · subst h; decide
  all_goals rintro rfl; revert h; decide

theorem lit_if_none {c : Char} {s : Str} (h : c ≠ 'i') (e : Str → Option (SExpr × Str)) : pIfThenWith e (c :: s) = none := by
  simp [pIfThenWith, lit_ne (Ne.symm h)]

theorem pCast_none {c : Char} {s : Str} (h : c ≠ '(') (e : Str → Option (SExpr × Str)) : pCastWith e (c :: s) = none := by
  simp [pCastWith, lit_ne (Ne.symm h)]

theorem pRef_none {c : Char} {s : Str} (h : c ≠ '$') : pRef (c :: s) = none := by
  simp [pRef, lit_ne (Ne.symm h)]

/-- An expression cannot begin with this character. -/
theorem pExprN_none {c : Char} {s : Str} (hc : isAlpha c = false) (h1 : c ≠ '(') (h2 : c ≠ '$')
    (h3 : valueHead c = false) (n : Nat) : pExprN n (c :: s) = none := by
  cases n with
  | zero => rfl
  | succ n =>
    have hi : c ≠ 'i' := by rintro rfl; revert hc; decide
    have hl : pLiteral (c :: s) = none := by
      cases h : pLiteral (c :: s) with
      | none => rfl
      | some x =>
        unfold pLiteral at h
        obtain ⟨⟨v, r⟩, h, _⟩ := Option.bind_eq_some_iff.1 h
        rcases pValue_head h with ⟨d, t, h, hd⟩ | h | h | h
        · simp only [List.cons.injEq] at h
          rw [h.1, hd] at h3; cases h3
        all_goals
          simp only [List.cons_append, List.cons.injEq] at h
          rw [h.1] at hc; exact absurd hc (by decide)
    rw [pExprN, lit_if_none hi, pCast_none h1, pCall_none_head hc, pRef_none h2, hl]
    rfl

/-! ### Function names -/

theorem pShortName_text {c : Char} {t r : Str} (hc : isAlpha c = true) (ht : ∀ d ∈ t, isAlnum d = true)
    (hr : NextNot isAlnum r) : pShortName (c :: (t ++ r)) = some (c :: t, r) := by
  have h := takeWhile_append_of_all ht hr
  simp [pShortName, hc, h]

theorem alnum_ne_bang {c : Char} (h : isAlnum c = true) : c ≠ '!' := by
  rintro rfl; revert h; decide

theorem pShortArg_text {x r : Str} (hx : ArgCode x) (hr : NextNot (fun c => isAlnum c || c == '!') r) :
    pShortArg (x ++ r) = some (x, r) := by
  obtain ⟨u, c, t, rfl, hc, ht⟩ := hx
  have hr1 : NextNot isAlnum r := NextNot.mono hr fun c hc => by simp [hc]
  cases u with
  | true =>
    have := pShortName_text hc ht hr1
    simp [pShortArg, lit, this, mapFst]
  | false =>
    have hs := pShortName_text hc ht hr1
    have hl : lit cs!"u!" (c :: (t ++ r)) = none := by
      cases h : lit cs!"u!" (c :: (t ++ r)) with
      | none => rfl
      | some y =>
        exfalso
        have := lit_some h
        simp only [List.cons_append, List.nil_append, List.cons.injEq] at this
        cases t with
        | nil =>
          have := hr '!' (by rw [List.nil_append] at this; rw [this.2]; rfl)
          simp at this
        | cons d t =>
          simp only [List.cons_append, List.cons.injEq] at this
          exact alnum_ne_bang (ht d (by simp)) this.2.1
    simp [pShortArg, hl, hs]

theorem ArgCodes.list {r : Str} (h : ArgCodes r) : ∃ l : List Str, l ≠ [] ∧ joinS cs!"_" l = r ∧ ∀ x ∈ l, ArgCode x := by
  induction h with
  | one p hp => exact ⟨[p], by simp, rfl, by simpa using hp⟩
  | more p r hp _ ih =>
    obtain ⟨l, h1, h2, h3⟩ := ih
    refine ⟨p :: l, by simp, ?_, ?_⟩
    · cases l with
      | nil => exact absurd rfl h1
      | cons a l => rw [joinS, h2]; simp
    · intro x hx
      rcases List.mem_cons.1 hx with rfl | hx
      · exact hp
      · exact h3 x hx

theorem pArgSig_text {x r : Str} (hx : ArgCodes x) (hr : NextNot (fun c => isIdentChar c || c == '!') r) :
    pArgSig (x ++ r) = some (x, r) := by
  obtain ⟨l, h1, rfl, h3⟩ := hx.list
  have := pSep1_join (lit cs!"_") pShortArg cs!"_" (NextNot (fun c => isAlnum c || c == '!')) r
    (l.map fun x => (x, x)) (by simp) (by simpa using h1) (fun i _ s => lit_append _ _)
    (fun s => (nextNot_cons _ _ _).2 (by decide))
    (NextNot.mono hr fun c hc => by
      simp only [Bool.or_eq_true] at hc ⊢
      rcases hc with h | h
      · left; simp [isIdentChar, h]
      · exact Or.inr h)
    (pStarN_stop _ _ _ (lit_none_of_next (c := '_') hr (by decide)))
    (by
      intro i hi s hs
      obtain ⟨x, hx, rfl⟩ := List.mem_map.1 hi
      exact pShortArg_text (h3 x hx) hs)
  simp only [List.map_map] at this
  have e1 : (l.map ((·.1) ∘ fun x => (x, x))) = l := by simp [Function.comp_def]
  have e2 : (l.map ((·.2) ∘ fun x => (x, x))) = l := by simp [Function.comp_def]
  rw [e1, e2] at this
  simp [pArgSig, this, mapFst]

/-- What may stand after a function name. -/
def sigContinues (c : Char) : Bool := isIdentChar c || c == '!' || c == ':'

theorem pFunSig_text {n r : Str} (hn : FunctionName n) (hr : NextNot sigContinues r) :
    pFunSig (n ++ r) = some (n, r) := by
  obtain ⟨b, hb, hn⟩ := hn
  obtain ⟨c, t, rfl, hc, ht⟩ := (isIdentifier_iff b).1 hb
  have hri : NextNot isIdentChar r := NextNot.mono hr fun c hc => by simp [sigContinues, hc]
  have hrb : NextNot (fun c => isIdentChar c || c == '!') r := NextNot.mono hr fun c hc => by
    simp only [Bool.or_eq_true] at hc; rcases hc with h | h <;> simp [sigContinues, h]
  rcases hn with rfl | rfl | ⟨x, hx, rfl⟩
  · unfold pFunSig
    rw [pIdent_append t r c hc ht hri]
    simp only
    rw [lit_none_of_next (c := ':') hr (by decide)]
  · unfold pFunSig
    have := pIdent_append t (':' :: r) c hc ht ((nextNot_cons _ _ _).2 (by decide))
    have e : c :: t ++ [':'] ++ r = c :: t ++ ':' :: r := by simp
    rw [e, this]
    have ha : pArgSig r = none := by
      have h1 : pShortName r = none := by
        cases r with
        | nil => rfl
        | cons d r =>
          have := (nextNot_cons _ _ _).1 hri
          have : isAlpha d = false := by
            cases h : isAlpha d with
            | false => rfl
            | true => rw [isAlpha_ident h] at this; cases this
          simp [pShortName, this]
      have h2 : pShortArg r = none := by
        unfold pShortArg
        rw [lit_none_of_next (c := 'u') hri (by decide), h1]
        rfl
      simp [pArgSig, pSep1, h2, mapFst]
    simp [lit, ha]
  · unfold pFunSig
    have := pIdent_append t (':' :: (x ++ r)) c hc ht ((nextNot_cons _ _ _).2 (by decide))
    have e : c :: t ++ ':' :: x ++ r = c :: t ++ ':' :: (x ++ r) := by simp
    rw [e, this]
    have ha := pArgSig_text hx hrb
    simp [lit, ha]

theorem ident_no_colon {b : Str} (h : isIdentifier b = true) : ':' ∉ b := by
  obtain ⟨c, t, rfl, hc, ht⟩ := (isIdentifier_iff b).1 h
  intro h
  have : isIdentChar ':' = true := by
    rcases List.mem_cons.1 h with h | h
    · rw [h]; exact isAlpha_ident hc
    · exact ht _ h
  revert this; decide

theorem FunctionName.base {n : Str} (h : FunctionName n) : FunctionName (baseName n) := by
  obtain ⟨b, hb, h⟩ := h
  have hc := ident_no_colon hb
  refine ⟨b, hb, Or.inl ?_⟩
  rcases h with rfl | rfl | ⟨r, _, rfl⟩
  · exact baseName_of_not_mem hc
  · exact baseName_append hc
  · exact baseName_append hc

theorem ArgCode.no_paren {x : Str} (h : ArgCode x) : '(' ∉ x := by
  obtain ⟨u, c, t, rfl, hc, ht⟩ := h
  have h1 : c ≠ '(' := ident_ne_paren (isAlpha_ident hc)
  have h2 : '(' ∉ t := fun h => absurd (ht _ h) (by decide)
  cases u <;> simp [h1.symm, h2]

theorem ArgCodes.no_paren {x : Str} (h : ArgCodes x) : '(' ∉ x := by
  induction h with
  | one p hp => exact hp.no_paren
  | more p r hp _ ih => simp [hp.no_paren, ih]

theorem FunctionName.no_paren {n : Str} (h : FunctionName n) : '(' ∉ n := by
  obtain ⟨b, hb, h⟩ := h
  have hc := ident_no_paren hb
  rcases h with rfl | rfl | ⟨r, hr, rfl⟩
  · exact hc
  · simp [hc]
  · simp [hc, hr.no_paren]

theorem FunctionName.head {n : Str} (h : FunctionName n) : ∃ c t, n = c :: t ∧ isAlpha c = true := by
  obtain ⟨b, hb, h⟩ := h
  obtain ⟨c, t, rfl, hc, ht⟩ := (isIdentifier_iff b).1 hb
  rcases h with rfl | rfl | ⟨r, hr, rfl⟩
  · exact ⟨c, t, rfl, hc⟩
  · exact ⟨c, _, rfl, hc⟩
  · exact ⟨c, _, rfl, hc⟩

/-- The name and anchor text of a declared function. -/
theorem textAnchor_function {st : Store} (hst : st.Ordered) (o : Opts) (ho : o.anchors ≠ .never) (f : Nat)
    (name : Str) (hd : Declared st .function f name) (hn : FunctionName name) :
    ∃ (n : Str) (a : Option Nat), textAnchor st o .function f = .s (n ++ showAnchor a) ∧ (a = none ∨ a = some f) ∧
      FunctionName n ∧ st.getAndValidateAnchor .function a n = .ok f := by
  obtain ⟨na, h1, h2, h3, h4⟩ := Store.printed_function hst o.anchors ho f name hd
  refine ⟨na.shownName o.anchors, na.shownAnchor o.anchors, ?_, ?_, ?_, h4⟩
  · unfold textAnchor; rw [h1]
  · unfold NamedAnchor.shownAnchor
    rw [h3]
    cases o.anchors with
    | never => exact Or.inl rfl
    | always => exact Or.inr rfl
    | required =>
      dsimp only
      split
      · exact Or.inr rfl
      · exact Or.inl rfl
  · unfold NamedAnchor.shownName
    rw [h2]
    have : ∀ b : Bool, FunctionName (if b = true then name else baseName name) := by
      intro b
      cases b
      · exact hn.base
      · exact hn
    exact this _

/-! ### Follow conditions -/

theorem noCall_stop {c : Char} {s : Str} (h : callChar c = false) (h2 : c ≠ '(') : NoCall (c :: s) := by
  unfold NoCall
  rw [List.dropWhile_cons, h]
  exact (nextNot_cons _ _ _).2 (by simpa using h2)

theorem noCall_skip {c : Char} {s : Str} (h : callChar c = true) : NoCall (c :: s) ↔ NoCall s := by
  unfold NoCall
  rw [List.dropWhile_cons, h]
  rfl

theorem NoCall.nil : NoCall [] := NextNot.nil _

theorem ExprFollow.nil : ExprFollow [] := ⟨NextNot.nil _, NoCall.nil⟩

theorem exprFollow_stop {c : Char} {s : Str} (h : callChar c = false) (h2 : c ≠ '(') (h3 : litContinues c = false) :
    ExprFollow (c :: s) := ⟨(nextNot_cons _ _ _).2 h3, noCall_stop h h2⟩

theorem exprFollow_close (s : Str) : ExprFollow (')' :: s) := exprFollow_stop (by decide) (by decide) (by decide)
theorem exprFollow_comma (s : Str) : ExprFollow (',' :: s) := exprFollow_stop (by decide) (by decide) (by decide)
theorem exprFollow_bracket (s : Str) : ExprFollow (']' :: s) := exprFollow_stop (by decide) (by decide) (by decide)

theorem exprFollow_space {s : Str} (h : NoCall s) : ExprFollow (' ' :: s) :=
  ⟨(nextNot_cons _ _ _).2 (by decide), (noCall_skip (by decide)).2 h⟩

theorem exprFollow_arrow (s : Str) : ExprFollow (cs!" -> " ++ s) :=
  exprFollow_space ((noCall_skip (by decide)).2 (noCall_stop (by decide) (by decide)))

end Verif
