import Verif.Proofs.Exprs
/-!
# Expressions are read back from their text
-/

namespace Verif
open StoreSpec TextSpec

set_option autoImplicit false

/-- The text starts with a character other than a space. -/
def Starts (x : Str) : Prop := ∃ c t, x = c :: t ∧ c ≠ ' '

theorem Starts.skip {x : Str} (h : Starts x) (r : Str) : skipSp (x ++ r) = x ++ r := by
  obtain ⟨c, t, rfl, h⟩ := h
  exact skipSp_cons _ _ h

theorem alpha_ne_space {c : Char} (h : isAlpha c = true) : c ≠ ' ' := by
  rintro rfl; revert h; decide

theorem writable_skip {st : Store} (hst : st.Ordered) (o : Opts) (ho : o.anchors ≠ .never) (t : Ty)
    (h : Writable st t) : Starts (textTy st o t).text := by
  obtain ⟨c, tl, h, hc⟩ := writable_head hst o ho t h
  exact ⟨c, tl, h, alpha_ne_space hc⟩

/-- Arguments between parentheses. -/
theorem pArgsWith_text {e : Str → Option (SExpr × Str)} (items : List (Str × SExpr)) (rest : Str)
    (hn : ∀ s, e (')' :: s) = none)
    (hs : ∀ i ∈ items, Starts i.1)
    (he : ∀ i ∈ items, ∀ r, ExprFollow r → e (i.1 ++ r) = some (i.2, r)) :
    pArgsWith e ('(' :: (joinS cs!", " (items.map (·.1)) ++ ')' :: rest)) = some (items.map (·.2), rest) := by
  unfold pArgsWith
  by_cases hi : items = []
  · subst hi
    simp [lit, joinS, pSep, pSep1, hn]
  · have := pSep1_join spCommaSp e cs!", " ExprFollow (')' :: rest) items (by simp) hi
      (fun i hi r => spCommaSp_join _ (by
        obtain ⟨c, t, h, hc⟩ := hs i hi
        rw [h]; exact (nextNot_cons _ _ _).2 (by simpa using hc)))
      (fun r => exprFollow_comma _) (exprFollow_close _)
      (pStarN_stop _ _ _ (by simp [spCommaSp, skipSp_cons, lit])) he
    simp [lit, pSep, this]

/-- The rule for calls reads a printed call. -/
theorem pCall_text {e : Str → Option (SExpr × Str)} {n : Str} {a : Option Nat} (items : List (Str × SExpr))
    {tt : Str} {sty : STy} (rest : Str) (hn : FunctionName n)
    (hx : ∀ s, e (')' :: s) = none)
    (hs : ∀ i ∈ items, Starts i.1)
    (he : ∀ i ∈ items, ∀ r, ExprFollow r → e (i.1 ++ r) = some (i.2, r))
    (ht : Starts tt) (hty : pType (tt ++ rest) = some (sty, rest)) :
    pCallWith e (n ++ (showAnchor a ++ '(' :: (joinS cs!", " (items.map (·.1)) ++ ')' :: ':' :: (tt ++ rest)))) =
      some (.call n (a.map fun a => ⟨false, a⟩) none (items.map (·.2)) sty, rest) := by
  unfold pCallWith
  have h1 : NextNot sigContinues (showAnchor a ++ '(' :: (joinS cs!", " (items.map (·.1)) ++ ')' :: ':' :: (tt ++ rest))) := by
    cases a with
    | none => exact (nextNot_cons _ _ _).2 (by decide)
    | some a => exact (nextNot_cons _ _ _).2 (by decide)
  have h2 : skipSp (showAnchor a ++ '(' :: (joinS cs!", " (items.map (·.1)) ++ ')' :: ':' :: (tt ++ rest))) =
      showAnchor a ++ '(' :: (joinS cs!", " (items.map (·.1)) ++ ')' :: ':' :: (tt ++ rest)) := by
    cases a with
    | none => exact skipSp_cons _ _ (by decide)
    | some a => exact skipSp_cons _ _ (by decide)
  rw [pFunSig_text hn h1]
  have h3 := pAnchor_text a ('(' :: (joinS cs!", " (items.map (·.1)) ++ ')' :: ':' :: (tt ++ rest)))
    ((nextNot_cons _ _ _).2 (by decide)) ((nextNot_cons _ _ _).2 (by decide))
  have h4 := pUrn_none ('(' :: (joinS cs!", " (items.map (·.1)) ++ ')' :: ':' :: (tt ++ rest)))
    ((nextNot_cons _ _ _).2 (by decide))
  have h5 : ∀ s, skipSp ('(' :: s) = '(' :: s := fun s => skipSp_cons _ _ (by decide)
  have h6 := pArgsWith_text items (':' :: (tt ++ rest)) hx hs he
  simp only [Option.bind_eq_bind, Option.bind_some, h2, h3, h4, h5, h6]
  simp [lit, ht.skip, hty]

theorem append_paren_inj {x y r s : Str} (hx : '(' ∉ x) (hy : '(' ∉ y) (h : x ++ '(' :: r = y ++ '(' :: s) : r = s := by
  induction x generalizing y with
  | nil =>
    cases y with
    | nil => simpa using h
    | cons c y => simp only [List.nil_append, List.cons_append, List.cons.injEq] at h; exact absurd (by simp [← h.1]) hy
  | cons d x ih =>
    cases y with
    | nil => simp only [List.nil_append, List.cons_append, List.cons.injEq] at h; exact absurd (by simp [h.1]) hx
    | cons c y =>
      simp only [List.cons_append, List.cons.injEq] at h
      exact ih (fun h => hx (by simp [h])) (fun h => hy (by simp [h])) h.2

/-- A call of a function named `if_then` is not taken for a conditional. -/
theorem pIfThen_none_call {e : Str → Option (SExpr × Str)} {n : Str} {a : Option Nat} (items : List (Str × SExpr))
    (rest : Str) (hn : FunctionName n)
    (hx : ∀ s, e (')' :: s) = none)
    (hs : ∀ i ∈ items, Starts i.1)
    (he : ∀ i ∈ items, ∀ r, ExprFollow r → e (i.1 ++ r) = some (i.2, r)) :
    pIfThenWith e (n ++ (showAnchor a ++ '(' :: (joinS cs!", " (items.map (·.1)) ++ ')' :: rest))) = none := by
  unfold pIfThenWith
  cases hl : lit cs!"if_then(" (n ++ (showAnchor a ++ '(' :: (joinS cs!", " (items.map (·.1)) ++ ')' :: rest))) with
  | none => rfl
  | some r =>
    have h1 := lit_some hl
    have h2 : r = joinS cs!", " (items.map (·.1)) ++ ')' :: rest := by
      have : (n ++ showAnchor a) ++ '(' :: (joinS cs!", " (items.map (·.1)) ++ ')' :: rest) = cs!"if_then" ++ '(' :: r := by
        simpa using h1
      exact (append_paren_inj (by simp [hn.no_paren, showAnchor_no_paren]) (by decide) this).symm
    subst h2
    have : pClauseComma e (skipSp (joinS cs!", " (items.map (·.1)) ++ ')' :: rest)) = none := by
      cases items with
      | nil =>
        have : skipSp (')' :: rest) = ')' :: rest := skipSp_cons _ _ (by decide)
        simp [joinS, pClauseComma, pClauseWith, this, hx]
      | cons i items =>
        rw [List.map_cons, joinS_cons, List.append_assoc, (hs i (by simp)).skip]
        have hi := he i (by simp)
        cases items with
        | nil =>
          have := hi (')' :: rest) (exprFollow_close _)
          simp [pClauseComma, pClauseWith, this, skipSp_cons, lit]
        | cons j items =>
          have h := hi (cs!", " ++ (j.1 ++ ((items.map (·.1)).flatMap (fun b => cs!", " ++ b) ++ ')' :: rest))) (exprFollow_comma _)
          simp only [List.map_cons, List.flatMap_cons, List.append_assoc]
          simp [pClauseComma, pClauseWith] at h ⊢
          simp [h, skipSp_cons]
    simp [this]

/-- A clause of a conditional with the comma after it. -/
theorem pClauseComma_text {e : Str → Option (SExpr × Str)} {c r : Str × SExpr} {tail : Str}
    (hc : ∀ r, ExprFollow r → e (c.1 ++ r) = some (c.2, r))
    (hr : ∀ t, ExprFollow t → e (r.1 ++ t) = some (r.2, t))
    (hs : Starts r.1) (ht : NextNot (· == ' ') tail) :
    pClauseComma e (c.1 ++ (cs!" -> " ++ (r.1 ++ (cs!", " ++ tail)))) = some ((c.2, r.2), tail) := by
  unfold pClauseComma pClauseWith
  have h1 := hc (cs!" -> " ++ (r.1 ++ (cs!", " ++ tail))) (exprFollow_arrow _)
  have h2 := hr (cs!", " ++ tail) (exprFollow_comma _)
  have h3 := hs.skip (cs!", " ++ tail)
  have h4 := skipSp_of_not tail ht
  simp only [List.cons_append, List.nil_append] at h1 h2 h3 ⊢
  simp [h1, skipSp_cons, h3, h2, h4]

/-- Text of the clauses. -/
def clausesText (l : List ((Str × SExpr) × (Str × SExpr))) : Str :=
  l.flatMap fun i => i.1.1 ++ (cs!" -> " ++ (i.2.1 ++ cs!", "))

theorem pMany_clauses {e : Str → Option (SExpr × Str)} (l : List ((Str × SExpr) × (Str × SExpr))) (tail : Str)
    (he : ∀ i ∈ l, ∀ r, ExprFollow r → e (i.1.1 ++ r) = some (i.1.2, r) ∧ e (i.2.1 ++ r) = some (i.2.2, r))
    (hs : ∀ i ∈ l, Starts i.1.1 ∧ Starts i.2.1)
    (hx : e tail = none) (ht : NextNot (· == ' ') tail) :
    ∀ n, l.length ≤ n → pManyN (pClauseComma e) n (clausesText l ++ tail) = (l.map fun i => (i.1.2, i.2.2), tail) := by
  induction l with
  | nil =>
    intro n _
    cases n with
    | zero => rfl
    | succ n => simp [clausesText, pManyN, pClauseComma, pClauseWith, hx]
  | cons i l ih =>
    intro n hn
    obtain ⟨n, rfl⟩ : ∃ m, n = m + 1 := ⟨n - 1, by simp at hn; omega⟩
    have hn2 : NextNot (· == ' ') (clausesText l ++ tail) := by
      cases l with
      | nil => simpa [clausesText] using ht
      | cons j l =>
        obtain ⟨c, t, h, hc⟩ := (hs j (by simp)).1
        simp only [clausesText, List.flatMap_cons, h, List.cons_append]
        exact (nextNot_cons _ _ _).2 (by simpa using hc)
    have h1 := pClauseComma_text (e := e) (c := i.1) (r := i.2) (tail := clausesText l ++ tail)
      (fun r hr => (he i (by simp) r hr).1) (fun r hr => (he i (by simp) r hr).2) (hs i (by simp)).2 hn2
    have h2 := ih (fun j hj => he j (by simp [hj])) (fun j hj => hs j (by simp [hj])) n (by simp at hn; omega)
    have h3 : clausesText (i :: l) ++ tail = i.1.1 ++ (cs!" -> " ++ (i.2.1 ++ (cs!", " ++ (clausesText l ++ tail)))) := by
      simp [clausesText]
    rw [h3, pManyN, h1]
    simp [h2]

theorem clausesText_length (l : List ((Str × SExpr) × (Str × SExpr))) : l.length ≤ (clausesText l).length := by
  induction l with
  | nil => simp
  | cons i l ih =>
    simp only [clausesText, List.flatMap_cons, List.length_append, List.length_cons] at ih ⊢
    omega

/-- The rule for conditionals reads a printed conditional. -/
theorem pIfThen_text {e : Str → Option (SExpr × Str)} (l : List ((Str × SExpr) × (Str × SExpr))) {x : Str × SExpr}
    (rest : Str) (hl : l ≠ [])
    (he : ∀ i ∈ l, ∀ r, ExprFollow r → e (i.1.1 ++ r) = some (i.1.2, r) ∧ e (i.2.1 ++ r) = some (i.2.2, r))
    (hs : ∀ i ∈ l, Starts i.1.1 ∧ Starts i.2.1)
    (hxs : Starts x.1) (hx : ∀ r, ExprFollow r → e (x.1 ++ r) = some (x.2, r))
    (hu : ∀ s, e ('_' :: s) = none) :
    pIfThenWith e (cs!"if_then(" ++ (clausesText l ++ (cs!"_ -> " ++ (x.1 ++ ')' :: rest)))) =
      some (.ifThen (l.map fun i => (i.1.2, i.2.2)) x.2, rest) := by
  cases l with
  | nil => exact absurd rfl hl
  | cons i l =>
    unfold pIfThenWith
    rw [lit_append]
    have hn2 : NextNot (· == ' ') (clausesText l ++ (cs!"_ -> " ++ (x.1 ++ ')' :: rest))) := by
      cases l with
      | nil => exact (nextNot_cons _ _ _).2 (by decide)
      | cons j l =>
        obtain ⟨c, t, h, hc⟩ := (hs j (by simp)).1
        simp only [clausesText, List.flatMap_cons, h, List.cons_append]
        exact (nextNot_cons _ _ _).2 (by simpa using hc)
    have h1 := pClauseComma_text (e := e) (c := i.1) (r := i.2) (tail := clausesText l ++ (cs!"_ -> " ++ (x.1 ++ ')' :: rest)))
      (fun r hr => (he i (by simp) r hr).1) (fun r hr => (he i (by simp) r hr).2) (hs i (by simp)).2 hn2
    have h2 := pMany_clauses (e := e) l (cs!"_ -> " ++ (x.1 ++ ')' :: rest)) (fun j hj => he j (by simp [hj]))
      (fun j hj => hs j (by simp [hj])) (hu _) ((nextNot_cons _ _ _).2 (by decide))
      (clausesText l ++ (cs!"_ -> " ++ (x.1 ++ ')' :: rest))).length
      (by have := clausesText_length l; simp only [List.length_append]; omega)
    have h3 : clausesText (i :: l) ++ (cs!"_ -> " ++ (x.1 ++ ')' :: rest)) =
        i.1.1 ++ (cs!" -> " ++ (i.2.1 ++ (cs!", " ++ (clausesText l ++ (cs!"_ -> " ++ (x.1 ++ ')' :: rest)))))) := by
      simp [clausesText]
    have h4 := (hs i (by simp)).1.skip (cs!" -> " ++ (i.2.1 ++ (cs!", " ++ (clausesText l ++ (cs!"_ -> " ++ (x.1 ++ ')' :: rest))))))
    have h5 := hx (')' :: rest) (exprFollow_close _)
    have h6 := hxs.skip (')' :: rest)
    rw [h3, Option.bind_eq_bind, Option.bind_some, h4, h1]
    simp only [Option.bind_eq_bind, Option.bind_some, h2]
    simp [skipSp_cons, lit, h6, h5]

/-- The parse tree of a failure behaviour. -/
def SBehavior.of (fb : Int) : SBehavior := if fb = 1 then .null else if fb = 2 then .throw else .unspecified

theorem pBehavior_text {fb : Int} (h : fb = 0 ∨ fb = 1 ∨ fb = 2) {t : Str}
    (ht : ∃ c tl, t = c :: tl ∧ isAlpha c = true) (rest : Str) :
    (SBehavior.of fb).num = fb ∧ pBehavior (skipSp ((textBehavior fb).text ++ (t ++ rest))) = (SBehavior.of fb, t ++ rest) := by
  obtain ⟨c, tl, rfl, hc⟩ := ht
  rcases h with rfl | rfl | rfl
  · refine ⟨rfl, ?_⟩
    have : c ≠ '?' ∧ c ≠ '!' := ⟨by rintro rfl; revert hc; decide, by rintro rfl; revert hc; decide⟩
    simp [textBehavior, skipSp_cons _ _ (alpha_ne_space hc)]
    unfold pBehavior
    split
    · rename_i h; simp at h; exact absurd h.1 this.1
    · rename_i h; simp at h; exact absurd h.1 this.2
    · rfl
  · exact ⟨rfl, by simp [textBehavior, skipSp_cons, pBehavior, SBehavior.of]⟩
  · exact ⟨rfl, by simp [textBehavior, skipSp_cons, pBehavior, SBehavior.of]⟩

theorem pCast_text {e : Str → Option (SExpr × Str)} {x : Str × SExpr} {fb : Int} {tt : Str} {sty : STy} (rest : Str)
    (hfb : fb = 0 ∨ fb = 1 ∨ fb = 2) (hxs : Starts x.1)
    (hx : ∀ r, ExprFollow r → e (x.1 ++ r) = some (x.2, r))
    (ht : ∃ c tl, tt = c :: tl ∧ isAlpha c = true) (hty : pType (tt ++ rest) = some (sty, rest)) :
    pCastWith e ('(' :: (x.1 ++ (cs!")::" ++ ((textBehavior fb).text ++ (tt ++ rest))))) = some (.cast x.2 (.of fb) sty, rest) := by
  unfold pCastWith
  have h1 := hx (cs!")::" ++ ((textBehavior fb).text ++ (tt ++ rest))) (exprFollow_close _)
  have h2 := hxs.skip (cs!")::" ++ ((textBehavior fb).text ++ (tt ++ rest)))
  have h3 := (pBehavior_text hfb ht rest).2
  have hst : Starts tt := by
    obtain ⟨c, tl, h, hc⟩ := ht
    exact ⟨c, tl, h, alpha_ne_space hc⟩
  have h4 := hst.skip rest
  simp only [List.cons_append, List.nil_append] at h1 h2 ⊢
  simp [lit, h2, h1, skipSp_cons, h3, h4, hty]

theorem behavior_errs {fb : Int} (h : fb = 0 ∨ fb = 1 ∨ fb = 2) : (textBehavior fb).errs = [] := by
  rcases h with rfl | rfl | rfl <;> rfl

/-- The text of a call of a declared function. -/
theorem call_text [UTab] [FTab] {st : Store} (o : Opts) {f : Nat} {args : List Arg} {t : Ty} {n : Str} {a : Option Nat}
    (h : textAnchor st o .function f = .s (n ++ showAnchor a)) :
    (textExpr st o (.call f args [] (some t))).text =
      n ++ (showAnchor a ++ '(' :: (joinS cs!", " ((textArgs st o args).map Out.text) ++ ')' :: ':' :: (textTy st o t).text)) := by
  simp [textExpr, textInvocation, textOutType, h, Out.text_sep, joinS]

theorem expr_starts [UTab] [FTab] (hA : AsciiPrintable) {st : Store} (hst : st.Ordered) (o : Opts)
    (ho : o.anchors ≠ .never) (e : Expr) (h : Faithful st e) : Starts (textExpr st o e).text := by
  cases e with
  | missing => exact (by simp [Faithful] at h)
  | other => exact (by simp [Faithful] at h)
  | literal l =>
    simp only [Faithful] at h
    obtain ⟨c, t, h1, h2⟩ := lit_shape hA hst o ho l h
    refine ⟨c, t, by rw [textExpr, h1], ?_⟩
    rcases h2 with h2 | h2
    · exact (valueHead_not_alpha h2).2.2.2.2
    · exact alpha_ne_space h2.1
  | selection f =>
    cases f with
    | field i child => exact ⟨'$', decInt i, by simp [textExpr, textFieldRef, textRef], by decide⟩
    | badReference => exact (by simp [Faithful] at h)
    | badSegment => exact (by simp [Faithful] at h)
  | call f args opts out =>
    cases out with
    | none => exact (by simp [Faithful] at h)
    | some t =>
      simp only [Faithful] at h
      obtain ⟨_, rfl, ⟨name, hd, hn⟩, _, _⟩ := h
      obtain ⟨n, a, h1, h2, h3, h4⟩ := textAnchor_function hst o ho f name hd hn
      obtain ⟨c, tl, rfl, hc⟩ := h3.head
      rw [call_text o h1]
      exact ⟨c, _, rfl, alpha_ne_space hc⟩
  | cast e t fb => exact ⟨'(', _, by simp [textExpr]; rfl, by decide⟩
  | ifThen ifs els => exact ⟨'i', _, by simp [textExpr]; rfl, by decide⟩

theorem args_length {e : Nat} {l : List Str} (h : (joinS cs!", " l).length < e) : ∀ x ∈ l, x.length < e := by
  intro x hx
  have := length_le_joinS cs!", " l x hx
  omega

mutual
/-- A faithful expression is read back from its text, whatever follows. -/
theorem rt_expr [UTab] [FTab] (hA : AsciiPrintable) {st : Store} (hst : st.Ordered) (o : Opts)
    (ho : o.anchors ≠ .never) (hl : o.litTypes ≠ .never) :
    (e : Expr) → Faithful st e → ∃ s, convExpr st s = .ok e ∧
      ∀ (fuel : Nat) (rest : Str), (textExpr st o e).text.length < fuel → ExprFollow rest →
        pExprN fuel ((textExpr st o e).text ++ rest) = some (s, rest)
  | .literal l, h => by
    unfold Faithful at h
    obtain ⟨s, h1, h2⟩ := rt_lit hA hst o ho hl l h
    refine ⟨.lit s, by simp [convExpr, h1], ?_⟩
    intro fuel rest hf hr
    obtain ⟨fuel, rfl⟩ : ∃ f, fuel = f + 1 := ⟨fuel - 1, by omega⟩
    obtain ⟨c, t, h3, h4⟩ := lit_shape hA hst o ho l h
    have hp := h2 rest hr.1
    have hne : c ≠ 'i' ∧ c ≠ '(' ∧ c ≠ '$' := by
      rcases h4 with h4 | h4
      · have := valueHead_not_alpha h4; exact ⟨this.2.2.1, this.2.1, this.2.2.2.1⟩
      · exact ⟨h4.2.2, ident_ne_paren (isAlpha_ident h4.1), by rintro rfl; exact absurd h4.1 (by decide)⟩
    have hcall : pCallWith (pExprN fuel) (c :: t ++ rest) = none := by
      rcases h4 with h4 | h4
      · exact pCall_none_head (valueHead_not_alpha h4).1
      · exact pCall_none_text h4.2.1 hr.2
    rw [textExpr, pExprN, hp, h3, hcall]
    rw [List.cons_append, lit_if_none hne.1, pCast_none hne.2.1, pRef_none hne.2.2]
    rfl
  | .selection (.field i none), h => by
    unfold Faithful at h
    refine ⟨.ref (.ofInt i), by simp [convExpr, convIndex, ofInt_toI32 h], ?_⟩
    intro fuel rest hf hr
    obtain ⟨fuel, rfl⟩ : ∃ f, fuel = f + 1 := ⟨fuel - 1, by omega⟩
    have hd : NextNot isDigit rest := NextNot.mono hr.1 fun c hc => by
      simp [litContinues, typeContinues, isDigit_ident hc]
    have h1 : (textExpr st o (.selection (.field i none))).text ++ rest = '$' :: (decInt i ++ rest) := by
      simp [textExpr, textFieldRef, textRef]
    have hp : pRef ('$' :: (decInt i ++ rest)) = some (.ofInt i, rest) := by
      simp [pRef, lit, pInteger_decInt i rest hd]
    rw [h1, pExprN, lit_if_none (by decide), pCast_none (by decide), pCall_none_head (by decide), hp]
    rfl
  | .call f args opts (some t), h => by
    unfold Faithful at h
    obtain ⟨hf32, rfl, ⟨name, hd, hn⟩, hargs, ht⟩ := h
    obtain ⟨n, a, h1, h2, h3, h4⟩ := textAnchor_function hst o ho f name hd hn
    obtain ⟨sty, hty1, hty2⟩ := pType_text hst o ho t ht
    obtain ⟨items, hi1, hi2, hi3, hi4⟩ := rt_args hA hst o ho hl args hargs
    refine ⟨.call n (a.map fun a => ⟨false, a⟩) none (items.map (·.2)) sty, ?_, ?_⟩
    · have hu := unwrapU32_anchor h2 hf32
      simp [convExpr, hu, unwrapU32_none, hi3, hty1, h4, ofLookup]
    · intro fuel rest hf hr
      obtain ⟨fuel, rfl⟩ : ∃ f, fuel = f + 1 := ⟨fuel - 1, by omega⟩
      have htext := call_text o (args := args) (t := t) h1
      have hlen : ∀ x ∈ (textArgs st o args).map Out.text, x.length < fuel := by
        apply args_length
        rw [htext] at hf
        simp only [List.length_append, List.length_cons] at hf
        omega
      have hpar : ∀ s, pExprN fuel (')' :: s) = none := fun s =>
        pExprN_none (by decide) (by decide) (by decide) (by decide) fuel
      have hitems := hi4 fuel hlen
      have hcall := pCall_text (a := a) items rest h3 hpar hi2 hitems (writable_skip hst o ho t ht) (hty2 rest (LitFollow.ty hr.1))
      have hif := pIfThen_none_call (a := a) items (':' :: ((textTy st o t).text ++ rest)) h3 hpar hi2 hitems
      rw [hi1] at hcall hif
      obtain ⟨c, tl, rfl, hc⟩ := h3.head
      rw [htext]
      simp only [List.append_assoc, List.cons_append] at hcall hif ⊢
      rw [pExprN, hif, pCast_none (ident_ne_paren (isAlpha_ident hc)), hcall]
      rfl
  | .cast (some e) (some t) fb, h => by
    unfold Faithful at h
    obtain ⟨hfb, he, ht⟩ := h
    obtain ⟨s, h1, h2⟩ := rt_expr hA hst o ho hl e he
    obtain ⟨sty, hty1, hty2⟩ := pType_text hst o ho t ht
    have hnum := (pBehavior_text hfb (writable_head hst o ho t ht) []).1
    refine ⟨.cast s (.of fb) sty, by simp [convExpr, h1, hty1, hnum], ?_⟩
    intro fuel rest hf hr
    obtain ⟨fuel, rfl⟩ : ∃ f, fuel = f + 1 := ⟨fuel - 1, by omega⟩
    have htext : (textExpr st o (.cast (some e) (some t) fb)).text =
        '(' :: ((textExpr st o e).text ++ (cs!")::" ++ ((textBehavior fb).text ++ (textTy st o t).text))) := by
      simp [textExpr, textExprReq, textTyReq]
    have hlen : (textExpr st o e).text.length < fuel := by
      rw [htext] at hf
      simp only [List.length_append, List.length_cons] at hf
      omega
    have hcast := pCast_text (e := pExprN fuel) (x := ((textExpr st o e).text, s)) rest hfb (expr_starts hA hst o ho e he)
      (fun r hr => h2 fuel r hlen hr) (writable_head hst o ho t ht) (hty2 rest (LitFollow.ty hr.1))
    rw [htext]
    simp only [List.append_assoc, List.cons_append] at hcast ⊢
    rw [pExprN, lit_if_none (by decide), hcast]
    rfl
  | .ifThen ifs (some e), h => by
    unfold Faithful at h
    obtain ⟨hne, hc, he⟩ := h
    obtain ⟨s, h1, h2⟩ := rt_expr hA hst o ho hl e he
    obtain ⟨l, hl1, hl2, hl3, hl4, hl5⟩ := rt_clauses hA hst o ho hl ifs hc
    refine ⟨.ifThen (l.map fun i => (i.1.2, i.2.2)) s, by simp [convExpr, h1, hl3], ?_⟩
    intro fuel rest hf hr
    obtain ⟨fuel, rfl⟩ : ∃ f, fuel = f + 1 := ⟨fuel - 1, by omega⟩
    have htext : (textExpr st o (.ifThen ifs (some e))).text =
        cs!"if_then(" ++ (clausesText l ++ (cs!"_ -> " ++ ((textExpr st o e).text ++ [')']))) := by
      simp [textExpr, textExprReq, hl1]
    rw [htext] at hf
    simp only [List.length_append, List.length_cons] at hf
    have hif := pIfThen_text (e := pExprN fuel) l (x := ((textExpr st o e).text, s)) rest (by
        intro h; rw [h] at hl4; exact hne (List.length_eq_zero_iff.1 hl4.symm))
      (hl5 fuel (by omega)) hl2 (expr_starts hA hst o ho e he)
      (fun r hr => h2 fuel r (by omega) hr)
      (fun s => pExprN_none (by decide) (by decide) (by decide) (by decide) fuel)
    rw [htext]
    simp only [List.append_assoc, List.cons_append, List.nil_append] at hif ⊢
    rw [pExprN, hif]
    rfl
/-- Faithful arguments are read back from their texts. -/
theorem rt_args [UTab] [FTab] (hA : AsciiPrintable) {st : Store} (hst : st.Ordered) (o : Opts)
    (ho : o.anchors ≠ .never) (hl : o.litTypes ≠ .never) :
    (l : List Arg) → FaithfulArgs st l →
      ∃ items : List (Str × SExpr), items.map (·.1) = (textArgs st o l).map Out.text ∧
        (∀ i ∈ items, Starts i.1) ∧ convArgs st (items.map (·.2)) = .ok l ∧
        ∀ (fuel : Nat), (∀ x ∈ (textArgs st o l).map Out.text, x.length < fuel) →
          ∀ i ∈ items, ∀ r, ExprFollow r → pExprN fuel (i.1 ++ r) = some (i.2, r)
  | [], _ => ⟨[], rfl, by simp, rfl, by simp⟩
  | .value e :: l, h => by
    unfold FaithfulArgs at h
    obtain ⟨items, h1, h2, h3, h4⟩ := rt_args hA hst o ho hl l h.2
    obtain ⟨s, hconv, hs⟩ := rt_expr hA hst o ho hl e h.1
    refine ⟨((textExpr st o e).text, s) :: items, by simp [h1, textArgs, textArg], ?_, ?_, ?_⟩
    · intro i hi
      rcases List.mem_cons.1 hi with rfl | hi
      · exact expr_starts hA hst o ho e h.1
      · exact h2 i hi
    · simp [convArgs, hconv, h3]
    · intro fuel hlen i hi r hr
      rcases List.mem_cons.1 hi with rfl | hi
      · exact hs fuel r (hlen _ (by simp [textArgs, textArg])) hr
      · exact h4 fuel (fun x hx => hlen x (by simp only [textArgs, List.map_cons]; exact List.mem_cons_of_mem _ hx))
          i hi r hr
/-- Faithful clauses are read back from their texts. -/
theorem rt_clauses [UTab] [FTab] (hA : AsciiPrintable) {st : Store} (hst : st.Ordered) (o : Opts)
    (ho : o.anchors ≠ .never) (hl : o.litTypes ≠ .never) :
    (cs : List Clause) → FaithfulClauses st cs →
      ∃ l : List ((Str × SExpr) × (Str × SExpr)), (textClauses st o cs).text = clausesText l ∧
        (∀ i ∈ l, Starts i.1.1 ∧ Starts i.2.1) ∧
        convClauses st (l.map fun i => (i.1.2, i.2.2)) = .ok cs ∧ l.length = cs.length ∧
        ∀ (fuel : Nat), (clausesText l).length < fuel →
          ∀ i ∈ l, ∀ r, ExprFollow r → pExprN fuel (i.1.1 ++ r) = some (i.1.2, r) ∧
            pExprN fuel (i.2.1 ++ r) = some (i.2.2, r)
  | [], _ => ⟨[], by simp [textClauses, clausesText], by simp, rfl, rfl, by simp⟩
  | .mk (some c) (some t) :: l, h => by
    unfold FaithfulClauses at h
    obtain ⟨hc, ht, h⟩ := h
    obtain ⟨items, h1, h2, h3, h4, h5⟩ := rt_clauses hA hst o ho hl l h
    obtain ⟨sc, hc1, hc2⟩ := rt_expr hA hst o ho hl c hc
    obtain ⟨sr, ht1, ht2⟩ := rt_expr hA hst o ho hl t ht
    refine ⟨(((textExpr st o c).text, sc), ((textExpr st o t).text, sr)) :: items, ?_, ?_, ?_, by simp [h4], ?_⟩
    · simp [textClauses, textExprReq, clausesText, h1]
    · intro i hi
      rcases List.mem_cons.1 hi with rfl | hi
      · exact ⟨expr_starts hA hst o ho c hc, expr_starts hA hst o ho t ht⟩
      · exact h2 i hi
    · simp [convClauses, hc1, ht1, h3]
    · intro fuel hlen i hi r hr
      simp only [clausesText, List.flatMap_cons, List.length_append, List.length_cons] at hlen
      rcases List.mem_cons.1 hi with rfl | hi
      · exact ⟨hc2 fuel r (by omega) hr, ht2 fuel r (by omega) hr⟩
      · exact h5 fuel (by simp only [clausesText]; omega) i hi r hr
end

/-- The same for the rule as it is used, with fuel from the input. -/
theorem pExpr_text [UTab] [FTab] (hA : AsciiPrintable) {st : Store} (hst : st.Ordered) (o : Opts)
    (ho : o.anchors ≠ .never) (hl : o.litTypes ≠ .never) (e : Expr) (h : Faithful st e) :
    ∃ s, convExpr st s = .ok e ∧
      ∀ rest, ExprFollow rest → pExpr ((textExpr st o e).text ++ rest) = some (s, rest) := by
  obtain ⟨s, h1, h2⟩ := rt_expr hA hst o ho hl e h
  refine ⟨s, h1, fun rest hr => h2 _ rest ?_ hr⟩
  simp only [List.length_append]
  omega

end Verif
