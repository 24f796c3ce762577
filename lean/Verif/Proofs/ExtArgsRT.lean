import Verif.Proofs.ExtArgs
import Verif.Proofs.ExprsErr
import Verif.Model.RelLines
/-!
# Reading back whole argument lists
-/

namespace Verif
open StoreSpec TextSpec

set_option autoImplicit false

/-! ### Names -/

theorem pName_spelled [UTab] {s rest : Str} (h : Spellable s) (hr : NextNot isIdentChar rest) :
    pName (showName s ++ rest) = some (s, rest) := by
  rw [pName_showName s rest hr, (unescape_escape_iff s).2 h]
  split <;> rfl

theorem pName_ident [UTab] {s rest : Str} (h : isIdentifier s = true) (hr : NextNot isIdentChar rest) :
    pName (s ++ rest) = some (s, rest) := by
  have := pName_showName s rest hr
  rwa [showName, if_pos h, if_pos h] at this

theorem pName_none {c : Char} {s : Str} (h : isAlpha c = false) (h2 : c ≠ '"') : pName (c :: s) = none := by
  simp [pName, pIdent, h, pQuotedName, lit_ne (Ne.symm h2)]

/-! ### Named arguments -/

/-- Where a named argument stands, no argument can be read. -/
theorem pArg_named_none {n r : Str} (hi : isIdentifier n = true) (hc : ClearName n) : pArg (n ++ '=' :: r) = none := by
  have hv : pValue (n ++ '=' :: r) = none := by
    obtain ⟨c, t, h1, h2, _⟩ := (isIdentifier_iff n).1 hi
    refine pValue_clear hc ?_ ⟨c, t, h1, h2⟩
    intro w hw
    simp only [valueWords, List.mem_cons, List.not_mem_nil, or_false] at hw
    rcases hw with rfl | rfl | rfl <;> decide
  have hp : '(' ∉ n := ident_no_paren hi
  have hcall : ∀ e, pCallWith e (n ++ '=' :: r) = none := fun e =>
    pCall_none_text hp (noCall_stop (by decide) (by decide))
  have hif : ∀ e, pIfThenWith e (n ++ '=' :: r) = none := by
    intro e
    have : lit cs!"if_then(" (n ++ '=' :: r) = none := by
      cases h : lit cs!"if_then(" (n ++ '=' :: r) with
      | none => rfl
      | some x =>
        exfalso
        have h1 := lit_some h
        have h2 : cs!"if_then(" <+: n ++ '=' :: r := ⟨x, h1.symm⟩
        have h3 := prefix_before h2 (by decide)
        exact hp (h3.subset (by decide))
    simp [pIfThenWith, this]
  obtain ⟨c, t, rfl, h2, _⟩ := (isIdentifier_iff n).1 hi
  have hne : c ≠ '&' ∧ c ≠ '$' ∧ c ≠ '(' := by
    refine ⟨?_, ?_, ?_⟩ <;> (rintro rfl; revert h2; decide)
  have hl : pLiteral (c :: t ++ '=' :: r) = none := by simp only [pLiteral, hv]; rfl
  have hx : pExpr (c :: t ++ '=' :: r) = none := by
    rw [pExpr, pExprN, hcall, hif, hl]
    rw [List.cons_append, pCast_none hne.2.2, pRef_none hne.2.1]
    rfl
  rw [pArg, pArgN, hx, pParamLit_none hv]
  simp only [List.cons_append]
  rw [pEnumValue_none hne.1, pRef_none hne.2.1]
  simp [mapFst, pTupleWith, pTuple0, pTuple1With, pTuple2With, lit_ne (Ne.symm hne.2.2)]

/-- What may follow an argument list. -/
def ArgsEnd (s : Str) : Prop := ExprFollow s ∧ spCommaSp s = none

theorem argsEnd_bracket (s : Str) : ArgsEnd (']' :: s) :=
  ⟨exprFollow_bracket s, by simp [spCommaSp, skipSp_cons, lit]⟩

theorem argsEnd_arrow (s : Str) : ArgsEnd (cs!" => " ++ s) :=
  ⟨exprFollow_space (noCall_stop (by decide) (by decide)), by simp [spCommaSp, skipSp, lit]⟩

theorem starts_next {x : Str} (h : Starts x) (r : Str) : NextNot (· == ' ') (x ++ r) := by
  obtain ⟨c, t, rfl, hc⟩ := h
  exact (nextNot_cons _ _ _).2 (by simpa using hc)

/-- The text of a named argument and its parse tree. -/
structure NamedText [FTab] (st : Store) (x : Str) (a : Str × SArg) (p : Str × ExtValue) : Prop where
  key : a.1 = p.1
  conv : convArg st a.2 = .ok p.2
  starts : ∃ c t, x = c :: t ∧ isAlpha c = true
  read : ∀ rest, ExprFollow rest → pNamedArg (x ++ rest) = some (a, rest)
  notArg : ∀ rest, pArg (x ++ rest) = none

theorem NamedText.starts' [FTab] {st : Store} {x : Str} {a : Str × SArg} {p : Str × ExtValue}
    (h : NamedText st x a p) : Starts x := by
  obtain ⟨c, t, h1, h2⟩ := h.starts
  exact ⟨c, t, h1, by rintro rfl; revert h2; decide⟩

theorem namedText [UTab] [FTab] (hA : AsciiPrintable) {st : Store} (hst : st.Ordered) (o : Opts)
    (ho : o.anchors ≠ .never) (hl : o.litTypes ≠ .never) (p : Str × ExtValue) (h : NamedOk st o p) :
    ∃ a, NamedText st (textNamed st o p).text a p := by
  obtain ⟨hi, hc, hv⟩ := h
  obtain ⟨a, ha⟩ := argText_value hA hst o ho hl p.2 hv
  have htx : ∀ rest, (textNamed st o p).text ++ rest = p.1 ++ '=' :: ((textExtValue st o p.2).text ++ rest) := by
    intro rest; simp [textNamed]
  refine ⟨(p.1, a), rfl, ha.conv, ?_, ?_, ?_⟩
  · obtain ⟨c, t, h1, h2, _⟩ := (isIdentifier_iff p.1).1 hi
    exact ⟨c, _, by have := htx []; rw [List.append_nil] at this; rw [this, h1]; rfl, h2⟩
  · intro rest hr
    rw [htx]
    have h1 : pName (p.1 ++ '=' :: ((textExtValue st o p.2).text ++ rest)) = some (p.1, '=' :: ((textExtValue st o p.2).text ++ rest)) :=
      pName_ident hi ((nextNot_cons _ _ _).2 (by decide))
    have h2 : pArg ((textExtValue st o p.2).text ++ rest) = some (a, rest) :=
      ha.arg _ _ (by simp; omega) hr
    have h3 := ha.starts'.skip rest
    simp [pNamedArg, h1, skipSp_cons, lit, h3, h2]
  · intro rest
    rw [htx]
    exact pArg_named_none hi hc

/-- Texts and parse trees of named arguments. -/
def NamedTexts [FTab] (st : Store) : List (Str × (Str × SArg)) → List (Str × ExtValue) → Prop
  | [], [] => True
  | i :: l, p :: ps => NamedText st i.1 i.2 p ∧ NamedTexts st l ps
  | _, _ => False

theorem namedTexts [UTab] [FTab] (hA : AsciiPrintable) {st : Store} (hst : st.Ordered) (o : Opts)
    (ho : o.anchors ≠ .never) (hl : o.litTypes ≠ .never) (ps : List (Str × ExtValue))
    (h : ∀ p ∈ ps, NamedOk st o p) : ∃ items : List (Str × (Str × SArg)),
      items.map (·.1) = (ps.map (textNamed st o)).map Out.text ∧ NamedTexts st items ps := by
  induction ps with
  | nil => exact ⟨[], rfl, trivial⟩
  | cons p ps ih =>
    obtain ⟨a, ha⟩ := namedText hA hst o ho hl p (h p (by simp))
    obtain ⟨items, h1, h2⟩ := ih (fun q hq => h q (by simp [hq]))
    exact ⟨(_, a) :: items, by simp [h1], ha, h2⟩

theorem NamedTexts.mem [FTab] {st : Store} {l : List (Str × (Str × SArg))} {ps : List (Str × ExtValue)}
    (h : NamedTexts st l ps) : ∀ i ∈ l, ∃ p, NamedText st i.1 i.2 p := by
  induction l generalizing ps with
  | nil => simp
  | cons i l ih => cases ps with
    | nil => exact h.elim
    | cons p ps =>
      intro j hj
      rcases List.mem_cons.1 hj with rfl | hj
      · exact ⟨p, h.1⟩
      · exact ih h.2 j hj

theorem insertKey_new {V : Type} (l : List (Str × V)) (k : Str) (v : V) (h : k ∉ l.map (·.1)) :
    insertKey l k v = l ++ [(k, v)] := by
  induction l with
  | nil => rfl
  | cons p l ih =>
    obtain ⟨k', v'⟩ := p
    simp only [List.map_cons, List.mem_cons, not_or] at h
    simp only [insertKey, if_neg (Ne.symm h.1), ih h.2, List.cons_append]

theorem NamedTexts.conv [FTab] {st : Store} {l : List (Str × (Str × SArg))} {ps : List (Str × ExtValue)}
    (h : NamedTexts st l ps) : ∀ acc, (acc.map (·.1) ++ ps.map (·.1)).Nodup →
      convNamed st acc (l.map (·.2)) = .ok (acc ++ ps) := by
  induction l generalizing ps with
  | nil => cases ps with
    | nil => intro acc _; simp [convNamed]
    | cons => exact h.elim
  | cons i l ih => cases ps with
    | nil => exact h.elim
    | cons p ps =>
      intro acc hn
      obtain ⟨x, k, a⟩ := i
      obtain ⟨k', v⟩ := p
      have hk : k = k' := h.1.key
      have hc : convArg st a = .ok v := h.1.conv
      subst hk
      have hmem : k ∉ acc.map (·.1) := by
        intro hk
        have := (List.nodup_append.1 hn).2.2 k hk k (by simp)
        exact this rfl
      simp only [List.map_cons, convNamed, hc, Res.bind, insertKey_new acc k v hmem]
      have := ih h.2 (acc ++ [(k, v)]) (by simpa using hn)
      simpa using this

/-! ### The argument list -/

theorem textExtValues_nil_iff [UTab] [FTab] (st : Store) (o : Opts) (vs : List ExtValue) :
    textExtValues st o vs = [] ↔ vs = [] := by
  cases vs <;> simp [textExtValues]

theorem joinS_append (sp : Str) (a b : List Str) (ha : a ≠ []) (hb : b ≠ []) :
    joinS sp (a ++ b) = joinS sp a ++ (sp ++ joinS sp b) := by
  induction a with
  | nil => exact absurd rfl ha
  | cons x a ih =>
    cases a with
    | nil => cases b with
      | nil => exact absurd rfl hb
      | cons y b => simp [joinS]
    | cons y a =>
      have := ih (by simp)
      simp only [List.cons_append] at this ⊢
      rw [joinS, this, joinS]
      simp

/-- The argument list is read back from its text. -/
theorem pExtArgs_text [UTab] [FTab] (hA : AsciiPrintable) {st : Store} (hst : st.Ordered) (o : Opts)
    (ho : o.anchors ≠ .never) (hl : o.litTypes ≠ .never) (pos : List ExtValue) (named : List (Str × ExtValue))
    (hp : ValuesOk st o pos) (hn : ∀ p ∈ named, NamedOk st o p) (hd : (named.map (·.1)).Nodup) :
    ∃ a : SArgs, convArgList st a.positional = .ok pos ∧ convNamed st [] a.named = .ok named ∧
      ∀ rest, ArgsEnd rest →
        pExtArgs ((textArgList (textExtValues st o pos) (named.map (textNamed st o))).text ++ rest) = (a, rest) := by
  obtain ⟨pi, hp1, hp2⟩ := argText_values hA hst o ho hl pos hp
  obtain ⟨ni, hn1, hn2⟩ := namedTexts hA hst o ho hl named hn
  refine ⟨⟨pi.map (·.2), ni.map (·.2)⟩, hp2.conv, by simpa using hn2.conv [] (by simpa using hd), ?_⟩
  intro rest hr
  have hpm := hp2.mem
  have hnm := hn2.mem
  have hpos : ∀ close, (pi ≠ []) → ExprFollow close → (∀ n, pStarN spCommaSp pArg n close = ([], close)) →
      pSep1 spCommaSp pArg (joinS cs!", " (pi.map (·.1)) ++ close) = some (pi.map (·.2), close) := by
    intro close hne hc hstop
    refine pSep1_join spCommaSp pArg cs!", " ExprFollow close pi (by simp) hne ?_ (fun r => exprFollow_comma _) hc hstop ?_
    · intro i hi r
      obtain ⟨v, hv⟩ := hpm i hi
      exact spCommaSp_join _ (starts_next hv.starts' r)
    · intro i hi r hr
      obtain ⟨v, hv⟩ := hpm i hi
      exact hv.arg _ _ (by simp; omega) hr
  have hnam : ni ≠ [] → pSep1 spCommaSp pNamedArg (joinS cs!", " (ni.map (·.1)) ++ rest) = some (ni.map (·.2), rest) := by
    intro hne
    refine pSep1_join spCommaSp pNamedArg cs!", " ExprFollow rest ni (by simp) hne ?_ (fun r => exprFollow_comma _) hr.1
      (pStarN_stop _ _ _ hr.2) ?_
    · intro i hi r
      obtain ⟨v, hv⟩ := hnm i hi
      exact spCommaSp_join _ (starts_next hv.starts' r)
    · intro i hi r hr
      obtain ⟨v, hv⟩ := hnm i hi
      exact hv.read _ hr
  have hstop : pi = [] → pos = [] := by
    rintro rfl
    cases pos with
    | nil => rfl
    | cons => exact hp2.elim
  have hstopn : ni = [] → named = [] := by
    rintro rfl
    cases named with
    | nil => rfl
    | cons => exact hn2.elim
  by_cases h1 : pi = []
  · have hpe := hstop h1
    by_cases h2 : ni = []
    · have hne := hstopn h2
      subst h1 h2 hpe hne
      simp [textArgList, textExtValues, pExtArgs, lit]
    · have hj := hnam h2
      obtain ⟨i, l, rfl⟩ : ∃ i l, ni = i :: l := by cases ni with
        | nil => exact absurd rfl h2
        | cons i l => exact ⟨i, l, rfl⟩
      obtain ⟨p, hpn⟩ := hnm i (by simp)
      have hnn : named ≠ [] := by rintro rfl; exact hn2.elim
      have htx : (textArgList (textExtValues st o pos) (named.map (textNamed st o))).text = joinS cs!", " ((i :: l).map (·.1)) := by
        rw [textArgList, if_neg (by simp [hnn]), Out.text_sep, hn1, hpe]
        simp [textExtValues]
      rw [htx]
      have ha : ∀ r, pArg (joinS cs!", " ((i :: l).map (·.1)) ++ r) = none := by
        intro r
        rw [List.map_cons, joinS_cons, List.append_assoc]
        exact hpn.notArg _
      have h_ : lit cs!"_" (joinS cs!", " ((i :: l).map (·.1)) ++ rest) = none := by
        obtain ⟨c, t, hc1, hc2⟩ := hpn.starts
        rw [List.map_cons, joinS_cons, hc1]
        exact lit_ne (by rintro rfl; revert hc2; decide)
      have hpo : pPositional (joinS cs!", " ((i :: l).map (·.1)) ++ rest) = none := by
        have : pSep1 spCommaSp pArg (joinS cs!", " ((i :: l).map (·.1)) ++ rest) = none := by
          simp only [pSep1, ha]
        simp only [pPositional, this]
        rfl
      simp only [pExtArgs, h_, hpo, hj, h1]
      rfl
  · obtain ⟨i, l, hil⟩ : ∃ i l, pi = i :: l := by cases pi with
      | nil => exact absurd rfl h1
      | cons i l => exact ⟨i, l, rfl⟩
    have hpp : pos ≠ [] := by rintro rfl; rw [hil] at hp2; exact hp2.elim
    have h_ : ∀ r, lit cs!"_" (joinS cs!", " (pi.map (·.1)) ++ r) = none := by
      intro r
      obtain ⟨v, hv⟩ := hpm i (by simp [hil])
      obtain ⟨c, t, hc1, _, _, hc2⟩ := hv.starts
      rw [hil, List.map_cons, joinS_cons, hc1]
      exact lit_ne (Ne.symm hc2)
    have htx : (textArgList (textExtValues st o pos) (named.map (textNamed st o))).text =
        joinS cs!", " (pi.map (·.1) ++ ni.map (·.1)) := by
      rw [textArgList, if_neg (by simp [textExtValues_nil_iff, hpp]), Out.text_sep, hp1, hn1, List.map_append]
    rw [htx]
    by_cases h2 : ni = []
    · have hj := hpos rest h1 hr.1 (pStarN_stop _ _ _ hr.2)
      simp only [h2, List.map_nil, List.append_nil]
      simp [pExtArgs, h_, pPositional, hj, pOpt, pCommaNamed, hr.2]
    · obtain ⟨j, m, hjm⟩ : ∃ i l, ni = i :: l := by cases ni with
        | nil => exact absurd rfl h2
        | cons i l => exact ⟨i, l, rfl⟩
      obtain ⟨p, hpn⟩ := hnm j (by simp [hjm])
      have hsep : spCommaSp (cs!", " ++ (joinS cs!", " (ni.map (·.1)) ++ rest)) = some (joinS cs!", " (ni.map (·.1)) ++ rest) := by
        refine spCommaSp_join _ ?_
        rw [hjm, List.map_cons, joinS_cons, List.append_assoc]
        exact starts_next hpn.starts' _
      have hno : pArg (joinS cs!", " (ni.map (·.1)) ++ rest) = none := by
        rw [hjm, List.map_cons, joinS_cons, List.append_assoc]
        exact hpn.notArg _
      have hj := hpos (cs!", " ++ (joinS cs!", " (ni.map (·.1)) ++ rest)) h1 (exprFollow_comma _)
        (pStarN_stop2 _ _ _ _ hsep hno)
      have hk := hnam h2
      rw [joinS_append _ _ _ (by simpa using h1) (by simpa using h2)]
      simp only [List.append_assoc]
      simp only [pExtArgs, h_, pPositional, hj, pOpt, pCommaNamed, hsep, hk, Option.bind_eq_bind, Option.bind_some]
      rfl

/-! ### Output columns -/

/-- Other literals than booleans and nulls begin with a digit, a sign or a quote. -/
theorem lit_head_plain [UTab] [FTab] (hA : AsciiPrintable) {st : Store} (o : Opts) (l : Literal) (h : Survives st l)
    (hc : ∀ v, l.value = some v → (∀ b, v ≠ .bool b) ∧ ∀ t, v ≠ .null t) :
    ∃ c t, (textLit st o l).text = c :: t ∧ valueHead c = true := by
  obtain ⟨value, nullable, tvar⟩ := l
  obtain ⟨h0, v, h1, h2⟩ := h
  simp only at h0 h1 h2 hc
  subst h0 h1
  obtain ⟨hb, hn⟩ := hc v rfl
  obtain ⟨sv, h3, h4, h5, h6, h7⟩ := value_text hA st o nullable v hn h2
  have ht : textLit st o ⟨some v, nullable, 0⟩ =
      textValue o v ++ (if showSuffix o nullable v then textSuffix v nullable else .s []) := by
    cases v with
    | null t => exact absurd rfl (hn t)
    | _ => rfl
  rw [ht, Out.text_append]
  have h8 := h3 [] (NextNot.nil _)
  rw [List.append_nil] at h8
  have hbool : ∀ b, sv ≠ .bool b := by
    rintro b rfl
    simp only [convValue, toBoolLit] at h6
    split at h6 <;> cases h6
    all_goals exact hb _ rfl
  have hnull : sv ≠ .null := by
    rintro rfl
    simp only [convValue, toNullLit] at h6
    simp only [Res.ok.injEq, Literal.mk.injEq, Option.some.injEq] at h6
    exact hn _ h6.1.symm
  rcases pValue_head h8 with ⟨c, t, h, hc⟩ | h | h | h
  · exact ⟨c, _, by rw [h]; rfl, hc⟩
  · have := pValue_bool true []
    rw [if_pos rfl] at this
    rw [h, this] at h8
    simp at h8
    exact absurd h8.symm (hbool true)
  · have := pValue_bool false []
    rw [if_neg (by simp)] at this
    rw [h, this] at h8
    simp at h8
    exact absurd h8.symm (hbool false)
  · have := pValue_null []
    rw [h, this] at h8
    simp at h8
    exact absurd h8.symm hnull

/-- An expression column is not read as a named column. -/
theorem pNamedColumn_expr_none [UTab] [FTab] (hA : AsciiPrintable) {st : Store} (hst : st.Ordered) (o : Opts)
    (ho : o.anchors ≠ .never) (e : Expr) (h : Faithful st e) (hc : ColExpr st e) (rest : Str) :
    pNamedColumn ((textExpr st o e).text ++ rest) = none := by
  have nohead : ∀ (c : Char) (t : Str), isAlpha c = false → c ≠ '"' → pNamedColumn (c :: t) = none := by
    intro c t h1 h2
    simp [pNamedColumn, pName_none h1 h2]
  cases e with
  | missing => exact (by simp [Faithful] at h)
  | other => exact (by simp [Faithful] at h)
  | literal l =>
    simp only [Faithful] at h
    obtain ⟨c, t, h1, h2⟩ := lit_head_plain hA o l h hc
    rw [textExpr, h1]
    exact nohead _ _ (valueHead_not_alpha h2).1 (by rintro rfl; revert h2; decide)
  | selection f =>
    cases f with
    | field i child =>
      have : (textExpr st o (.selection (.field i child))).text ++ rest = '$' :: (decInt i ++ rest) := by
        cases child <;> simp [textExpr, textFieldRef, textRef]
      rw [this]
      exact nohead _ _ (by decide) (by decide)
    | badReference => exact (by simp [Faithful] at h)
    | badSegment => exact (by simp [Faithful] at h)
  | call f args opts out =>
    cases out with
    | none => exact (by simp [Faithful] at h)
    | some t =>
      simp only [Faithful] at h
      simp only [ColExpr] at hc
      obtain ⟨_, rfl, ⟨name, hd, hn⟩, _, _⟩ := h
      obtain ⟨n, a, h3, h4, h5⟩ := textAnchor_function' hst o ho f name hd hn
      have hno : ':' ∉ n := fun hx => hc name hd (h5.subset hx)
      have hid : isIdentifier n = true := by
        obtain ⟨b, hb, h⟩ := h4
        rcases h with rfl | rfl | ⟨r, _, rfl⟩
        · exact hb
        all_goals simp at hno
      have htx := call_text o (args := args) (t := t) h3
      obtain ⟨c, tl, h6, h7⟩ := showAnchor_head a (joinS cs!", " ((textArgs st o args).map Out.text) ++ ')' :: ':' :: (textTy st o t).text)
      rw [h6] at htx
      rw [htx]
      have hx : NextNot isIdentChar (c :: (tl ++ rest)) := (nextNot_cons _ _ _).2 (by rcases h7 with rfl | rfl <;> decide)
      have := pName_ident hid hx
      simp only [List.append_assoc, List.cons_append]
      have hl : lit [':'] (c :: (tl ++ rest)) = none := lit_ne (by rcases h7 with rfl | rfl <;> decide)
      simp [pNamedColumn, this, hl]
  | cast e t fb =>
    obtain ⟨tl, htx⟩ : ∃ tl, (textExpr st o (.cast e t fb)).text = '(' :: tl := ⟨_, by simp [textExpr]; rfl⟩
    rw [htx]
    exact nohead _ _ (by decide) (by decide)
  | ifThen ifs els =>
    obtain ⟨tl, htx⟩ : ∃ tl, (textExpr st o (.ifThen ifs els)).text = cs!"if_then(" ++ tl := ⟨_, by simp [textExpr]; rfl⟩
    rw [htx]
    have := pName_ident (s := cs!"if_then") (rest := '(' :: (tl ++ rest)) (by decide) ((nextNot_cons _ _ _).2 (by decide))
    simp only [List.cons_append, List.nil_append] at this ⊢
    simp [pNamedColumn, this, lit_ne]

/-- The text of an output column and its parse tree. -/
structure ColumnText [FTab] (st : Store) (x : Str) (c : SCol) (v : ExtColumn) : Prop where
  conv : convExtColumn st c = .ok v
  starts : Starts x
  read : ∀ rest, ExprFollow rest → pExtColumn (x ++ rest) = some (c, rest)

theorem showName_starts [UTab] (s r : Str) : Starts (showName s ++ r) := by
  unfold showName
  split
  · rename_i h
    obtain ⟨c, t, rfl, h2, _⟩ := (isIdentifier_iff s).1 h
    exact ⟨c, _, rfl, by rintro rfl; revert h2; decide⟩
  · exact ⟨'"', _, rfl, by decide⟩

theorem columnText [UTab] [FTab] (hA : AsciiPrintable) {st : Store} (hst : st.Ordered) (o : Opts)
    (ho : o.anchors ≠ .never) (hl : o.litTypes ≠ .never) (c : ExtColumn) (h : ColumnOk st c) :
    ∃ s, ColumnText st (textExtColumn st o c).text s c := by
  cases c with
  | named n t =>
    simp only [ColumnOk] at h
    obtain ⟨s, h1, h2⟩ := pType_text hst o ho t h.2
    refine ⟨.named n s, by simp [convExtColumn, h1], ?_, ?_⟩
    · simp only [textExtColumn, Out.text_append, Out.text_s, List.append_assoc]
      exact showName_starts _ _
    · intro rest hr
      have h3 := h2 rest (LitFollow.ty hr.1)
      have h4 := pName_spelled (rest := ':' :: ((textTy st o t).text ++ rest)) h.1 ((nextNot_cons _ _ _).2 (by decide))
      simp only [textExtColumn, Out.text_append, Out.text_s, List.append_assoc, List.cons_append, List.nil_append]
      simp [pExtColumn, pNamedColumn, h4, lit, h3, mapFst]
  | expr e =>
    simp only [ColumnOk] at h
    obtain ⟨s, h1, h2⟩ := pExpr_text hA hst o ho hl e h.1
    obtain ⟨c, t, h3, h4, _⟩ := expr_head_ne hA hst o ho e h.1
    have hcol := pNamedColumn_expr_none hA hst o ho e h.1 h.2
    by_cases hs : ∃ i, s = .ref i
    · obtain ⟨i, rfl⟩ := hs
      obtain ⟨j, rfl⟩ := convExpr_ref_ok h1
      refine ⟨.ref i, ?_, ⟨c, t, h3, h4⟩, ?_⟩
      · simp only [convExpr, convExtColumn] at h1 ⊢
        obtain ⟨j', h5, h6⟩ := Res.bind_ok_iff.1 h1
        rw [h5]
        simp at h6 ⊢
        exact h6
      · intro rest hr
        have h5 := h2 rest hr
        have htx : (textExpr st o (.selection (.field j none))).text ++ rest = '$' :: (decInt j ++ rest) := by
          simp [textExpr, textFieldRef, textRef]
        have h6 := hcol rest
        simp only [textExtColumn]
        rw [htx] at h5 h6 ⊢
        rw [pExpr, pExprN, lit_if_none (by decide), pCast_none (by decide), pCall_none_head (by decide)] at h5
        cases hp : pRef ('$' :: (decInt j ++ rest)) with
        | none =>
          rw [hp] at h5
          simp only [mapFst, Option.or] at h5
          cases hq : pLiteral ('$' :: (decInt j ++ rest)) with
          | none => rw [hq] at h5; simp at h5
          | some y => rw [hq] at h5; simp at h5
        | some y =>
          rw [hp] at h5
          simp [mapFst] at h5
          rw [pExtColumn, h6, hp]
          simp [mapFst, h5]
    · refine ⟨.expr s, by simp [convExtColumn, h1], ⟨c, t, h3, h4⟩, ?_⟩
      intro rest hr
      have h5 := h2 rest hr
      simp only [textExtColumn]
      rw [pExtColumn, hcol rest, h5]
      cases hp : pRef ((textExpr st o e).text ++ rest) with
      | none => simp [mapFst]
      | some y =>
        exfalso
        apply hs
        have hd : ∃ u, (textExpr st o e).text ++ rest = '$' :: u := by
          rw [h3] at hp ⊢
          by_cases hc : c = '$'
          · exact ⟨t ++ rest, by rw [hc]; rfl⟩
          · rw [List.cons_append, pRef_none hc] at hp; cases hp
        obtain ⟨u, hu⟩ := hd
        rw [hu] at h5 hp
        rw [pExpr, pExprN, lit_if_none (by decide), pCast_none (by decide), pCall_none_head (by decide), hp] at h5
        simp [mapFst] at h5
        exact ⟨_, h5.1.symm⟩

/-- Texts and parse trees of output columns. -/
def ColumnTexts [FTab] (st : Store) : List (Str × SCol) → List ExtColumn → Prop
  | [], [] => True
  | i :: l, c :: cs => ColumnText st i.1 i.2 c ∧ ColumnTexts st l cs
  | _, _ => False

theorem columnTexts [UTab] [FTab] (hA : AsciiPrintable) {st : Store} (hst : st.Ordered) (o : Opts)
    (ho : o.anchors ≠ .never) (hl : o.litTypes ≠ .never) (l : List ExtColumn)
    (h : ∀ c ∈ l, ColumnOk st c) : ∃ items : List (Str × SCol),
      items.map (·.1) = (l.map (textExtColumn st o)).map Out.text ∧ ColumnTexts st items l := by
  induction l with
  | nil => exact ⟨[], rfl, trivial⟩
  | cons p ps ih =>
    obtain ⟨a, ha⟩ := columnText hA hst o ho hl p (h p (by simp))
    obtain ⟨items, h1, h2⟩ := ih (fun q hq => h q (by simp [hq]))
    exact ⟨(_, a) :: items, by simp [h1], ha, h2⟩

theorem ColumnTexts.mem [FTab] {st : Store} {l : List (Str × SCol)} {ps : List ExtColumn}
    (h : ColumnTexts st l ps) : ∀ i ∈ l, ∃ p, ColumnText st i.1 i.2 p := by
  induction l generalizing ps with
  | nil => simp
  | cons i l ih => cases ps with
    | nil => exact h.elim
    | cons p ps =>
      intro j hj
      rcases List.mem_cons.1 hj with rfl | hj
      · exact ⟨p, h.1⟩
      · exact ih h.2 j hj

theorem ColumnTexts.conv [FTab] {st : Store} {l : List (Str × SCol)} {ps : List ExtColumn}
    (h : ColumnTexts st l ps) : convExtColumns st (l.map (·.2)) = .ok ps := by
  induction l generalizing ps with
  | nil => cases ps with
    | nil => rfl
    | cons => exact h.elim
  | cons i l ih => cases ps with
    | nil => exact h.elim
    | cons p ps => simp [convExtColumns, h.1.conv, ih h.2]

/-- The columns after the arrow are read back from their texts. -/
theorem pExtColumns_text [FTab] {st : Store} {items : List (Str × SCol)} {cols : List ExtColumn}
    (h : ColumnTexts st items cols) (rest : Str) :
    pExtColumns (cs!" => " ++ (joinS cs!", " (items.map (·.1)) ++ ']' :: rest)) = some (items.map (·.2), ']' :: rest) := by
  have hm := h.mem
  have harrow : pArrow (cs!" => " ++ (joinS cs!", " (items.map (·.1)) ++ ']' :: rest)) =
      some (joinS cs!", " (items.map (·.1)) ++ ']' :: rest) := by
    have h2 : skipSp (joinS cs!", " (items.map (·.1)) ++ ']' :: rest) = joinS cs!", " (items.map (·.1)) ++ ']' :: rest := by
      cases items with
      | nil => exact skipSp_cons _ _ (by decide)
      | cons i l =>
        obtain ⟨p, hp⟩ := hm i (by simp)
        rw [List.map_cons, joinS_cons, List.append_assoc]
        exact hp.starts.skip _
    have h3 : skipSp (' ' :: (joinS cs!", " (items.map (·.1)) ++ ']' :: rest)) = joinS cs!", " (items.map (·.1)) ++ ']' :: rest := by
      simpa [skipSp] using h2
    simp only [pArrow, List.cons_append, List.nil_append]
    have h4 : skipSp (' ' :: '=' :: '>' :: ' ' :: (joinS cs!", " (items.map (·.1)) ++ ']' :: rest)) =
        '=' :: '>' :: ' ' :: (joinS cs!", " (items.map (·.1)) ++ ']' :: rest) := by simp [skipSp]
    rw [h4]
    simp [lit, h3]
  simp only [pExtColumns, harrow, Option.bind_eq_bind, Option.bind_some]
  congr 1
  cases items with
  | nil =>
    simp only [List.map_nil, joinS, List.nil_append]
    have : pExtColumn (']' :: rest) = none := by
      have hv : pLiteral (']' :: rest) = none := by
        unfold pLiteral
        cases hx : pValue (']' :: rest) with
        | none => rfl
        | some x =>
          rcases pValue_head (v := x.1) (r := x.2) hx with ⟨c, t, h, hc⟩ | h | h | h
          · simp only [List.cons.injEq] at h; rw [← h.1] at hc; cases hc
          all_goals simp at h
      have he : pExpr (']' :: rest) = none := pExprN_none (by decide) (by decide) (by decide) (by decide) _
      simp [pExtColumn, pNamedColumn, pName_none (c := ']') (by decide) (by decide), pRef_none (c := ']') (by decide), he, mapFst]
    simp [pSep, pSep1, this]
  | cons i l =>
    have := pSep1_join spCommaSp pExtColumn cs!", " ExprFollow (']' :: rest) (i :: l) (by simp) (by simp)
      (fun j hj r => by
        obtain ⟨p, hp⟩ := hm j hj
        exact spCommaSp_join _ (starts_next hp.starts r))
      (fun r => exprFollow_comma _) (exprFollow_bracket _)
      (pStarN_stop _ _ _ (by simp [spCommaSp, skipSp_cons, lit]))
      (fun j hj r hr => by
        obtain ⟨p, hp⟩ := hm j hj
        exact hp.read r hr)
    rw [pSep, this]

/-! ### Extension relation lines and addenda -/

theorem pRawName_ident [UTab] {n r : Str} (h : isIdentifier n = true) (hr : NextNot isIdentChar r) :
    pRawName (n ++ r) = some (n, r) := by
  simp [pRawName, pName_ident h hr]

theorem pExtKind_spell (k : ExtKind) (r : Str) : pExtKind (k.spell ++ ':' :: r) = some (k, ':' :: r) := by
  cases k <;> simp [pExtKind, ExtKind.spell, lit]

/-- The line of an extension relation is read back as its name and arguments. -/
theorem pExtRel_text [UTab] [FTab] (hA : AsciiPrintable) {st : Store} (hst : st.Ordered) (o : Opts)
    (ho : o.anchors ≠ .never) (hl : o.litTypes ≠ .never) (kind : ExtKind) (name : Str) (a : ExtArgs)
    (hn : isIdentifier name = true) (h : ArgsOk st o a) :
    ∃ sa cols, convExtArgs st sa cols = .ok a ∧ ∀ rest,
      pExtRel (kind.spell ++ ':' :: (name ++ '[' ::
        ((textArgList (textExtValues st o a.positional) (a.named.map (textNamed st o))).text ++
          (cs!" => " ++ (joinS cs!", " ((a.columns.map (textExtColumn st o)).map Out.text) ++ ']' :: rest))))) =
        some (.ext kind name sa cols, rest) := by
  obtain ⟨hp, hnm, hd, hc⟩ := h
  obtain ⟨sa, h1, h2, h3⟩ := pExtArgs_text hA hst o ho hl a.positional a.named hp hnm hd
  obtain ⟨items, h4, h5⟩ := columnTexts hA hst o ho hl a.columns hc
  refine ⟨sa, items.map (·.2), by simp [convExtArgs, h1, h2, h5.conv], ?_⟩
  intro rest
  rw [← h4]
  have h6 := h3 _ (argsEnd_arrow (joinS cs!", " (items.map (·.1)) ++ ']' :: rest))
  have h7 := pExtColumns_text h5 rest
  have h8 : ∀ r, skipSp ((textArgList (textExtValues st o a.positional) (a.named.map (textNamed st o))).text ++ r) =
      (textArgList (textExtValues st o a.positional) (a.named.map (textNamed st o))).text ++ r := by
    intro r
    obtain ⟨pi, hp1, hp2⟩ := argText_values hA hst o ho hl a.positional hp
    obtain ⟨ni, hn1, hn2⟩ := namedTexts hA hst o ho hl a.named hnm
    unfold textArgList
    split
    · exact skipSp_cons _ _ (by decide)
    · rename_i hne
      rw [Out.text_sep, List.map_append, ← hp1, ← hn1]
      cases pi with
      | cons i l =>
        obtain ⟨v, hv⟩ := hp2.mem i (by simp)
        simp only [List.map_cons, List.cons_append, joinS_cons, List.append_assoc]
        exact hv.starts'.skip _
      | nil =>
        cases ni with
        | cons i l =>
          obtain ⟨v, hv⟩ := hn2.mem i (by simp)
          simp only [List.map_nil, List.nil_append, List.map_cons, joinS_cons, List.append_assoc]
          exact hv.starts'.skip _
        | nil =>
          exfalso; apply hne
          simp only [List.map_nil] at hp1 hn1
          exact ⟨List.map_eq_nil_iff.1 hp1.symm, List.map_eq_nil_iff.1 hn1.symm⟩
  have h9 := pRawName_ident (r := '[' ::
        ((textArgList (textExtValues st o a.positional) (a.named.map (textNamed st o))).text ++
          (cs!" => " ++ (joinS cs!", " (items.map (·.1)) ++ ']' :: rest)))) hn ((nextNot_cons _ _ _).2 (by decide))
  simp only [pExtRel, pExtKind_spell, Option.bind_eq_bind, Option.bind_some, lit_cons, if_true, lit_nil, h9, h8, h6, pOpt, h7]
  simp

theorem pAddKind_spell (k : AddKind) (r : Str) : pAddKind (k.spell ++ r) = some (k, r) := by
  cases k <;> simp [pAddKind, AddKind.spell, lit]

/-- An addendum is read back as its kind, name and arguments. -/
theorem pAddendum_text [UTab] [FTab] (hA : AsciiPrintable) {st : Store} (hst : st.Ordered) (o : Opts)
    (ho : o.anchors ≠ .never) (hl : o.litTypes ≠ .never) (k : AddKind) (name : Str) (a : ExtArgs)
    (hn : isIdentifier name = true) (h : ArgsOk st o a) (hc : a.columns = []) :
    ∃ sa, convExtArgs st sa [] = .ok a ∧ ∀ rest,
      pAddendum ((textAddendum st o k (.ok (name, a))).text ++ rest) = some (⟨k, name, sa⟩, rest) := by
  obtain ⟨hp, hnm, hd, _⟩ := h
  obtain ⟨sa, h1, h2, h3⟩ := pExtArgs_text hA hst o ho hl a.positional a.named hp hnm hd
  refine ⟨sa, ?_, ?_⟩
  · simp [convExtArgs, h1, h2, convExtColumns]
    obtain ⟨p, n, c⟩ := a
    simp only at hc
    rw [hc]
  intro rest
  have h6 := h3 (']' :: rest) (argsEnd_bracket rest)
  have htx : (textAddendum st o k (.ok (name, a))).text ++ rest = '+' :: ' ' :: (k.spell ++ ':' :: (name ++ '[' ::
      ((textArgList (textExtValues st o a.positional) (a.named.map (textNamed st o))).text ++ ']' :: rest))) := by
    simp [textAddendum, hc, textExtArgs]
  have h9 := pName_ident (rest := '[' ::
      ((textArgList (textExtValues st o a.positional) (a.named.map (textNamed st o))).text ++ ']' :: rest)) hn ((nextNot_cons _ _ _).2 (by decide))
  have hsp : ∀ r, skipSp (' ' :: (k.spell ++ r)) = k.spell ++ r := by
    intro r; cases k <;> simp [skipSp, AddKind.spell]
  rw [htx]
  simp only [pAddendum, lit_cons, if_true, lit_nil, Option.bind_eq_bind, Option.bind_some, hsp, pAddKind_spell, h9, h6]

/-! ### Reported errors -/

mutual
theorem textExtValue_errs [UTab] [FTab] {st : Store} (hst : st.Ordered) (o : Opts) :
    (v : ExtValue) → ((textExtValue st o v).errs = [] ↔ CompleteValue st v)
  | .string _ => by simp [textExtValue, CompleteValue]
  | .integer _ => by simp [textExtValue, CompleteValue]
  | .float _ => by simp [textExtValue, CompleteValue]
  | .boolean _ => by simp [textExtValue, CompleteValue]
  | .null => by simp [textExtValue, CompleteValue]
  | .error _ => by simp [textExtValue, CompleteValue]
  | .enum _ => by simp [textExtValue, CompleteValue]
  | .expr e => by rw [textExtValue, CompleteValue]; exact textExpr_errs hst o e
  | .tuple vs => by
    have h := textExtValues_errs hst o vs
    rw [textExtValue, CompleteValue, ← h]
    have : (textTupleItems st o vs).errs = (textExtValues st o vs).flatMap Out.errs := by
      match vs with
      | [] => simp [textTupleItems, textExtValues]
      | [v] => simp [textTupleItems, textExtValues]
      | v :: w :: l => simp [textTupleItems, textExtValues, Out.errs_sep]
    simp [this]
theorem textExtValues_errs [UTab] [FTab] {st : Store} (hst : st.Ordered) (o : Opts) :
    (vs : List ExtValue) → ((textExtValues st o vs).flatMap Out.errs = [] ↔ CompleteValues st vs)
  | [] => by simp [textExtValues, CompleteValues]
  | v :: l => by
    have h1 := textExtValue_errs hst o v
    have h2 := textExtValues_errs hst o l
    rw [textExtValues, CompleteValues, List.flatMap_cons, List.append_eq_nil_iff, h1, h2]
end

theorem textExtColumn_errs [UTab] [FTab] {st : Store} (hst : st.Ordered) (o : Opts) (c : ExtColumn) :
    (textExtColumn st o c).errs = [] ↔ CompleteColumn st c := by
  cases c with
  | named n t => simp [textExtColumn, CompleteColumn, textTy_errs hst o t]
  | expr e => exact textExpr_errs hst o e

theorem textArgList_errs (pos named : List Out) :
    (textArgList pos named).errs = pos.flatMap Out.errs ++ named.flatMap Out.errs := by
  unfold textArgList
  split
  · rename_i h; simp [h.1, h.2]
  · simp [Out.errs_sep]

theorem textExtArgs_errs [UTab] [FTab] {st : Store} (hst : st.Ordered) (o : Opts) (a : ExtArgs) :
    (textExtArgs st o a).errs = [] ↔ CompleteExtArgs st a := by
  unfold textExtArgs CompleteExtArgs
  have h1 := textExtValues_errs hst o a.positional
  have h2 : (a.named.map (textNamed st o)).flatMap Out.errs = [] ↔ ∀ p ∈ a.named, CompleteValue st p.2 := by
    simp only [List.flatMap_map, List.flatMap_eq_nil_iff, textNamed, Out.errs_append, Out.errs_s, List.nil_append]
    exact forall_congr' fun p => imp_congr_right fun _ => textExtValue_errs hst o p.2
  have h3 : (if a.columns = [] then Out.s [] else .s cs!" => " ++ Out.sep cs!", " (a.columns.map (textExtColumn st o))).errs = [] ↔
      ∀ c ∈ a.columns, CompleteColumn st c := by
    split
    · rename_i h; simp [h]
    · simp only [Out.errs_append, Out.errs_s, List.nil_append, Out.errs_sep, List.flatMap_map, List.flatMap_eq_nil_iff]
      exact forall_congr' fun p => imp_congr_right fun _ => textExtColumn_errs hst o p
  rw [Out.errs_append, List.append_eq_nil_iff, textArgList_errs, List.append_eq_nil_iff, h1, h2, h3, and_assoc]

end Verif
