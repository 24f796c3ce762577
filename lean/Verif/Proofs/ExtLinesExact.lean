import Verif.Proofs.ArgListExact
/-!
# Lines of extension relations and addenda that survive are read back, and no others
-/

namespace Verif
open StoreSpec TextSpec Grammar

set_option autoImplicit false

/-! ## Addenda -/

/-- The kind, name and arguments of an addendum line. -/
theorem addendum_parts {x r : Str} {d : SAddendum} (h : pAddendum x = some (d, r)) :
    ∃ s1 s2 s3 s4, lit cs!"+" x = some s1 ∧ pAddKind (skipSp s1) = some (d.kind, s2) ∧ (lit cs!":" s2).bind pName = some (d.name, s3) ∧
      lit cs!"[" s3 = some s4 ∧ (pExtArgs s4).1 = d.args ∧ lit cs!"]" (pExtArgs s4).2 = some r := by
  unfold pAddendum at h
  simp only [Option.bind_eq_bind, Option.bind_eq_some_iff] at h
  obtain ⟨s1, h1, ⟨k, s2⟩, h2, s2', h3, ⟨nm, s3⟩, h4, s4, h5, s5, h6, h7⟩ := h
  cases h7
  exact ⟨s1, s2, s3, s4, h1, h2, by simp [h3, h4], h5, rfl, h6⟩

/-- The text of an argument list does not begin with a space if it is read as the list. -/
theorem args_skip [UTab] [FTab] {h : List Op} (o : Opts) (pos : List ExtValue) (named : List (Str × ExtValue)) {x rest : Str} {s : SArgs}
    (hx : x = (textArgList (textExtValues (run h) o pos) (named.map (textNamed (run h) o))).text ++ rest)
    (hp : (pExtArgs x).1 = s)
    (hc1 : convArgList (run h) s.positional = .ok pos) (hc2 : convNamed (run h) [] s.named = .ok named) : skipSp x = x := by
  cases x with
  | nil => rfl
  | cons c x =>
    apply skipSp_cons
    rintro rfl
    rw [pExtArgs_space] at hp
    subst hp
    cases hc1
    cases hc2
    simp [textArgList, textExtValues] at hx

theorem addendum_of_read [UTab] [FTab] (hA : AsciiPrintable) (hF : FloatsShown) {h : List Op} (o : Opts) (k : AddKind) (name : Str)
    (a : ExtArgs) {rest r : Str} {sa : SArgs}
    (hp : pAddendum ((textAddendum (run h) o k (.ok (name, a))).text ++ rest) = some (⟨k, name, sa⟩, r))
    (hlen : sa.named.length = a.named.length) (hc : convExtArgs (run h) sa [] = .ok a) :
    isIdentifier name = true ∧ SurvivesList (run h) o a.positional a.named ∧ a.columns = [] := by
  unfold convExtArgs at hc
  obtain ⟨ps, hc1, hc⟩ := Res.bind_ok_iff.1 hc
  obtain ⟨ns, hc2, hc⟩ := Res.bind_ok_iff.1 hc
  obtain ⟨cs, hc3, hc⟩ := Res.bind_ok_iff.1 hc
  cases hc3
  cases hc
  simp only at hlen
  refine ⟨?_, ?_, rfl⟩
  all_goals
    have htx : (textAddendum (run h) o k (.ok (name, ⟨ps, ns, []⟩))).text ++ rest = '+' :: ' ' :: (k.spell ++ ':' :: (name ++ '[' ::
        ((textArgList (textExtValues (run h) o ps) (ns.map (textNamed (run h) o))).text ++ ']' :: rest))) := by
      simp [textAddendum, textExtArgs]
    rw [htx] at hp
    obtain ⟨s1, s2, s3, s4, h1, h2, h3, h4, h5, h6⟩ := addendum_parts hp
    rw [lit_cons, if_pos rfl, lit_nil] at h1
    cases h1
    have hsp : ∀ r, skipSp (' ' :: (k.spell ++ r)) = k.spell ++ r := by
      intro r; cases k <;> simp [skipSp, AddKind.spell]
    rw [hsp, pAddKind_spell] at h2
    cases h2
    rw [lit_cons, if_pos rfl, lit_nil, Option.bind_some] at h3
    have hid : isIdentifier name = true := by
      cases name with
      | nil => rw [List.nil_append, pName_none (by decide) (by decide)] at h3; cases h3
      | cons c t =>
        have hc : c ≠ ' ' := by
          rintro rfl
          rw [List.cons_append, pName_none (by decide) (by decide)] at h3
          cases h3
        exact name_is (c := '[') (x := (textArgList (textExtValues (run h) o ps) (ns.map (textNamed (run h) o))).text ++ ']' :: rest)
          (by decide) (by rw [List.cons_append, skipSp_cons _ _ hc]; exact h3)
  · exact hid
  · rw [pName_ident hid ((nextNot_cons _ _ _).2 (by decide))] at h3
    cases h3
    rw [lit_cons, if_pos rfl, lit_nil] at h4
    cases h4
    have hsk := args_skip o ps ns rfl h5 hc1 hc2
    exact (survives_list_of_read hA hF o ps ns (argsEnd_bracket rest) (by rw [hsk]; exact Prod.ext h5 rfl) hlen hc1 hc2).1

theorem addendum_read [UTab] [FTab] (hA : AsciiPrintable) {h : List Op} (o : Opts) (k : AddKind) (name : Str)
    (a : ExtArgs) (hn : isIdentifier name = true) (hs : SurvivesList (run h) o a.positional a.named) (hc : a.columns = []) :
    ∃ sa : SArgs, sa.named.length = a.named.length ∧ convExtArgs (run h) sa [] = .ok a ∧ ∀ rest,
      pAddendum ((textAddendum (run h) o k (.ok (name, a))).text ++ rest) = some (⟨k, name, sa⟩, rest) := by
  obtain ⟨sa, h0, h1, h2, h3⟩ := pExtArgs_survives hA o a.positional a.named hs
  refine ⟨sa, h0, ?_, ?_⟩
  · simp [convExtArgs, h1, h2, convExtColumns]
    obtain ⟨p, n, c⟩ := a
    simp only at hc
    rw [hc]
  intro rest
  have h6 := h3 (']' :: rest) (argsEnd_bracket rest)
  have htx : (textAddendum (run h) o k (.ok (name, a))).text ++ rest = '+' :: ' ' :: (k.spell ++ ':' :: (name ++ '[' ::
      ((textArgList (textExtValues (run h) o a.positional) (a.named.map (textNamed (run h) o))).text ++ ']' :: rest))) := by
    simp [textAddendum, hc, textExtArgs]
  have h9 := pName_ident (rest := '[' ::
      ((textArgList (textExtValues (run h) o a.positional) (a.named.map (textNamed (run h) o))).text ++ ']' :: rest)) hn ((nextNot_cons _ _ _).2 (by decide))
  have hsp : ∀ r, skipSp (' ' :: (k.spell ++ r)) = k.spell ++ r := by
    intro r; cases k <;> simp [skipSp, AddKind.spell]
  rw [htx]
  simp only [pAddendum, lit_cons, if_true, lit_nil, Option.bind_eq_bind, Option.bind_some, hsp, pAddKind_spell, h9, h6]

/-! ## Columns -/

theorem pIdent_alpha {c : Char} (hc : isAlpha c = true) (t : Str) : ∃ n r, pIdent (c :: t) = some (n, r) := by
  simp [pIdent, hc]

/-- Argument types are taken for a type. -/
theorem pType_codes {r : Str} (h : ArgCodes r) {c : Char} (hc : c ≠ '!') (x : Str) : ∃ w, pType (r ++ c :: x) = some w := by
  have key : ∀ y, (∃ n q, pIdent (skipUBang y) = some (n, q)) → ∃ w, pType y = some w := by
    rintro y ⟨n, q, hn⟩
    unfold pType
    rw [pTypeN]
    generalize hp : (pSimpleType y).or (pCompoundWith (pTypeN y.length) y) = z
    cases z with
    | some w => exact ⟨w, rfl⟩
    | none => simp [pUserWith, hn]
  apply key
  have code : ∀ p, ArgCode p → ∀ (d : Char) z, d ≠ '!' → ∃ n q, pIdent (skipUBang (p ++ d :: z)) = some (n, q) := by
    rintro p ⟨u, e, t, rfl, he, ht⟩ d z hd
    cases u with
    | true =>
      simp only [if_true, skipUBang, List.cons_append, List.nil_append, lit_cons, lit_nil, Option.getD_some]
      exact pIdent_alpha he _
    | false =>
      have : skipUBang ([] ++ e :: t ++ d :: z) = e :: (t ++ d :: z) := by
        unfold skipUBang
        cases hl : lit cs!"u!" ([] ++ e :: t ++ d :: z) with
        | none => rfl
        | some y =>
          exfalso
          have := lit_some hl
          cases t with
          | nil => simp at this; exact hd this.2.1
          | cons f t =>
            simp at this
            have h2 := ht f (by simp)
            rw [this.2.1] at h2
            revert h2
            decide
      simp only [Bool.false_eq_true, if_false]
      rw [this]
      exact pIdent_alpha he _
  cases h with
  | one _ hp => exact code _ hp c x hc
  | more p r hp hr =>
    have := code p hp '_' (r ++ c :: x) (by decide)
    simpa using this

theorem pType_none_head {c : Char} (hc : c = '(' ∨ c = '#') (x : Str) : pType (c :: x) = none := by
  have hi : NextNot isIdentChar (c :: x) := (nextNot_cons _ _ _).2 (by rcases hc with rfl | rfl <;> decide)
  have h1 : pSimpleType (c :: x) = none := pSimpleType_none [] (c :: x) hi (by decide)
  have hl : ∀ d ∈ ['l', 'm', 's', 'p', 'i'], ¬ toLower d = toLower c := by
    rcases hc with rfl | rfl <;> decide
  have h2 : ∀ ty, pCompoundWith ty (c :: x) = none := by
    intro ty
    have e1 := hl 'l' (by decide)
    have e2 := hl 'm' (by decide)
    have e3 := hl 's' (by decide)
    have e4 := hl 'p' (by decide)
    have e5 := hl 'i' (by decide)
    simp [pCompoundWith, pListWith, pMapWith, pStructWith, pIntType, pKwOpen, litI, e1, e2, e3, e4, e5]
  have h3 : ∀ ty, pUserWith ty (c :: x) = none := by
    intro ty
    rcases hc with rfl | rfl <;> simp [pUserWith, skipUBang, lit, pIdent, isAlpha, isUpper, isLower]
  rw [pType, pTypeN, h1, h2, h3]
  rfl

/-- A literal is taken for a name with a type exactly if it is a null or a boolean with its type. -/
theorem pNamedColumn_lit [UTab] [FTab] (hA : AsciiPrintable) {h : List Op} (o : Opts) (l : Literal) (hs : SurvivesLit (run h) o l)
    (rest : Str) (hr : ExprFollow rest) : pNamedColumn ((textLit (run h) o l).text ++ rest) = none ↔
      (∀ t, l.value ≠ some (.null t)) ∧ ∀ b, l.value = some (.bool b) → ¬ TypeShown o l := by
  obtain ⟨value, nullable, tvar⟩ := l
  have hs' := hs
  obtain ⟨h0, v, h1, h2⟩ := hs
  simp only at h0 h1 h2
  subst h0 h1
  have word : ∀ (w : Str) (t : Ty), isIdentifier w = true → SurvivesTy (run h) o.anchors t →
      pNamedColumn (w ++ ':' :: ((textTy (run h) o t).text ++ rest)) ≠ none := by
    intro w t hw ht
    obtain ⟨s, -, h4⟩ := pType_survives o t ht
    have h5 := h4 rest (LitFollow.ty hr.1)
    have h6 := pName_ident (rest := ':' :: ((textTy (run h) o t).text ++ rest)) hw ((nextNot_cons _ _ _).2 (by decide))
    simp [pNamedColumn, h6, lit, h5]
  by_cases hn : ∃ t, v = .null t
  · obtain ⟨t, rfl⟩ := hn
    refine ⟨fun hp => ?_, fun hp => absurd rfl (hp.1 t)⟩
    exfalso
    refine word cs!"null" t (by decide) h2.1 ?_
    rw [← hp]
    simp [textLit, textValue]
  · have hn : ∀ t, v ≠ .null t := fun t e => hn ⟨t, e⟩
    have h2 : Spelled (run h) nullable v := by
      cases v with
      | null t => exact absurd rfl (hn t)
      | _ => exact h2.1
    have hts : TypeShown o ⟨some v, nullable, 0⟩ ↔ pParamLit ((textLit (run h) o ⟨some v, nullable, 0⟩).text ++ rest) = none :=
      (pParamLit_lit hA o _ hs' rest hr).symm
    by_cases hb : ∃ b, v = .bool b
    · obtain ⟨b, rfl⟩ := hb
      have hw : isIdentifier (textValue o (.bool b)).text = true := by cases b <;> rfl
      have hty : SurvivesTy (run h) o.anchors (Lit.ty nullable (.bool b)) := by rw [Lit.ty, SurvivesTy]
      have hiff := showSuffix_iff o nullable (v := .bool b) (by simp)
      have hshown : TypeShown o ⟨some (.bool b), nullable, 0⟩ ↔ showSuffix o nullable (.bool b) = true := by
        rw [hiff]
        constructor
        · intro ht
          rcases ht _ rfl with ⟨t, e⟩ | ht
          · cases e
          · exact ht
        · intro ht w hw
          cases hw
          exact .inr ht
      have hrhs : ((∀ t, (⟨some (.bool b), nullable, 0⟩ : Literal).value ≠ some (.null t)) ∧
          ∀ b', (⟨some (.bool b), nullable, 0⟩ : Literal).value = some (.bool b') → ¬ TypeShown o ⟨some (.bool b), nullable, 0⟩) ↔
          ¬ showSuffix o nullable (.bool b) = true := by
        rw [hshown]
        exact ⟨fun hx => hx.2 b rfl, fun hx => ⟨by simp, fun _ _ => hx⟩⟩
      rw [hrhs, textLit_value _ _ hn]
      by_cases hsuf : showSuffix o nullable (.bool b) = true
      · refine ⟨fun hp => ?_, fun hp => absurd hsuf hp⟩
        exfalso
        refine word (textValue o (.bool b)).text (Lit.ty nullable (.bool b)) hw hty ?_
        rw [if_pos hsuf, Out.text_append, textSuffix_ty (run h) o _ nullable rfl] at hp
        simpa using hp
      · refine ⟨fun _ => hsuf, fun _ => ?_⟩
        rw [if_neg hsuf, Out.text_append, Out.text_s, List.append_nil]
        have hx : NextNot isIdentChar rest := by
          cases rest with
          | nil => exact NextNot.nil _
          | cons c t =>
            have := (nextNot_cons _ _ _).1 hr.1
            refine (nextNot_cons _ _ _).2 ?_
            simp only [litContinues, typeContinues, Bool.or_eq_false_iff] at this
            simp [this]
        have h6 := pName_ident hw hx
        have h7 := hr.noColon
        have h8 : lit cs!":" rest = none := by
          cases rest with
          | nil => rfl
          | cons c t =>
            have := (nextNot_cons _ _ _).1 hr.1
            refine lit_ne ?_
            rintro rfl
            revert this
            decide
        simp [pNamedColumn, h6, h8]
    · have hb : ∀ b, v ≠ .bool b := fun b e => hb ⟨b, e⟩
      have hsv : Survives (run h) ⟨some v, nullable, 0⟩ := by
        refine ⟨rfl, v, rfl, ?_⟩
        cases v with
        | null t => exact absurd rfl (hn t)
        | _ => exact h2
      obtain ⟨c, t, h3, h4⟩ := lit_head_plain hA o _ hsv (by
        intro w hw
        cases hw
        exact ⟨hb, hn⟩)
      refine ⟨fun _ => ⟨?_, ?_⟩, fun _ => ?_⟩
      · rintro t e
        injection e with e
        exact hn t e
      · rintro b e
        injection e with e
        exact absurd e (hb b)
      · rw [h3, List.cons_append]
        have hq : c ≠ '"' := by rintro rfl; revert h4; decide
        simp [pNamedColumn, pName_none (valueHead_not_alpha h4).1 hq]

theorem append_colon_unique {b b' r : Str} (h : ':' ∉ b) (e : b ++ [':'] = b' ++ ':' :: r) : r = [] := by
  induction b generalizing b' with
  | nil =>
    cases b' with
    | nil => simpa using e.symm
    | cons d b' => simp at e
  | cons d b ih =>
    simp only [List.mem_cons, not_or] at h
    cases b' with
    | nil => simp at e; exact absurd e.1.symm h.1
    | cons d' b' => simp at e; exact ih h.2 (by simpa using e.2)

theorem argCodes_ne (h : ArgCodes []) : False := by
  generalize hr : ([] : Str) = r at h
  cases h with
  | one _ hp => obtain ⟨u, c, t, e, -⟩ := hp; cases u <;> simp [← hr] at e
  | more p r hp _ => simp at hr

/-- A surviving expression is taken for a name with a type exactly if `NotColumn` says so. -/
theorem pNamedColumn_expr [UTab] [FTab] (hA : AsciiPrintable) {h : List Op} (o : Opts) (e : Expr) (hs : SurvivesExpr (run h) o e)
    (rest : Str) (hr : ExprFollow rest) :
    pNamedColumn ((textExpr (run h) o e).text ++ rest) = none ↔ NotColumn (run h) o e := by
  have nohead : ∀ (c : Char) (t : Str), isAlpha c = false → c ≠ '"' → pNamedColumn (c :: t) = none := by
    intro c t h1 h2
    simp [pNamedColumn, pName_none h1 h2]
  cases e with
  | missing => exact (by simp [SurvivesExpr] at hs)
  | other => exact (by simp [SurvivesExpr] at hs)
  | literal l =>
    simp only [SurvivesExpr] at hs
    rw [textExpr]
    exact pNamedColumn_lit hA o l hs rest hr
  | selection f =>
    refine ⟨fun _ => trivial, fun _ => ?_⟩
    cases f with
    | field i child =>
      have : (textExpr (run h) o (.selection (.field i child))).text = '$' :: decInt i := by simp [textExpr, textFieldRef, textRef]
      rw [this, List.cons_append]
      exact nohead _ _ (by decide) (by decide)
    | badReference => exact (by simp [SurvivesExpr] at hs)
    | badSegment => exact (by simp [SurvivesExpr] at hs)
  | cast e t fb =>
    refine ⟨fun _ => trivial, fun _ => ?_⟩
    obtain ⟨tl, htx⟩ : ∃ tl, (textExpr (run h) o (.cast e t fb)).text = '(' :: tl := ⟨_, by simp [textExpr]; rfl⟩
    rw [htx]
    exact nohead _ _ (by decide) (by decide)
  | ifThen ifs els =>
    refine ⟨fun _ => trivial, fun _ => ?_⟩
    obtain ⟨tl, htx⟩ : ∃ tl, (textExpr (run h) o (.ifThen ifs els)).text = cs!"if_then(" ++ tl := ⟨_, by simp [textExpr]; rfl⟩
    rw [htx]
    have := pName_ident (s := cs!"if_then") (rest := '(' :: (tl ++ rest)) (by decide) ((nextNot_cons _ _ _).2 (by decide))
    simp only [List.cons_append, List.nil_append] at this ⊢
    simp [pNamedColumn, this]
  | call f args opts out =>
    cases out with
    | none => exact (by simp [SurvivesExpr] at hs)
    | some t =>
      simp only [SurvivesExpr] at hs
      obtain ⟨rfl, ⟨nm, a, h1, h2⟩, -, -⟩ := hs
      have htx := call_text o (args := args) (t := t) (textAnchor_fn h1)
      obtain ⟨c, tl, h6, h7⟩ := showAnchor_head a (joinS cs!", " ((textArgs (run h) o args).map Out.text) ++ ')' :: ':' :: (textTy (run h) o t).text)
      rw [h6] at htx
      have hch := anchor_char h7
      rw [htx, List.append_assoc, List.cons_append]
      have hnc : NotColumn (run h) o (.call f args [] (some t)) ↔ ∀ b r, nm = b ++ ':' :: r → r = [] := by
        constructor
        · intro hw
          exact hw nm a h1
        · intro hw nm' a' h1'
          obtain ⟨rfl, -⟩ := shownFn_unique h1 h1'
          exact hw
      rw [hnc]
      have hci : NextNot isIdentChar (c :: (tl ++ rest)) := (nextNot_cons _ _ _).2 (by rcases h7 with rfl | rfl <;> decide)
      obtain ⟨b, hb, rfl | rfl | ⟨r, hr', rfl⟩⟩ := usableFn_name h2
      · refine ⟨fun _ b r e => ?_, fun _ => ?_⟩
        · exact absurd (by rw [e]; simp : ':' ∈ nm) (ident_colon hb)
        · have hl : lit [':'] (c :: (tl ++ rest)) = none := lit_ne (by rcases h7 with rfl | rfl <;> decide)
          simp [pNamedColumn, pName_ident hb hci, hl]
      · refine ⟨fun _ b' r e => ?_, fun _ => ?_⟩
        · have hnb := ident_colon hb
          have := append_colon_unique hnb e
          exact this
        · have h8 := pName_ident (rest := ':' :: c :: (tl ++ rest)) hb ((nextNot_cons _ _ _).2 (by decide))
          simp only [List.append_assoc, List.cons_append, List.nil_append]
          simp [pNamedColumn, h8, lit, pType_none_head h7]
      · refine ⟨fun hp => ?_, fun hx => ?_⟩
        · exfalso
          have h8 := pName_ident (rest := ':' :: (r ++ c :: (tl ++ rest))) hb ((nextNot_cons _ _ _).2 (by decide))
          obtain ⟨w, hw⟩ := pType_codes hr' (c := c) (by rcases h7 with rfl | rfl <;> decide) (tl ++ rest)
          simp only [List.append_assoc, List.cons_append] at hp
          simp [pNamedColumn, h8, lit, hw] at hp
        · have := hx b r rfl
          subst this
          exact (argCodes_ne hr').elim

/-- An output column that survives is read back. -/
theorem columnText_survives [UTab] [FTab] (hA : AsciiPrintable) {h : List Op} (o : Opts) (c : ExtColumn)
    (hs : SurvivesColumn (run h) o c) : ∃ s, ColumnText (run h) (textExtColumn (run h) o c).text s c := by
  cases c with
  | named n t =>
    obtain ⟨hn, ht⟩ := hs
    obtain ⟨s, h1, h2⟩ := pType_survives o t ht
    refine ⟨.named n s, by simp [convExtColumn, h1], ?_, ?_⟩
    · simp only [textExtColumn, Out.text_append, Out.text_s, List.append_assoc]
      exact showName_starts _ _
    · intro rest hr
      have h3 := h2 rest (LitFollow.ty hr.1)
      have h4 := pName_spelled (rest := ':' :: ((textTy (run h) o t).text ++ rest)) hn ((nextNot_cons _ _ _).2 (by decide))
      simp only [textExtColumn, Out.text_append, Out.text_s, List.append_assoc, List.cons_append, List.nil_append]
      simp [pExtColumn, pNamedColumn, h4, lit, h3, mapFst]
  | expr e =>
    obtain ⟨he, hc⟩ := hs
    obtain ⟨s, h1, h2⟩ := read_expr hA o e he
    obtain ⟨c, t, h3, h4, _⟩ := expr_head_exact hA o e he
    have hread : ∀ rest, ExprFollow rest → pExpr ((textExpr (run h) o e).text ++ rest) = some (s, rest) :=
      fun rest hr => h2 _ rest (by simp only [List.length_append]; omega) hr
    by_cases hs : ∃ i, s = .ref i
    · obtain ⟨i, rfl⟩ := hs
      obtain ⟨j, rfl⟩ := convExpr_ref_ok h1
      refine ⟨.ref i, ?_, ⟨c, t, h3, h4⟩, ?_⟩
      · simp only [convExpr, convExtColumn] at h1 ⊢
        obtain ⟨j', h5, h6⟩ := Res.bind_ok_iff.1 h1
        rw [h5]
        simp at h6 ⊢
        exact h6
      · intro rest hr
        have h5 := hread rest hr
        have htx : (textExpr (run h) o (.selection (.field j none))).text ++ rest = '$' :: (decInt j ++ rest) := by
          simp [textExpr, textFieldRef, textRef]
        have h6 := (pNamedColumn_expr hA o _ he rest hr).2 hc
        simp only [textExtColumn]
        rw [htx] at h5 h6 ⊢
        rw [pExpr, pExprN, lit_if_none (by decide), pCast_none (by decide), pCall_none_head (by decide)] at h5
        cases hp : pRef ('$' :: (decInt j ++ rest)) with
        | none =>
          rw [hp] at h5
          simp only [mapFst, Option.or] at h5
          cases hq : pLiteral ('$' :: (decInt j ++ rest)) with
          | none => rw [hq] at h5; simp at h5
          | some y => rw [hq] at h5; simp at h5
        | some y =>
          rw [hp] at h5
          simp [mapFst] at h5
          rw [pExtColumn, h6, hp]
          simp [mapFst, h5]
    · refine ⟨.expr s, by simp [convExtColumn, h1], ⟨c, t, h3, h4⟩, ?_⟩
      intro rest hr
      have h5 := hread rest hr
      simp only [textExtColumn]
      rw [pExtColumn, (pNamedColumn_expr hA o _ he rest hr).2 hc, h5]
      cases hp : pRef ((textExpr (run h) o e).text ++ rest) with
      | none => simp [mapFst]
      | some y =>
        exfalso
        apply hs
        have hd : ∃ u, (textExpr (run h) o e).text ++ rest = '$' :: u := by
          rw [h3] at hp ⊢
          by_cases hc : c = '$'
          · exact ⟨t ++ rest, by rw [hc]; rfl⟩
          · rw [List.cons_append, pRef_none hc] at hp; cases hp
        obtain ⟨u, hu⟩ := hd
        rw [hu] at h5 hp
        rw [pExpr, pExprN, lit_if_none (by decide), pCast_none (by decide), pCall_none_head (by decide), hp] at h5
        simp [mapFst] at h5
        exact ⟨_, h5.1.symm⟩

theorem ident_ascii {n : Str} (h : isIdentifier n = true) : Ascii n := by
  obtain ⟨c, t, rfl, h1, h2⟩ := (isIdentifier_iff n).1 h
  have key : ∀ d, isIdentChar d = true → 32 ≤ d.toNat ∧ d.toNat ≤ 126 := by
    intro d hd
    simp only [isIdentChar, isAlnum, isAlpha, isUpper, isLower, isDigit, Bool.or_eq_true, Bool.and_eq_true, decide_eq_true_eq, beq_iff_eq] at hd
    rcases hd with ((hd | hd) | hd) | rfl
    · omega
    · omega
    · omega
    · decide
  intro d hd
  rcases List.mem_cons.1 hd with rfl | hd
  · exact key _ (by simp [isIdentChar, isAlnum, h1])
  · exact key _ (h2 d hd)

theorem extColumn_parts {x r : Str} {s : SCol} (h : pExtColumn x = some (s, r)) :
    match s with
    | .named n t => pNamedColumn x = some ((n, t), r)
    | .ref i => pNamedColumn x = none ∧ pRef x = some (i, r)
    | .expr e => pNamedColumn x = none ∧ pExpr x = some (e, r) := by
  unfold pExtColumn at h
  have hnone : ∀ {α β : Type} {f : α → β} {q : Option (α × Str)}, mapFst f q = none → q = none := by
    intro α β f q hq
    cases q with
    | none => rfl
    | some y => cases hq
  rcases or_some h with h | ⟨hno, h⟩
  · rcases or_some h with h | ⟨hno, h⟩
    · obtain ⟨⟨n, t⟩, h1, rfl⟩ := mapFst_some h
      exact h1
    · obtain ⟨i, h1, rfl⟩ := mapFst_some h
      exact ⟨hnone hno, h1⟩
  · obtain ⟨i, h1, rfl⟩ := mapFst_some h
    refine ⟨?_, h1⟩
    cases hq : pNamedColumn x with
    | none => rfl
    | some y => rw [hq] at hno; cases hr : pRef x <;> rw [hr] at hno <;> simp [mapFst] at hno

/-- An output column that is read back survives. -/
theorem survives_column_of_read [UTab] [FTab] (hA : AsciiPrintable) (hF : FloatsShown) {h : List Op} (o : Opts) (c : ExtColumn)
    {rest r : Str} {s : SCol} (hr : ExprFollow rest)
    (hp : pExtColumn (skipSp ((textExtColumn (run h) o c).text ++ rest)) = some (s, r)) (hc : convExtColumn (run h) s = .ok c) :
    SurvivesColumn (run h) o c ∧ r = rest := by
  suffices hsv : SurvivesColumn (run h) o c by
    refine ⟨hsv, ?_⟩
    obtain ⟨s', h1⟩ := columnText_survives hA o c hsv
    rw [h1.starts.skip, h1.read rest hr] at hp
    injection hp with hp
    injection hp with _ hp
    exact hp.symm
  have hk := extColumn_parts hp
  cases s with
  | named n t =>
    rw [convExtColumn] at hc
    obtain ⟨t', h1, h2⟩ := Res.bind_ok_iff.1 hc
    cases h2
    simp only [textExtColumn, Out.text_append, Out.text_s, List.append_assoc] at hk
    have hsk : ∀ x, skipSp (showName n ++ x) = showName n ++ x := by
      intro x
      have := (showName_starts n x).skip []
      simpa using this
    rw [hsk] at hk
    unfold pNamedColumn at hk
    have h4 := pName_showName n (cs!":" ++ ((textTy (run h) o t').text ++ rest)) ((nextNot_cons _ _ _).2 (by decide))
    rw [h4] at hk
    simp only [Option.bind_eq_bind, Option.bind_some, List.cons_append, List.nil_append, lit_cons, if_true, lit_nil, Option.bind_eq_some_iff] at hk
    obtain ⟨⟨t2, r2⟩, h5, h6⟩ := hk
    injection h6 with h6
    injection h6 with h6 h7
    injection h6 with h6 h8
    subst h7 h8
    refine ⟨?_, survives_of_read o t' _ rest _ _ (by simp only [List.length_append]; omega) (LitFollow.ty hr.1) h5 h1⟩
    by_cases hi : isIdentifier n = true
    · exact (ident_ascii hi).spellable hA
    · rw [if_neg hi] at h6
      exact (unescape_escape_iff n).1 h6
  | ref i =>
    rw [convExtColumn] at hc
    obtain ⟨j, hj, h2⟩ := Res.bind_ok_iff.1 hc
    cases h2
    refine ⟨?_, trivial⟩
    have : convExpr (run h) (.ref i) = .ok (.selection (.field j none)) := by rw [convExpr, hj]; rfl
    have hi := convExpr_image (Store.ordered_run h) _ _ this
    rw [ExprImage] at hi
    rw [SurvivesExpr]
    exact hi
  | expr s =>
    rw [convExtColumn] at hc
    obtain ⟨e, hs, h2⟩ := Res.bind_ok_iff.1 hc
    cases h2
    simp only [textExtColumn] at hk
    rw [(starts_of_read hF o hk.2 hs).skip] at hk
    have hse := survives_expr_of_read hA hF o e _ rest _ s (by simp only [List.length_append]; omega) hr hk.2 hs
    exact ⟨hse, (pNamedColumn_expr hA o e hse rest hr).1 hk.1⟩

theorem columnTexts_survive [UTab] [FTab] (hA : AsciiPrintable) {h : List Op} (o : Opts) (l : List ExtColumn)
    (hs : ∀ c ∈ l, SurvivesColumn (run h) o c) : ∃ items : List (Str × SCol),
      items.map (·.1) = (l.map (textExtColumn (run h) o)).map Out.text ∧ ColumnTexts (run h) items l := by
  induction l with
  | nil => exact ⟨[], rfl, trivial⟩
  | cons p ps ih =>
    obtain ⟨a, ha⟩ := columnText_survives hA o p (hs p (by simp))
    obtain ⟨items, h1, h2⟩ := ih (fun q hq => hs q (by simp [hq]))
    exact ⟨(_, a) :: items, by simp [h1], ha, h2⟩

theorem convExtColumns_cons [FTab] {st : Store} {a : SCol} {l : List SCol} {vs : List ExtColumn} (h : convExtColumns st (a :: l) = .ok vs) :
    ∃ v vs', vs = v :: vs' ∧ convExtColumn st a = .ok v ∧ convExtColumns st l = .ok vs' := by
  rw [convExtColumns] at h
  obtain ⟨v, h1, h2⟩ := Res.bind_ok_iff.1 h
  obtain ⟨vs', h3, h2⟩ := Res.bind_ok_iff.1 h2
  cases h2
  exact ⟨v, vs', rfl, h1, h3⟩

/-- The columns behind commas. -/
theorem survives_columns_star [UTab] [FTab] (hA : AsciiPrintable) (hF : FloatsShown) {h : List Op} (o : Opts) {rest : Str}
    (hr : ExprFollow rest) : (cs : List ExtColumn) → ∀ (n : Nat) (r : Str) (l : List SCol),
      pStarN spCommaSp pExtColumn n (((cs.map (textExtColumn (run h) o)).map Out.text).flatMap (cs!", " ++ ·) ++ rest) = (l, r) →
      convExtColumns (run h) l = .ok cs → ∀ c ∈ cs, SurvivesColumn (run h) o c
  | [] => by simp
  | c :: cs => by
    intro n r l hp hc
    cases l with
    | nil => cases hc
    | cons s l =>
      obtain ⟨c', cs', he, h1, h2⟩ := convExtColumns_cons hc
      injection he with he1 he2
      subst he1 he2
      cases n with
      | zero => simp [pStarN] at hp
      | succ n =>
        have hfl : ExprFollow (((cs.map (textExtColumn (run h) o)).map Out.text).flatMap (cs!", " ++ ·) ++ rest) := by
          cases cs with
          | nil => exact hr
          | cons w vs => exact exprFollow_comma _
        have hx : (((c :: cs).map (textExtColumn (run h) o)).map Out.text).flatMap (cs!", " ++ ·) ++ rest =
            cs!", " ++ ((textExtColumn (run h) o c).text ++ (((cs.map (textExtColumn (run h) o)).map Out.text).flatMap (cs!", " ++ ·) ++ rest)) := by
          simp
        rw [hx, pStarN, spCommaSp_skip] at hp
        simp only at hp
        cases hpp : pExtColumn (skipSp ((textExtColumn (run h) o c).text ++ (((cs.map (textExtColumn (run h) o)).map Out.text).flatMap (cs!", " ++ ·) ++ rest))) with
        | none => rw [hpp] at hp; cases hp
        | some w =>
          obtain ⟨s', s2⟩ := w
          rw [hpp] at hp
          simp only [Prod.mk.injEq, List.cons.injEq] at hp
          obtain ⟨⟨rfl, hss⟩, hr'⟩ := hp
          obtain ⟨h3, rfl⟩ := survives_column_of_read hA hF o c hfl hpp h1
          have := survives_columns_star hA hF o hr cs _ _ _ (Prod.ext hss hr') h2
          intro q hq
          rcases List.mem_cons.1 hq with rfl | hq
          · exact h3
          · exact this q hq

/-! ## Names of relations -/

theorem quotedBody_iff (b : Str) : QuotedBody b ↔ QBody '"' b := by
  constructor
  · intro hb
    induction hb with
    | nil => trivial
    | plain c s h1 h2 _ ih =>
      have : QBody '"' (c :: s) = (c ≠ '"' ∧ QBody '"' s) := by
        rw [QBody.eq_4]
        · rintro rfl; exact absurd rfl h2
        · rintro d t rfl; exact absurd rfl h2
      rw [this]
      exact ⟨h1, ih⟩
    | escaped c s _ ih => simpa [QBody] using ih
  · intro hb
    fun_induction QBody '"' b with
    | case1 => exact .nil
    | case2 => exact hb.elim
    | case3 c s ih => exact .escaped c s (ih hb)
    | case4 c s h1 h2 ih =>
      have hc : c ≠ '\\' := by
        rintro rfl
        cases s with
        | nil => exact h1 rfl rfl
        | cons d s => exact h2 d s rfl rfl
      exact .plain c s hb.1 hc (ih hb.2)

theorem pIdent_append_eq {x w r : Str} (h : pIdent x = some (w, r)) : x = w ++ r := by
  unfold pIdent at h
  split at h
  · cases h
  · next c s =>
    split at h
    · injection h with h
      injection h with h1 h2
      rw [← h1, ← h2]
      simp
    · cases h

theorem pRawName_read [UTab] {n : Str} (hn : SurvivesRelName n) {c : Char} (hc : isIdentChar c = false) (x : Str) :
    pRawName (n ++ c :: x) = some (n, c :: x) := by
  rcases hn with hi | ⟨b, hb, rfl⟩
  · exact pRawName_ident hi ((nextNot_cons _ _ _).2 hc)
  · have h1 : pName ('"' :: (b ++ ['"']) ++ c :: x) = some (unescape b, c :: x) := by
      have h2 : pIdent ('"' :: (b ++ ['"']) ++ c :: x) = none := by
        simp [pIdent, isAlpha, isUpper, isLower]
      unfold pName
      rw [h2]
      have := pQuoted_body '"' (by decide) b (c :: x) ((quotedBody_iff b).1 hb)
      simp [pQuotedName, this]
    unfold pRawName
    rw [h1, Option.map_some]
    simp only [List.length_append (as := '"' :: (b ++ ['"'])), Nat.add_sub_cancel, List.take_left]

/-- The name of a relation is read as it is written exactly if it is an identifier or quoted. -/
theorem pRawName_iff [UTab] (n : Str) {c : Char} (hc : isIdentChar c = false) (x : Str) :
    (∃ r, pRawName (n ++ c :: x) = some (n, r)) ↔ SurvivesRelName n := by
  constructor
  · rintro ⟨r, hp⟩
    unfold pRawName at hp
    rw [Option.map_eq_some_iff] at hp
    obtain ⟨⟨v, r'⟩, h1, h2⟩ := hp
    injection h2 with h2 h3
    simp only at h3
    subst h3
    unfold pName at h1
    split at h1
    · next w hw =>
      cases h1
      have h4 := pIdent_append_eq hw
      rw [h4] at h2
      simp at h2
      exact .inl (h2 ▸ pIdent_is hw)
    · unfold pQuotedName at h1
      split at h1
      · cases h1
      · next s hs =>
        split at h1
        · cases h1
        · next b r' hq =>
          cases h1
          have h4 := lit_some hs
          obtain ⟨h5, h6⟩ := pQuoted_some '"' (by decide) _ _ _ hq
          refine .inr ⟨b, (quotedBody_iff b).2 h6, ?_⟩
          have h7 : n ++ c :: x = '"' :: (b ++ ['"']) ++ r' := by rw [h4, h5]; simp
          rw [h7] at h2
          simp only [List.length_append (as := '"' :: (b ++ ['"'])), Nat.add_sub_cancel, List.take_left] at h2
          exact h2.symm
  · intro hn
    exact ⟨c :: x, pRawName_read hn hc x⟩

/-! ## Relation lines -/

theorem extRel_parts {x r : Str} {k : ExtKind} {nm : Str} {sa : SArgs} {cols : List SCol} (h : pExtRel x = some (.ext k nm sa cols, r)) :
    ∃ s1 s2 s3 s4, pExtKind x = some (k, s1) ∧ lit cs!":" s1 = some s2 ∧ pRawName s2 = some (nm, s3) ∧ lit cs!"[" s3 = some s4 ∧
      (pExtArgs (skipSp s4)).1 = sa ∧ ((pOpt pExtColumns (pExtArgs (skipSp s4)).2).1).getD [] = cols ∧
      lit cs!"]" (pOpt pExtColumns (pExtArgs (skipSp s4)).2).2 = some r := by
  unfold pExtRel at h
  simp only [Option.bind_eq_bind, Option.bind_eq_some_iff] at h
  obtain ⟨⟨k', s1⟩, h1, s2, h2, ⟨nm', s3⟩, h3, s4, h4, s5, h5, h6⟩ := h
  injection h6 with h6
  injection h6 with h6 h7
  injection h6 with h6 h8 h9 h10
  subst h6 h7 h8
  exact ⟨s1, s2, s3, s4, h1, h2, h3, h4, h9, h10, h5⟩

/-- The text of the line of an extension relation. -/
def extLine [UTab] [FTab] (st : Store) (o : Opts) (kind : ExtKind) (name : Str) (a : ExtArgs) : Str :=
  kind.spell ++ ':' :: (name ++ '[' ::
    ((textArgList (textExtValues st o a.positional) (a.named.map (textNamed st o))).text ++
      (cs!" => " ++ (joinS cs!", " ((a.columns.map (textExtColumn st o)).map Out.text) ++ cs!"]"))))

theorem relation_of_read [UTab] [FTab] (hA : AsciiPrintable) (hF : FloatsShown) {h : List Op} (o : Opts) (kind : ExtKind) (name : Str)
    (a : ExtArgs) {rest r : Str} {sa : SArgs} {cols : List SCol}
    (hp : pExtRel (extLine (run h) o kind name a ++ rest) = some (.ext kind name sa cols, r))
    (hlen : sa.named.length = a.named.length) (hc : convExtArgs (run h) sa cols = .ok a) :
    SurvivesRelName name ∧ SurvivesList (run h) o a.positional a.named ∧ ∀ c ∈ a.columns, SurvivesColumn (run h) o c := by
  unfold convExtArgs at hc
  obtain ⟨ps, hc1, hc⟩ := Res.bind_ok_iff.1 hc
  obtain ⟨ns, hc2, hc⟩ := Res.bind_ok_iff.1 hc
  obtain ⟨cs, hc3, hc⟩ := Res.bind_ok_iff.1 hc
  cases hc
  simp only at hlen
  generalize hcol : cs!" => " ++ (joinS cs!", " ((cs.map (textExtColumn (run h) o)).map Out.text) ++ ']' :: rest) = tail
  have htx : extLine (run h) o kind name ⟨ps, ns, cs⟩ ++ rest = kind.spell ++ ':' :: (name ++ '[' ::
        ((textArgList (textExtValues (run h) o ps) (ns.map (textNamed (run h) o))).text ++ tail)) := by
    rw [← hcol]
    simp [extLine]
  rw [htx] at hp
  obtain ⟨s1, s2, s3, s4, h1, h2, h3, h4, h5, h6, h7⟩ := extRel_parts hp
  rw [pExtKind_spell] at h1
  cases h1
  rw [lit_cons, if_pos rfl, lit_nil] at h2
  cases h2
  have hrn := (pRawName_iff name (c := '[') (by decide) _).1 ⟨_, h3⟩
  refine ⟨hrn, ?_⟩
  have hs3 : s3 = '[' :: ((textArgList (textExtValues (run h) o ps) (ns.map (textNamed (run h) o))).text ++ tail) := by
    have hread : pRawName (name ++ '[' :: ((textArgList (textExtValues (run h) o ps) (ns.map (textNamed (run h) o))).text ++ tail)) =
      some (name, '[' :: ((textArgList (textExtValues (run h) o ps) (ns.map (textNamed (run h) o))).text ++ tail)) := pRawName_read hrn (by decide) _
    rw [hread] at h3
    cases h3
    rfl
  subst hs3
  rw [lit_cons, if_pos rfl, lit_nil] at h4
  cases h4
  have hend : ArgsEnd tail := by rw [← hcol]; exact argsEnd_arrow _
  obtain ⟨hl, hrr⟩ := survives_list_of_read hA hF o ps ns hend (Prod.ext h5 (Eq.refl (pExtArgs (skipSp ((textArgList (textExtValues (run h) o ps) (ns.map (textNamed (run h) o))).text ++ tail))).2)) hlen hc1 hc2
  refine ⟨hl, ?_⟩
  generalize hg : pExtArgs (skipSp ((textArgList (textExtValues (run h) o ps) (ns.map (textNamed (run h) o))).text ++ tail)) = g at h5 h6 hrr
  obtain ⟨g1, g2⟩ := g
  simp only at h6 hrr
  subst hrr
  clear hg hp htx h7 h3 hend
  cases cs with
  | nil => simp
  | cons c cs =>
    have hopt : ∃ q, pExtColumns g2 = some q ∧ q.1 = cols := by
      unfold pOpt at h6
      cases hq : pExtColumns g2 with
      | none => rw [hq] at h6; subst h6; cases hc3
      | some q => rw [hq] at h6; exact ⟨q, rfl, h6⟩
    obtain ⟨q, hq, rfl⟩ := hopt
    unfold pExtColumns at hq
    simp only [Option.bind_eq_bind, Option.bind_eq_some_iff] at hq
    obtain ⟨y, h8, h9⟩ := hq
    generalize hy : joinS cs!", " (((c :: cs).map (textExtColumn (run h) o)).map Out.text) ++ ']' :: rest = z at hcol
    have hyz : y = skipSp z := by
      rw [← hcol] at h8
      unfold pArrow at h8
      have e1 : skipSp (cs!" => " ++ z) = '=' :: '>' :: ' ' :: z := by simp [skipSp]
      have e2 : skipSp (' ' :: z) = skipSp z := by simp [skipSp]
      rw [e1] at h8
      simpa [lit, e2] using h8.symm
    subst hyz
    injection h9 with h9
    subst h9
    have hx : z = (textExtColumn (run h) o c).text ++ (((cs.map (textExtColumn (run h) o)).map Out.text).flatMap (cs!", " ++ ·) ++ ']' :: rest) := by
      rw [← hy]
      simp [joinS_cons]
    unfold pSep pSep1 at hc3
    have hfl : ExprFollow (((cs.map (textExtColumn (run h) o)).map Out.text).flatMap (cs!", " ++ ·) ++ ']' :: rest) := by
      cases cs with
      | nil => exact exprFollow_bracket _
      | cons w vs => exact exprFollow_comma _
    cases hpp : pExtColumn (skipSp z) with
    | none => rw [hpp] at hc3; cases hc3
    | some w =>
      obtain ⟨s', s2⟩ := w
      rw [hpp] at hc3
      simp only at hc3
      obtain ⟨c', cs', he, h10, h11⟩ := convExtColumns_cons hc3
      injection he with he1 he2
      subst he1 he2
      rw [hx] at hpp
      obtain ⟨h12, rfl⟩ := survives_column_of_read hA hF o c hfl hpp h10
      have := survives_columns_star hA hF o (exprFollow_bracket rest) cs _ _ _ (Prod.ext rfl rfl) h11
      intro q hq
      rcases List.mem_cons.1 hq with rfl | hq
      · exact h12
      · exact this q hq

theorem relation_read [UTab] [FTab] (hA : AsciiPrintable) {h : List Op} (o : Opts) (kind : ExtKind) (name : Str)
    (a : ExtArgs) (hn : SurvivesRelName name) (hs : SurvivesList (run h) o a.positional a.named)
    (hcs : ∀ c ∈ a.columns, SurvivesColumn (run h) o c) :
    ∃ (sa : SArgs) (cols : List SCol), sa.named.length = a.named.length ∧ convExtArgs (run h) sa cols = .ok a ∧ ∀ rest,
      pExtRel (extLine (run h) o kind name a ++ rest) = some (.ext kind name sa cols, rest) := by
  obtain ⟨sa, h0, h1, h2, h3⟩ := pExtArgs_survives hA o a.positional a.named hs
  obtain ⟨items, h4, h5⟩ := columnTexts_survive hA o a.columns hcs
  refine ⟨sa, items.map (·.2), h0, by simp [convExtArgs, h1, h2, h5.conv], ?_⟩
  intro rest
  have htx : extLine (run h) o kind name a ++ rest = kind.spell ++ ':' :: (name ++ '[' ::
      ((textArgList (textExtValues (run h) o a.positional) (a.named.map (textNamed (run h) o))).text ++
        (cs!" => " ++ (joinS cs!", " (items.map (·.1)) ++ ']' :: rest)))) := by
    rw [h4]
    simp [extLine]
  have h6 := h3 _ (argsEnd_arrow (joinS cs!", " (items.map (·.1)) ++ ']' :: rest))
  have h7 := pExtColumns_text h5 rest
  have h8 : ∀ r, skipSp ((textArgList (textExtValues (run h) o a.positional) (a.named.map (textNamed (run h) o))).text ++ r) =
      (textArgList (textExtValues (run h) o a.positional) (a.named.map (textNamed (run h) o))).text ++ r := by
    intro r
    obtain ⟨hp, hnm, -, -⟩ := hs
    obtain ⟨pi, hp1, hp2⟩ := argTexts_survive hA o a.positional hp
    obtain ⟨ni, hn1, hn2⟩ := namedReads hA o a.named hnm
    unfold textArgList
    split
    · exact skipSp_cons _ _ (by decide)
    · rename_i hne
      rw [Out.text_sep, List.map_append, ← hp1, ← hn1]
      cases pi with
      | cons i l =>
        obtain ⟨v, hv⟩ := hp2.mem i (by simp)
        simp only [List.map_cons, List.cons_append, joinS_cons, List.append_assoc]
        exact hv.starts'.skip _
      | nil =>
        cases ni with
        | cons i l =>
          obtain ⟨v, hv⟩ := hn2.mem i (by simp)
          simp only [List.map_nil, List.nil_append, List.map_cons, joinS_cons, List.append_assoc]
          exact hv.starts'.skip _
        | nil =>
          exfalso; apply hne
          simp only [List.map_nil] at hp1 hn1
          exact ⟨List.map_eq_nil_iff.1 hp1.symm, List.map_eq_nil_iff.1 hn1.symm⟩
  have h9 := pRawName_read hn (c := '[') (by decide)
    ((textArgList (textExtValues (run h) o a.positional) (a.named.map (textNamed (run h) o))).text ++
      (cs!" => " ++ (joinS cs!", " (items.map (·.1)) ++ ']' :: rest)))
  rw [htx]
  simp only [pExtRel, pExtKind_spell, Option.bind_eq_bind, Option.bind_some, lit_cons, if_true, lit_nil, h9, h8, h6, pOpt, h7]
  simp

end Verif
