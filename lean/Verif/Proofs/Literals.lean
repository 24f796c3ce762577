import Verif.Spec.Literals
import Verif.Proofs.Chrono
import Verif.Proofs.Escape
import Verif.Proofs.Types
/-! # Literals survive printing and parsing -/

namespace Verif
open TextSpec

@[simp] theorem textValue_null [UTab] [FTab] (o : Opts) (t : Ty) : textValue o (.null t) = .s cs!"null" := rfl

set_option autoImplicit false

/-! ## ASCII texts -/

/-- All characters are printable ASCII. -/
def Ascii (s : Str) : Prop := ∀ c ∈ s, 32 ≤ c.toNat ∧ c.toNat ≤ 126

theorem Ascii.append {a b : Str} (ha : Ascii a) (hb : Ascii b) : Ascii (a ++ b) := by
  intro c hc
  rcases List.mem_append.1 hc with h | h
  · exact ha c h
  · exact hb c h

theorem Ascii.cons {c : Char} {s : Str} (hc : 32 ≤ c.toNat ∧ c.toNat ≤ 126) (hs : Ascii s) : Ascii (c :: s) := by
  intro d hd
  rcases List.mem_cons.1 hd with rfl | h
  · exact hc
  · exact hs d h

theorem Ascii.nil : Ascii [] := by intro c hc; cases hc

theorem Ascii.digits {s : Str} (h : ∀ c ∈ s, isDigit c = true) : Ascii s := by
  intro c hc
  have := h c hc
  simp only [isDigit, Bool.and_eq_true, decide_eq_true_eq] at this
  omega

theorem Ascii.spellable [UTab] (hA : AsciiPrintable) {s : Str} (h : Ascii s) : Spellable s := by
  have key : ∀ c ∈ s, ∀ b, SpellChar b c := by
    intro c hc b
    obtain ⟨h1, h2⟩ := h c hc
    obtain ⟨h3, h4⟩ := hA c h1 h2
    refine Or.inr ⟨?_, h3, fun _ => h4⟩
    rintro rfl
    exact absurd h1 (by decide)
  cases s with
  | nil => trivial
  | cons c s => exact ⟨key c (by simp) true, fun d hd => key d (by simp [hd]) false⟩

theorem ascii_pad (w n : Nat) : Ascii (pad w n) := .digits (pad_digits w n)

theorem ascii_showDate (t : Date) : Ascii (showDate t) := by
  unfold showDate showYear
  refine .append (.append (.append (.append ?_ ?_) (ascii_pad _ _)) ?_) (ascii_pad _ _)
  · split
    · exact ascii_pad _ _
    · split
      · exact .cons (by decide) (ascii_pad _ _)
      · exact .cons (by decide) (ascii_pad _ _)
  · exact .cons (by decide) .nil
  · exact .cons (by decide) .nil

theorem ascii_showTime (p : Int) (ns : Nat) : Ascii (showTime p ns) := by
  unfold showTime showFrac
  refine .append (.append (.append (.append (.append (ascii_pad _ _) ?_) (ascii_pad _ _)) ?_) (ascii_pad _ _)) ?_
  · exact .cons (by decide) .nil
  · exact .cons (by decide) .nil
  · repeat' split
    all_goals first | exact .nil | exact .cons (by decide) (ascii_pad _ _)

theorem ascii_decInt (i : Int) : Ascii (decInt i) := by
  unfold decInt
  split
  · exact .cons (by decide) (.digits (dec_all_digits _))
  · exact .digits (dec_all_digits _)

/-! ## Values -/

/-- What would continue a number. -/
def numContinues (c : Char) : Bool := isDigit c || c == '.'

theorem pFloat_int (i : Int) (rest : Str) (h : NextNot numContinues rest) :
    pFloat (decInt i ++ rest) = none := by
  have hd : NextNot isDigit rest := h.mono (by intro c hc; simp [numContinues, hc])
  have hp := pDigits_dec i.natAbs rest hd
  have hl : lit cs!"." rest = none := lit_none_of_next h (by decide)
  unfold pFloat decInt
  by_cases hi : i < 0
  · simp [hi, pMinus, hp, hl]
  · simp [hi, pMinus_dec, hp, hl]

theorem pValue_int (i : Int) (rest : Str) (h : NextNot numContinues rest) :
    pValue (decInt i ++ rest) = some (.int (IntTok.ofInt i), rest) := by
  have hd : NextNot isDigit rest := h.mono (by intro c hc; simp [numContinues, hc])
  unfold pValue
  rw [pFloat_int i rest h, pInteger_decInt i rest hd]
  rfl

theorem pFloat_text (x rest : Str) (hx : FloatText x) (h : NextNot isDigit rest) :
    pFloat (x ++ rest) = some (x, rest) := by
  obtain ⟨neg, ds, fs, h1, h2, h3, h4, rfl⟩ := hx
  have hdot : NextNot isDigit ('.' :: (fs ++ rest)) := (nextNot_cons _ _ _).2 (by decide)
  have hp := pDigits_append ds ('.' :: (fs ++ rest)) h1 h3 hdot
  have hq := pDigits_append fs rest h2 h4 h
  have hm : pMinus (ds ++ '.' :: (fs ++ rest)) = (false, ds ++ '.' :: (fs ++ rest)) := by
    cases ds with
    | nil => exact absurd rfl h1
    | cons c ds => exact pMinus_of_digit (h3 c (by simp))
  unfold pFloat
  cases neg with
  | true => simp [pMinus, hp, hq]
  | false => simp [hm, hp, hq]

theorem pValue_float (x rest : Str) (hx : FloatText x) (h : NextNot numContinues rest) :
    pValue (x ++ rest) = some (.float x, rest) := by
  have hd : NextNot isDigit rest := h.mono (by intro c hc; simp [numContinues, hc])
  unfold pValue
  rw [pFloat_text x rest hx hd]
  rfl

theorem pDigits_none {c : Char} {s : Str} (h : isDigit c = false) : pDigits (c :: s) = none := by
  simp [pDigits, h]

theorem pFloat_head {c : Char} {s : Str} (h : isDigit c = false) (h' : c ≠ '-') : pFloat (c :: s) = none := by
  have hm : pMinus (c :: s) = (false, c :: s) := by
    unfold pMinus; split
    · rename_i heq; exact absurd (List.cons.inj heq).1 h'
    · rfl
  simp [pFloat, hm, pDigits_none h]

theorem pInteger_head {c : Char} {s : Str} (h : isDigit c = false) (h' : c ≠ '-') : pInteger (c :: s) = none := by
  have hm : pMinus (c :: s) = (false, c :: s) := by
    unfold pMinus; split
    · rename_i heq; exact absurd (List.cons.inj heq).1 h'
    · rfl
  simp [pInteger, hm, pDigits_none h]

theorem pValue_bool (b : Bool) (rest : Str) :
    pValue ((if b then cs!"true" else cs!"false") ++ rest) = some (.bool b, rest) := by
  unfold pValue
  cases b with
  | true =>
    have h1 : pFloat (cs!"true" ++ rest) = none := pFloat_head (by decide) (by decide)
    have h2 : pInteger (cs!"true" ++ rest) = none := pInteger_head (by decide) (by decide)
    simp only [if_true]
    rw [h1, h2]
    simp [mapFst, pBoolean]
  | false =>
    have h1 : pFloat (cs!"false" ++ rest) = none := pFloat_head (by decide) (by decide)
    have h2 : pInteger (cs!"false" ++ rest) = none := pInteger_head (by decide) (by decide)
    simp only [Bool.false_eq_true, if_false]
    rw [h1, h2]
    simp [mapFst, pBoolean]

theorem pValue_null (rest : Str) : pValue (cs!"null" ++ rest) = some (.null, rest) := by
  have h1 : pFloat (cs!"null" ++ rest) = none := pFloat_head (by decide) (by decide)
  have h2 : pInteger (cs!"null" ++ rest) = none := pInteger_head (by decide) (by decide)
  unfold pValue
  rw [h1, h2]
  simp [mapFst, pBoolean, pString, pNull]

theorem pValue_string [UTab] (s rest : Str) (h : Spellable s) :
    pValue (showString s ++ rest) = some (.str s, rest) := by
  have h1 : pFloat (showString s ++ rest) = none := pFloat_head (by decide) (by decide)
  have h2 : pInteger (showString s ++ rest) = none := pInteger_head (by decide) (by decide)
  have h3 : pBoolean (showString s ++ rest) = none := by
    simp [showString, pBoolean]
  unfold pValue
  rw [h1, h2, h3, pString_showString, (unescape_escape_iff s).2 h]
  rfl

/-! ## The type suffix -/

/-- What would continue a literal. -/
abbrev LitFollow (s : Str) : Prop := NextNot litContinues s

theorem LitFollow.ty {s : Str} (h : LitFollow s) : TyFollow s :=
  h.mono (by intro c hc; simp [litContinues, hc])

theorem LitFollow.num {s : Str} (h : LitFollow s) : NextNot numContinues s :=
  h.mono (by
    intro c hc
    simp only [numContinues, Bool.or_eq_true] at hc
    rcases hc with hc | hc
    · simp [litContinues, typeContinues, isDigit_ident hc]
    · simp [litContinues, hc])

/-- The type whose text is the suffix of a literal. -/
def Lit.ty (nullable : Bool) : Lit → Ty
  | .bool _ => .simple .boolean (if nullable then .nullable else .required) 0
  | .int .i8 _ => .simple .i8 (if nullable then .nullable else .required) 0
  | .int .i16 _ => .simple .i16 (if nullable then .nullable else .required) 0
  | .int .i32 _ => .simple .i32 (if nullable then .nullable else .required) 0
  | .int .i64 _ => .simple .i64 (if nullable then .nullable else .required) 0
  | .fp32 _ => .simple .fp32 (if nullable then .nullable else .required) 0
  | .fp64 _ => .simple .fp64 (if nullable then .nullable else .required) 0
  | .string _ => .simple .string (if nullable then .nullable else .required) 0
  | .binary _ => .simple .binary (if nullable then .nullable else .required) 0
  | .date _ => .simple .date (if nullable then .nullable else .required) 0
  | .time _ => .simple .time (if nullable then .nullable else .required) 0
  | .timestamp _ => .simple .timestamp (if nullable then .nullable else .required) 0
  | .prec k p _ => .prec k p (if nullable then .nullable else .required) 0
  | .interval i => .intervalDay (some i.units.1) (if nullable then .nullable else .required) 0
  | .null _ => .missing
  | .other _ => .missing

theorem textSuffix_ty (st : Store) (o : Opts) (l : Lit) (nullable : Bool) (h : l.suffix.isSome = true) :
    (textSuffix l nullable).text = ':' :: (textTy st o (l.ty nullable)).text := by
  unfold textSuffix
  cases l with
  | int w i =>
    cases w <;> cases nullable <;>
      simp [Lit.suffix, Lit.ty, textTy, textifyType, textNul, textVariation, textParamList,
        SimpleKind.name]
  | prec k p v =>
    cases k <;> cases nullable <;>
      simp [Lit.suffix, Lit.ty, textTy, textifyType, textNul, textVariation, textParamList, PrecKind.name,
        Out.sep, textIntParam]
  | null t => cases h
  | other v => cases h
  | _ =>
    cases nullable <;>
      simp [Lit.suffix, Lit.ty, textTy, textifyType, textNul, textVariation, textParamList,
        SimpleKind.name, Out.sep, textIntParam]

theorem pAscription_text {st : Store} (hst : st.Ordered) (o : Opts) (ho : o.anchors ≠ .never) (t : Ty)
    (h : Writable st t) : ∃ s, convTy st s = .ok t ∧
      ∀ rest, TyFollow rest → pAscription (':' :: ((textTy st o t).text ++ rest)) = some (s, rest) := by
  obtain ⟨s, h1, h2⟩ := pType_text hst o ho t h
  obtain ⟨c, r, hr, hc⟩ := writable_head hst o ho t h
  refine ⟨s, h1, fun rest hf => ?_⟩
  have hs : skipSp ((textTy st o t).text ++ rest) = (textTy st o t).text ++ rest := by
    rw [hr]
    apply skipSp_cons
    rintro rfl
    exact absurd hc (by decide)
  unfold pAscription
  simp only [lit_cons, if_true, lit_nil, Option.bind_eq_bind, Option.bind_some]
  rw [hs, h2 rest hf]

/-- A literal with its suffix shown. -/
theorem pLiteral_suffix {st : Store} (hst : st.Ordered) (o : Opts) (ho : o.anchors ≠ .never)
    (vt : Str) (sv : SVal) (t : Ty) (ht : Writable st t)
    (hv : ∀ r, NextNot numContinues r → pValue (vt ++ r) = some (sv, r)) :
    ∃ s, convTy st s = .ok t ∧ ∀ rest, LitFollow rest →
      pLiteral (vt ++ ':' :: (textTy st o t).text ++ rest) = some (⟨sv, some s⟩, rest) := by
  obtain ⟨s, h1, h2⟩ := pAscription_text hst o ho t ht
  refine ⟨s, h1, fun rest hf => ?_⟩
  unfold pLiteral
  rw [List.append_assoc, List.cons_append, hv _ ((nextNot_cons _ _ _).2 (by decide))]
  simp only [Option.bind_eq_bind, Option.bind_some, pOpt]
  rw [h2 rest hf.ty]

/-- A literal without suffix. -/
theorem pLiteral_plain (vt : Str) (sv : SVal)
    (hv : ∀ r, NextNot numContinues r → pValue (vt ++ r) = some (sv, r)) (rest : Str) (hf : LitFollow rest) :
    pLiteral (vt ++ rest) = some (⟨sv, none⟩, rest) := by
  have : pAscription rest = none := by
    unfold pAscription
    rw [lit_none_of_next hf (by decide)]
    rfl
  unfold pLiteral
  rw [hv rest hf.num]
  simp [pOpt, this]

/-! ## Day intervals -/

theorem pTerm_decInt (u : Str) (i : Int) (w : Str) (h : NextNot isDigit w) :
    pTerm u (decInt i ++ w) = (lit u w).map fun r => (IntTok.ofInt i, r) := by
  unfold pTerm
  rw [pInteger_decInt i w h]
  simp only [Option.bind_eq_bind, Option.bind_some]
  cases lit u w <;> rfl

theorem pSub_decInt (i : Int) (w : Str) (h : NextNot isDigit w) :
    pSub (decInt i ++ w) = (pFirst [cs!"ms", cs!"us", cs!"ns", cs!"ps"] w).map
      fun r => ((IntTok.ofInt i, r.1), r.2) := by
  unfold pSub
  rw [pInteger_decInt i w h]
  simp only [Option.bind_eq_bind, Option.bind_some]
  cases pFirst [cs!"ms", cs!"us", cs!"ns", cs!"ps"] w <;> rfl

/-- The written days, seconds and sub-seconds. -/
def SDur.denote (d : SDur) : Int × Int × Int :=
  ((d.days.map IntTok.toInt).getD 0, (d.secs.map IntTok.toInt).getD 0,
    (d.sub.map fun x => x.1.toInt).getD 0)

theorem Precision.unit_cases (pr : Precision) (u : Str) (h : pr.subsecondUnit = some u) :
    u = cs!"ms" ∨ u = cs!"us" ∨ u = cs!"ns" ∨ u = cs!"ps" := by
  cases pr <;> simp [Precision.subsecondUnit] at h <;> simp [← h]

theorem Precision.fromSub_unit (pr : Precision) (u : Str) (h : pr.subsecondUnit = some u) :
    Precision.fromSubsecondUnit u = some pr := by
  cases pr <;> simp [Precision.subsecondUnit] at h <;> subst h <;> decide

/-- The tree read from a printed interval. -/
theorem pDuration_terms (d s b : Int) (u : Str)
    (hu : u = cs!"ms" ∨ u = cs!"us" ∨ u = cs!"ns" ∨ u = cs!"ps") :
    (∃ t, pDuration (joinTerms (Interval.wholeTerms ⟨d, s, b, .unset⟩)) = some t ∧
      t.days.getD (.ofInt 0) = .ofInt d ∧ t.secs.getD (.ofInt 0) = .ofInt s ∧ t.sub = none) ∧
    (∃ t, pDuration (joinTerms (Interval.wholeTerms ⟨d, s, b, .unset⟩ ++ [decInt b ++ u])) = some t ∧
      t.days.getD (.ofInt 0) = .ofInt d ∧ t.secs.getD (.ofInt 0) = .ofInt s ∧
      t.sub = some (.ofInt b, u)) := by
  have hd : ∀ (c : Char) (r : Str), isDigit c = false → NextNot isDigit (c :: r) :=
    fun c r h => (nextNot_cons _ _ _).2 h
  have hz : decInt 0 = cs!"0" := by decide +kernel
  have hz' : pTerm cs!"d" cs!"0s" = none := by decide +kernel
  have hz'' : pTerm cs!"s" cs!"0s" = some (IntTok.ofInt 0, []) := by decide +kernel
  unfold Interval.wholeTerms pDuration pDurBody
  by_cases h1 : d = 0 <;> by_cases h2 : s = 0 <;> simp [h1, h2, joinTerms] <;>
    rcases hu with rfl | rfl | rfl | rfl <;>
    simp [pTerm_decInt, pSub_decInt, hd, isDigit, pOpt, spThen, pFirst, complete, mapFst, hz', hz'']

theorem ofInt_toI32 {i : Int} (h : InI32 i) : (IntTok.ofInt i).toI32 = some i := by
  unfold IntTok.toI32; rw [IntTok.toInt_ofInt, if_pos ⟨h.1, h.2⟩]

theorem ofInt_toI64 {i : Int} (h : InI64 i) : (IntTok.ofInt i).toI64 = some i := by
  unfold IntTok.toI64; rw [IntTok.toInt_ofInt, if_pos ⟨h.1, h.2⟩]

theorem fitOr_getD {i : Int} {conv : IntTok → Option Int} (t : Option IntTok)
    (h0 : conv (.ofInt 0) = some 0) (h : t.getD (.ofInt 0) = .ofInt i) (hc : conv (.ofInt i) = some i) :
    fitOr conv t = .ok i := by
  cases t with
  | none =>
    simp only [Option.getD_none] at h
    rw [← h, h0] at hc
    cases hc; rfl
  | some t =>
    simp only [Option.getD_some] at h
    simp [fitOr, h, hc]

theorem fromUnits_mem {p : Int} (h : p ∈ [(0 : Int), 3, 6, 9, 12]) :
    ∃ pr, Precision.fromUnits p = some pr ∧ pr.units = p := by
  simp only [List.mem_cons, List.not_mem_nil, or_false] at h
  rcases h with rfl | rfl | rfl | rfl | rfl <;> exact ⟨_, rfl, rfl⟩

theorem ascii_joinTerms (l : List Str) (h : ∀ t ∈ l, Ascii t) : Ascii (joinTerms l) := by
  fun_induction joinTerms l with
  | case1 => exact .cons (by decide) (.cons (by decide) .nil)
  | case2 a => exact h a (by simp)
  | case3 a b l ih =>
    exact .append (.append (h a (by simp)) (.cons (by decide) .nil)) (ih fun t ht => h t (List.mem_cons_of_mem _ ht))

theorem ascii_wholeTerms (i : Interval) : ∀ t ∈ i.wholeTerms, Ascii t := by
  intro t ht
  unfold Interval.wholeTerms at ht
  rcases List.mem_append.1 ht with ht | ht <;> split at ht <;> simp at ht <;> subst ht <;>
    exact .append (ascii_decInt _) (.cons (by decide) .nil)

/-- A printed interval is read back at its precision. -/
theorem readInterval_text [UTab] (i : Interval) (p : Int) (hm : i.mode = .precision p)
    (hp : p ∈ [(0 : Int), 3, 6, 9, 12]) (h0 : p = 0 → i.sub = 0) (hd : InI32 i.days) (hs : InI32 i.secs)
    (hb : InI64 i.sub) :
    ∃ x pr, (textInterval i).text = showString x ∧ Ascii x ∧ Precision.fromUnits p = some pr ∧
      readInterval x pr = .ok i := by
  obtain ⟨d, s, b, m⟩ := i
  simp only at hm h0 hd hs hb
  subst hm
  obtain ⟨pr, hpr, hpu⟩ := fromUnits_mem hp
  have hw : Interval.wholeTerms ⟨d, s, b, .precision p⟩ = Interval.wholeTerms ⟨d, s, b, .unset⟩ := rfl
  have z32 : (IntTok.ofInt 0).toI32 = some 0 := by decide
  unfold textInterval
  simp only [Interval.units, hpr]
  by_cases hb0 : b = 0
  · subst hb0
    obtain ⟨t, h1, h2, h3, h4⟩ := (pDuration_terms d s 0 cs!"ms" (by simp)).1
    refine ⟨joinTerms (Interval.wholeTerms ⟨d, s, 0, .precision p⟩), pr, by simp, ascii_joinTerms _ (ascii_wholeTerms _), rfl, ?_⟩
    rw [hw]
    unfold readInterval
    simp only [h1]
    rw [fitOr_getD t.days z32 h2 (ofInt_toI32 hd)]
    simp only [Res.dbind_ok]
    rw [fitOr_getD t.secs z32 h3 (ofInt_toI32 hs)]
    simp [h4, convSub, hpu]
  · cases hu : pr.subsecondUnit with
    | none =>
      have : pr = .seconds := by cases pr <;> simp [Precision.subsecondUnit] at hu ⊢
      subst this
      exact absurd (h0 (by rw [← hpu]; rfl)) hb0
    | some u =>
      obtain ⟨t, h1, h2, h3, h4⟩ := (pDuration_terms d s b u (pr.unit_cases u hu)).2
      refine ⟨joinTerms (Interval.wholeTerms ⟨d, s, b, .precision p⟩ ++ [decInt b ++ u]), pr, by simp [hb0], ?_, rfl, ?_⟩
      · refine ascii_joinTerms _ fun t ht => ?_
        rcases List.mem_append.1 ht with ht | ht
        · exact ascii_wholeTerms _ t ht
        · simp only [List.mem_singleton] at ht
          subst ht
          refine .append (ascii_decInt _) ?_
          rcases pr.unit_cases u hu with rfl | rfl | rfl | rfl <;>
            exact .cons (by decide) (.cons (by decide) .nil)
      · rw [hw]
        unfold readInterval
        simp only [h1]
        rw [fitOr_getD t.days z32 h2 (ofInt_toI32 hd)]
        simp only [Res.dbind_ok]
        rw [fitOr_getD t.secs z32 h3 (ofInt_toI32 hs)]
        simp [h4, convSub, pr.fromSub_unit u hu, fitOr, ofInt_toI64 hb, hpu]

/-! ## Times and timestamps -/

theorem unitsToNs_mem {v p : Int} (h : p ∈ [(0 : Int), 3, 6, 9]) :
    ∃ ns pr, unitsToNs v p = some ns ∧ FracOk p ns ∧ checkPrecision p = .ok pr ∧
      (InI64 v → nsToUnits ns pr = .ok v) ∧ ns * perSecond p = v * 1000000000 := by
  simp only [List.mem_cons, List.not_mem_nil, or_false] at h
  have hi : InI64 v → inI64 v = true := by
    intro hv; unfold inI64; exact decide_eq_true hv
  have e3 : perSecond 3 = 1000 := by decide
  have e6 : perSecond 6 = 1000000 := by decide
  have e9 : perSecond 9 = 1000000000 := by decide
  have e0 : perSecond 0 = 1 := by decide
  rcases h with rfl | rfl | rfl | rfl
  · refine ⟨_, .seconds, rfl, .inl ⟨rfl, by omega⟩, rfl, fun hv => ?_, by rw [e0]; omega⟩
    simp [nsToUnits]
  · refine ⟨_, .milliseconds, rfl, .inr (.inl ⟨rfl, by omega⟩), rfl, fun hv => ?_, by rw [e3]; omega⟩
    simp [nsToUnits]
  · refine ⟨_, .microseconds, rfl, .inr (.inr (.inl ⟨rfl, by omega⟩)), rfl, fun hv => ?_, by rw [e6]; omega⟩
    simp [nsToUnits, hi hv]
  · refine ⟨_, .nanoseconds, rfl, .inr (.inr (.inr (.inl rfl))), rfl, fun hv => ?_, by rw [e9]⟩
    simp [nsToUnits, hi hv]

theorem perSecond_mem {p : Int} (h : p ∈ [(0 : Int), 3, 6, 9]) :
    (p = 0 ∧ perSecond p = 1) ∨ (p = 3 ∧ perSecond p = 1000) ∨ (p = 6 ∧ perSecond p = 1000000) ∨
    (p = 9 ∧ perSecond p = 1000000000) := by
  simp only [List.mem_cons, List.not_mem_nil, or_false] at h
  rcases h with rfl | rfl | rfl | rfl <;> decide

theorem stamp_text (v p : Int) (hp : p ∈ [(0 : Int), 3, 6, 9]) (hv : InI64 v) (hc : InCalendar v p) :
    ∃ x, timestampText v p = some x ∧ Ascii x ∧ stampUnits x p = .ok v := by
  obtain ⟨ns, pr, h1, h2, h3, h4, h5⟩ := unitsToNs_mem (v := v) hp
  have hday : ns / dayNs = v / (86400 * perSecond p) := by
    simp only [dayNs]
    rcases perSecond_mem hp with ⟨_, e⟩ | ⟨_, e⟩ | ⟨_, e⟩ | ⟨_, e⟩ <;> rw [e] at h5 ⊢ <;> omega
  have hc' : minDays ≤ ns / dayNs ∧ ns / dayNs ≤ maxDays := by rw [hday]; exact hc
  refine ⟨_, by unfold timestampText; rw [h1]; simp only; rw [if_pos hc'], ?_, ?_⟩
  · exact .append (.append (ascii_showDate _) (.cons (by decide) .nil)) (ascii_showTime _ _)
  · unfold stampUnits
    rw [h3]
    simp only [Res.dbind_ok]
    rw [readStamp_show p ns h2 hc'.1 hc'.2]
    exact h4 hv

theorem time_text (v p : Int) (hp : p ∈ [(0 : Int), 3, 6, 9]) (h0 : 0 ≤ v) (hv : v < 86400 * perSecond p) :
    ∃ x, timeText v p = some x ∧ Ascii x ∧ timeUnits x p = .ok v := by
  obtain ⟨ns, pr, h1, h2, h3, h4, h5⟩ := unitsToNs_mem (v := v) hp
  have hns : 0 ≤ ns ∧ ns < dayNs ∧ InI64 v := by
    simp only [dayNs, InI64]
    rcases perSecond_mem hp with ⟨_, e⟩ | ⟨_, e⟩ | ⟨_, e⟩ | ⟨_, e⟩ <;> rw [e] at h5 hv <;> omega
  have e : (ns.natAbs : Int) = ns := by omega
  refine ⟨showTime p ns.natAbs, ?_, ascii_showTime _ _, ?_⟩
  · unfold timeText
    rw [if_neg (by omega), h1]
    simp only
    rw [if_neg (by omega)]
  · unfold timeUnits
    rw [h3]
    simp only [Res.dbind_ok]
    rw [readTime_show p ns.natAbs (by omega) (by rw [e]; exact h2), e]
    exact h4 hns.2.2

/-! ## All literals -/

theorem wrap32_id {i : Int} (h : InI32 i) : wrap32 i = i := by
  simp only [wrap32, InI32] at *
  omega

theorem InI32.i64 {i : Int} (h : InI32 i) : InI64 i := by
  simp only [InI32, InI64] at *; omega

theorem asNullable_if (b : Bool) : (if b then Nul.nullable else Nul.required).asNullable = b := by
  cases b <;> decide

theorem mem_units_range {p : Int} (h : p ∈ [(0 : Int), 3, 6, 9, 12]) : 0 ≤ p ∧ p ≤ 12 := by
  simp only [List.mem_cons, List.not_mem_nil, or_false] at h; omega

theorem mem_units_of {p : Int} (h : p ∈ [(0 : Int), 3, 6, 9]) : p ∈ [(0 : Int), 3, 6, 9, 12] := by
  simp only [List.mem_cons, List.not_mem_nil, or_false] at *; omega

/-- The value text of a spelled literal, other than `null`: it is read as a value which, with the
literal's own type, converts to the literal; so does the value alone if that type is the default. -/
theorem value_text [UTab] [FTab] (hA : AsciiPrintable) (st : Store) (o : Opts) (nullable : Bool) (v : Lit)
    (hn : ∀ t, v ≠ .null t) (h : Spelled st nullable v) :
    ∃ sv, (∀ r, NextNot numContinues r → pValue ((textValue o v).text ++ r) = some (sv, r)) ∧
      Writable st (v.ty nullable) ∧ v.suffix.isSome = true ∧
      convValue sv (some (v.ty nullable)) = .ok ⟨some v, nullable, 0⟩ ∧
      (v.isDefault = true → nullable = false → convValue sv none = .ok ⟨some v, false, 0⟩) := by
  cases v with
  | bool b =>
    refine ⟨.bool b, fun r hr => pValue_bool b r, by simp [Lit.ty, Writable], rfl, ?_, fun _ _ => rfl⟩
    simp [convValue, Lit.ty, toBoolLit, asNullable_if]
  | int w i =>
    cases w with
    | i64 =>
      simp only [Spelled] at h
      refine ⟨.int (.ofInt i), fun r hr => pValue_int i r hr, by simp [Lit.ty, Writable], rfl, ?_, fun _ _ => ?_⟩ <;>
        simp [convValue, toIntLit, ofInt_toI64 h, Lit.ty, asNullable_if]
    | i8 | i16 | i32 =>
      simp only [Spelled] at h
      refine ⟨.int (.ofInt i), fun r hr => pValue_int i r hr, by simp [Lit.ty, Writable], rfl, ?_, fun h _ => by cases h⟩
      simp [convValue, toIntLit, ofInt_toI64 h.i64, Lit.ty, asNullable_if, wrap32_id h]
  | fp32 f =>
    simp only [Spelled] at h
    refine ⟨.float (FTab.show32 f), fun r hr => pValue_float _ r h.1 hr, by simp [Lit.ty, Writable], rfl, ?_, fun h _ => by cases h⟩
    simp [convValue, toFloatLit, Lit.ty, asNullable_if, h.2]
  | fp64 f =>
    simp only [Spelled] at h
    refine ⟨.float (FTab.show64 f), fun r hr => pValue_float _ r h.1 hr, by simp [Lit.ty, Writable], rfl, ?_, fun _ _ => ?_⟩ <;>
      simp [convValue, toFloatLit, Lit.ty, asNullable_if, h.2]
  | string s =>
    simp only [Spelled] at h
    obtain ⟨h, rfl⟩ := h
    refine ⟨.str s, fun r hr => pValue_string s r h, by simp [Lit.ty, Writable], rfl, ?_, fun _ _ => rfl⟩
    simp [convValue, toStringLit, Lit.ty]
  | binary bs => cases h
  | other x => cases h
  | null t => exact absurd rfl (hn t)
  | date d =>
    simp only [Spelled] at h
    have hr := readDate_show d h.1 h.2
    have ht : dateText d = some (showDate (Date.ofDays d)) := by unfold dateText; rw [if_pos h]
    refine ⟨.str (showDate (Date.ofDays d)), fun r _ => ?_, by simp [Lit.ty, Writable], rfl, ?_, fun h _ => by cases h⟩
    · simp only [textValue, ht, Out.text_s]
      exact pValue_string _ r ((ascii_showDate _).spellable hA)
    · simp [convValue, toStringLit, Lit.ty, hr, asNullable_if]
  | time us =>
    simp only [Spelled] at h
    obtain ⟨x, h1, h2, h3⟩ := time_text us 6 (by simp) h.1 h.2
    refine ⟨.str x, fun r _ => ?_, by simp [Lit.ty, Writable], rfl, ?_, fun h _ => by cases h⟩
    · simp only [textValue, h1, textPrecLit]
      exact pValue_string _ r (h2.spellable hA)
    · simp [convValue, toStringLit, Lit.ty, h3, asNullable_if]
  | timestamp us =>
    simp only [Spelled] at h
    obtain ⟨x, h1, h2, h3⟩ := stamp_text us 6 (by simp) h.1 h.2
    refine ⟨.str x, fun r _ => ?_, by simp [Lit.ty, Writable], rfl, ?_, fun h _ => by cases h⟩
    · simp only [textValue, h1, textPrecLit]
      exact pValue_string _ r (h2.spellable hA)
    · simp [convValue, toStringLit, Lit.ty, h3, asNullable_if]
  | interval i =>
    simp only [Spelled] at h
    obtain ⟨p, h1, h2, h3, h4, h5, h6⟩ := h
    obtain ⟨x, pr, h7, h8, h9, h10⟩ := readInterval_text i p h1 h2 h3 h4 h5 h6
    have hu : i.units.1 = p := by simp [Interval.units, h1]
    refine ⟨.str x, fun r _ => ?_, ?_, rfl, ?_, fun h _ => by cases h⟩
    · simp only [textValue, h7]
      exact pValue_string _ r (h8.spellable hA)
    · simp only [Lit.ty, Writable, hu, true_and]; exact mem_units_range h2
    · simp [convValue, toStringLit, Lit.ty, hu, h9, h10, asNullable_if]
  | prec k p v =>
    cases k with
    | time =>
      simp only [Spelled] at h
      obtain ⟨x, h1, h2, h3⟩ := time_text v p h.1 h.2.1 h.2.2
      refine ⟨.str x, fun r _ => ?_, ?_, rfl, ?_, fun h _ => by cases h⟩
      · simp only [textValue, h1, textPrecLit]
        exact pValue_string _ r (h2.spellable hA)
      · simp only [Lit.ty, Writable, true_and]; exact mem_units_range (mem_units_of h.1)
      · simp [convValue, toStringLit, Lit.ty, h3, asNullable_if]
    | timestamp | timestampTz =>
      simp only [Spelled] at h
      obtain ⟨x, h1, h2, h3⟩ := stamp_text v p h.1 h.2.1 h.2.2
      refine ⟨.str x, fun r _ => ?_, ?_, rfl, ?_, fun h _ => by cases h⟩
      · simp only [textValue, h1, textPrecLit]
        exact pValue_string _ r (h2.spellable hA)
      · simp only [Lit.ty, Writable, true_and]; exact mem_units_range (mem_units_of h.1)
      · simp [convValue, toStringLit, Lit.ty, h3, asNullable_if]

/-- A literal that survives is read back from its text, whatever follows. -/
theorem rt_lit [UTab] [FTab] (hA : AsciiPrintable) {st : Store} (hst : st.Ordered) (o : Opts)
    (ho : o.anchors ≠ .never) (hl : o.litTypes ≠ .never) (l : Literal) (h : Survives st l) :
    ∃ s, convLit st s = .ok l ∧
      ∀ rest, LitFollow rest → pLiteral ((textLit st o l).text ++ rest) = some (s, rest) := by
  obtain ⟨value, nullable, tvar⟩ := l
  obtain ⟨h0, v, h1, h2⟩ := h
  simp only at h0 h1 h2
  subst h0 h1
  by_cases hn : ∃ t, v = .null t
  · obtain ⟨t, rfl⟩ := hn
    simp only [Spelled] at h2
    obtain ⟨hw, rfl⟩ := h2
    obtain ⟨s, h3, h4⟩ := pLiteral_suffix hst o ho cs!"null" .null t hw (fun r _ => pValue_null r)
    refine ⟨⟨.null, some s⟩, ?_, fun rest hf => ?_⟩
    · simp [convLit, h3, Res.map, convValue, toNullLit]
    · have := h4 rest hf
      simpa [textLit] using this
  · have hn : ∀ t, v ≠ .null t := fun t e => hn ⟨t, e⟩
    obtain ⟨sv, h3, h4, h5, h6, h7⟩ := value_text hA st o nullable v hn h2
    have ht : textLit st o ⟨some v, nullable, 0⟩ =
        textValue o v ++ (if showSuffix o nullable v then textSuffix v nullable else .s []) := by
      cases v with
      | null t => exact absurd rfl (hn t)
      | _ => rfl
    by_cases hs : showSuffix o nullable v = true
    · obtain ⟨s, h8, h9⟩ := pLiteral_suffix hst o ho _ sv _ h4 h3
      refine ⟨⟨sv, some s⟩, by simp [convLit, h8, Res.map, h6], fun rest hf => ?_⟩
      rw [ht, if_pos hs, Out.text_append, textSuffix_ty st o v nullable h5]
      exact h9 rest hf
    · refine ⟨⟨sv, none⟩, ?_, fun rest hf => ?_⟩
      · have : v.isDefault = true ∧ nullable = false := by
          unfold showSuffix at hs
          split at hs
          · rename_i e; exact absurd e hl
          · exact absurd rfl hs
          · cases nullable <;> cases hd : v.isDefault <;> simp [hd] at hs ⊢
        obtain ⟨hd, rfl⟩ := this
        simp [convLit, h7 hd rfl]
      · rw [ht, if_neg hs]
        have := pLiteral_plain _ sv h3 rest hf
        simpa using this

end Verif
