import Verif.Spec.LiteralsExact
import Verif.Proofs.LiteralsImage
import Verif.Proofs.Grammar
import Verif.Props.TypesExact
/-!
# Literals that survive, and no others
-/

namespace Verif
open StoreSpec TextSpec Grammar

set_option autoImplicit false

/-! ## What is read from the text of a value -/

theorem pLiteral_cases {x r : Str} {s : SLit} (h : pLiteral x = some (s, r)) :
    ∃ y, pValue x = some (s.value, y) ∧
      ((s.ty = none ∧ y = r ∧ pAscription y = none) ∨ ∃ t, s.ty = some t ∧ pAscription y = some (t, r)) := by
  unfold pLiteral at h
  cases hv : pValue x with
  | none => rw [hv] at h; simp at h
  | some v =>
    obtain ⟨v, y⟩ := v
    rw [hv] at h
    simp only [Option.bind_eq_bind, Option.bind_some, pOpt] at h
    cases ha : pAscription y with
    | none => rw [ha] at h; cases h; exact ⟨_, rfl, .inl ⟨rfl, rfl, ha⟩⟩
    | some t => obtain ⟨t, q⟩ := t; rw [ha] at h; cases h; exact ⟨_, rfl, .inr ⟨t, rfl, ha⟩⟩

theorem pAscription_head {y r : Str} {t : STy} (h : pAscription y = some (t, r)) :
    ∃ z, y = ':' :: z ∧ pType (skipSp z) = some (t, r) := by
  unfold pAscription at h
  cases y with
  | nil => simp [lit] at h
  | cons c z =>
    simp only [lit_cons] at h
    split at h
    · next e => subst e; exact ⟨z, rfl, by simpa [lit_nil] using h⟩
    · simp at h

theorem pValue_other {c : Char} {s : Str} (h1 : isDigit c = false) (h2 : c ∉ ['-', 't', 'f', '\'', 'n']) :
    pValue (c :: s) = none := by
  simp only [List.mem_cons, List.not_mem_nil, or_false, not_or] at h2
  have h3 : pBoolean (c :: s) = none := by
    have e1 : ¬ ('t' = c) := fun e => h2.2.1 e.symm
    have e2 : ¬ ('f' = c) := fun e => h2.2.2.1 e.symm
    simp [pBoolean, e1, e2]
  have h4 : pString (c :: s) = none := by
    have e1 : ¬ ('\'' = c) := fun e => h2.2.2.2.1 e.symm
    simp [pString, e1]
  have h5 : pNull (c :: s) = none := by
    have e1 : ¬ ('n' = c) := fun e => h2.2.2.2.2 e.symm
    simp [pNull, e1]
  unfold pValue
  rw [pFloat_head h1 h2.1, pInteger_head h1 h2.1, h3, h4, h5]
  rfl

theorem pValue_nil : pValue [] = none := by rfl

theorem pValue_digits {neg : Bool} {ds r : Str} (h1 : ds ≠ []) (h2 : ∀ c ∈ ds, isDigit c = true) (hr : NextNot numContinues r) :
    pValue ((if neg then ['-'] else []) ++ ds ++ r) = some (.int ⟨neg, decVal ds⟩, r) := by
  have hd : NextNot isDigit r := hr.mono (by intro c hc; simp [numContinues, hc])
  have hp := pDigits_append ds r h1 h2 hd
  have hl : lit cs!"." r = none := lit_none_of_next hr (by decide)
  have hm : pMinus (ds ++ r) = (false, ds ++ r) := by
    cases ds with
    | nil => exact absurd rfl h1
    | cons c ds => exact pMinus_of_digit (h2 c (by simp))
  unfold pValue pFloat pInteger
  cases neg with
  | true => simp [pMinus, hp, hl, mapFst]
  | false => simp [hm, hp, hl, mapFst]

/-- The text of a float is read as that float, as an integer, or not at all. -/
theorem pValue_shown {x r y : Str} {sv : SVal} (hx : FloatShown x) (hr : NextNot numContinues r)
    (h : pValue (x ++ r) = some (sv, y)) : y = r ∧ ((FloatText x ∧ sv = .float x) ∨ ∃ i, sv = .int i) := by
  rcases hx with hx | ⟨neg, ds, h1, h2, rfl⟩ | hx
  · simp only [List.mem_cons, List.not_mem_nil, or_false] at hx
    rcases hx with rfl | rfl | rfl
    · rw [List.cons_append, pValue_other (by decide) (by decide)] at h; cases h
    · rw [List.cons_append, pValue_other (by decide) (by decide)] at h; cases h
    · exfalso
      revert h
      simp [pValue, pFloat, pInteger, pMinus, pDigits, isDigit, mapFst, pBoolean, pString, pNull]
  · rw [pValue_digits h1 h2 hr] at h
    cases h
    exact ⟨rfl, .inr ⟨_, rfl⟩⟩
  · rw [pValue_float x r hx hr] at h
    cases h
    exact ⟨rfl, .inl ⟨hx, rfl⟩⟩

theorem pValue_shownString [UTab] (s r : Str) : pValue (showString s ++ r) = some (.str (unescape (escape s)), r) := by
  have h1 : pFloat (showString s ++ r) = none := pFloat_head (by decide) (by decide)
  have h2 : pInteger (showString s ++ r) = none := pInteger_head (by decide) (by decide)
  have h3 : pBoolean (showString s ++ r) = none := by
    simp [showString, pBoolean]
  unfold pValue
  rw [h1, h2, h3, pString_showString]
  rfl

/-! ## What conversion makes of it -/

theorem convValue_none [FTab] {v : SVal} {l : Literal} (h : convValue v none = .ok l) :
    ∃ w, l.value = some w ∧ Untyped w ∧ l.nullable = false := by
  cases v with
  | int i =>
    simp only [convValue, toIntLit] at h
    split at h
    · cases h
    · cases h; exact ⟨_, rfl, trivial, rfl⟩
  | float x => cases h; exact ⟨_, rfl, trivial, rfl⟩
  | bool b => cases h; exact ⟨_, rfl, trivial, rfl⟩
  | str s => cases h; exact ⟨_, rfl, trivial, rfl⟩
  | null => cases h

theorem toFloatLit_ok [FTab] {x : Str} {t : Option Ty} {l : Literal} (h : toFloatLit x t = .ok l) :
    (∀ f, l.value = some (.fp32 f) → FTab.to32 (FTab.parse64 x) = f) ∧ (∀ f, l.value = some (.fp64 f) → FTab.parse64 x = f) := by
  unfold toFloatLit at h
  split at h <;> cases h <;> refine ⟨fun f hf => ?_, fun f hf => ?_⟩ <;> cases hf <;> rfl

theorem toIntLit_ok {i : IntTok} {t : Option Ty} {l : Literal} (h : toIntLit i t = .ok l) :
    ∃ w j, l.value = some (.int w j) := by
  unfold toIntLit at h
  split at h
  · cases h
  · split at h <;> cases h <;> exact ⟨_, _, rfl⟩

theorem toStringLit_ok {x s : Str} {t : Option Ty} {n : Bool} {v : Nat} (h : toStringLit x t = .ok ⟨some (.string s), n, v⟩) : x = s := by
  unfold toStringLit at h
  split at h
  · split at h <;> cases h
  · split at h
    · obtain ⟨_, _, h⟩ := Res.bind_ok_iff.1 h; cases h
    · cases h
  · obtain ⟨_, _, h⟩ := Res.bind_ok_iff.1 h; cases h
  · obtain ⟨_, _, h⟩ := Res.bind_ok_iff.1 h; cases h
  · obtain ⟨_, _, h⟩ := Res.bind_ok_iff.1 h; cases h
  · obtain ⟨_, _, h⟩ := Res.bind_ok_iff.1 h; cases h
  · cases h; rfl

theorem convLit_parts [FTab] {st : Store} {s : SLit} {l : Literal} (h : convLit st s = .ok l) :
    (s.ty = none ∧ convValue s.value none = .ok l) ∨ ∃ t ty, s.ty = some t ∧ convTy st t = .ok ty ∧ convValue s.value (some ty) = .ok l := by
  unfold convLit at h
  obtain ⟨t, h1, h2⟩ := Res.bind_ok_iff.1 h
  cases ht : s.ty with
  | none => rw [ht] at h1; cases h1; exact .inl ⟨rfl, h2⟩
  | some t' =>
    rw [ht] at h1
    simp only at h1
    cases hc : convTy st t' with
    | ok ty => rw [hc] at h1; cases h1; exact .inr ⟨t', ty, rfl, hc, h2⟩
    | err e => rw [hc] at h1; cases h1
    | panic => rw [hc] at h1; cases h1

/-! ## The theorem -/

/-- What is read from the text of a value: the rest, and for some values what it is read as. -/
def ReadBack [UTab] [FTab] (v : Lit) (r y : Str) (sv : SVal) : Prop :=
  match v with
  | .fp32 f => y = r ∧ ((FloatText (FTab.show32 f) ∧ sv = .float (FTab.show32 f)) ∨ ∃ i, sv = .int i)
  | .fp64 f => y = r ∧ ((FloatText (FTab.show64 f) ∧ sv = .float (FTab.show64 f)) ∨ ∃ i, sv = .int i)
  | .string s => y = r ∧ sv = .str (unescape (escape s))
  | .time us => y = r ∧ (timeText us 6).isSome
  | .timestamp us => y = r ∧ (timestampText us 6).isSome
  | .prec .time p v => y = r ∧ (timeText v p).isSome
  | .prec _ p v => y = r ∧ (timestampText v p).isSome
  | .null _ => True
  | .binary _ => True
  | .other _ => True
  | _ => y = r

/-- Text that is shown starts with something that is no number, and the text of a value is not cut short. -/
theorem value_read [UTab] [FTab] (o : Opts) (v : Lit) (nullable : Bool) (tvar : Nat) {r y : Str} {sv : SVal}
    (hs : ShownLit ⟨some v, nullable, tvar⟩)
    (hr : NextNot numContinues r) (h : pValue ((textValue o v).text ++ r) = some (sv, y)) (hne : ∀ d, v = .date d → (dateText d).isSome = true) :
    ReadBack v r y sv := by
  have hfail : ∀ {x : Out}, x = litFail → pValue (x.text ++ r) ≠ some (sv, y) := by
    rintro _ rfl h
    rw [show litFail.text = '!' :: cs!"{LiteralType}" from rfl, List.cons_append, pValue_other (by decide) (by decide)] at h
    cases h
  have hprec : ∀ (p : Int) (x : Option Str), pValue ((textPrecLit p x).text ++ r) = some (sv, y) → y = r ∧ x.isSome = true := by
    intro p x h
    cases x with
    | none => exact absurd h (hfail rfl)
    | some x =>
      rw [show (textPrecLit p (some x)).text = showString x from rfl, pValue_shownString] at h
      cases h
      exact ⟨rfl, rfl⟩
  cases v with
  | bool b => rw [show (textValue o (.bool b)).text = (if b then cs!"true" else cs!"false") from rfl, pValue_bool] at h; cases h; rfl
  | int w i => rw [show (textValue o (.int w i)).text = decInt i from rfl, pValue_int i r hr] at h; cases h; rfl
  | fp32 f => exact pValue_shown (hs.1 f rfl) hr h
  | fp64 f => exact pValue_shown (hs.2 f rfl) hr h
  | string s => rw [show (textValue o (.string s)).text = showString s from rfl, pValue_shownString] at h; cases h; exact ⟨rfl, rfl⟩
  | binary _ => trivial
  | null _ => trivial
  | other _ => trivial
  | date d =>
    show y = r
    simp only [textValue] at h
    cases hd : dateText d with
    | none => have := hne d rfl; rw [hd] at this; cases this
    | some x => rw [hd] at h; rw [show (Out.s (showString x)).text = showString x from rfl, pValue_shownString] at h; cases h; rfl
  | time us => exact hprec _ _ h
  | timestamp us => exact hprec _ _ h
  | prec k p v => cases k <;> exact hprec _ _ h
  | interval i =>
    show y = r
    simp only [textValue, textInterval] at h
    split at h
    · exact absurd h (hfail rfl)
    · next pr hp =>
      split at h
      · split at h
        · refine absurd h ?_
          rw [Out.text_append]
          exact hfail (x := litFail) rfl
        · rw [Out.text_append, Out.text_append] at h
          simp only [List.nil_append, Out.text_s] at h
          rw [pValue_shownString] at h
          cases h
          rfl
      · rw [Out.text_append] at h
        simp only [List.nil_append, Out.text_s] at h
        rw [pValue_shownString] at h
        cases h
        rfl

theorem suffix_num (v : Lit) (n b : Bool) {rest : Str} (hr : LitFollow rest) :
    NextNot numContinues ((if b then textSuffix v n else .s []).text ++ rest) := by
  cases b with
  | false => exact hr.num
  | true =>
    simp only [if_true]
    unfold textSuffix
    split
    · exact hr.num
    · exact (nextNot_cons _ _ _).2 (by decide)

theorem minDays_num : minDays = -96465292 := by decide +kernel
theorem maxDays_num : maxDays = 95026236 := by decide +kernel

theorem inI64_of_inCalendar {v p : Int} (hp : p ∈ [(0 : Int), 3, 6, 9]) (hc : InCalendar v p) (h : p = 6 ∨ p = 9 → InI64 v) : InI64 v := by
  simp only [List.mem_cons, List.not_mem_nil, or_false] at hp
  have h0 : perSecond 0 = 1 := by decide
  have h3 : perSecond 3 = 1000 := by decide
  rcases hp with rfl | rfl | rfl | rfl
  · unfold InCalendar at hc
    rw [minDays_num, maxDays_num, h0] at hc
    unfold InI64
    omega
  · unfold InCalendar at hc
    rw [minDays_num, maxDays_num, h3] at hc
    unfold InI64
    omega
  · exact h (.inl rfl)
  · exact h (.inr rfl)

theorem lit_no_colon {rest : Str} (hr : LitFollow rest) : pAscription rest = none := by
  cases h : pAscription rest with
  | none => rfl
  | some t =>
    obtain ⟨z, rfl, -⟩ := pAscription_head (t := t.1) (r := t.2) h
    exact absurd ((nextNot_cons _ _ _).1 hr) (by decide)

/-- What is read back from its own text, whatever is left over, is one of those. -/
theorem survives_of_read_lit [UTab] [FTab] {h : List Op} (o : Opts) (l : Literal) (hs : ShownLit l) {rest r : Str} (hr : LitFollow rest)
    {s : SLit} (hp : pLiteral ((textLit (run h) o l).text ++ rest) = some (s, r)) (hc : convLit (run h) s = .ok l) :
    SurvivesLit (run h) o l := by
  obtain ⟨value, nullable, tvar⟩ := l
  obtain ⟨sv, sty⟩ := s
  obtain ⟨h0, v, h1, hi⟩ := convLit_image (Store.ordered_run h) _ _ hc
  simp only at h0 h1 hi
  subst h0 h1
  obtain ⟨y, hv, hy⟩ := pLiteral_cases hp
  simp only at hv hy
  by_cases hn : ∃ t, v = .null t
  · obtain ⟨t, rfl⟩ := hn
    refine ⟨rfl, _, rfl, ?_, hi.2⟩
    have ht : (textLit (run h) o ⟨some (.null t), nullable, 0⟩).text ++ rest = cs!"null" ++ (':' :: ((textTy (run h) o t).text ++ rest)) := by
      simp [textLit, textValue]
    rw [ht, pValue_null] at hv
    injection hv with hv
    injection hv with e1 e2
    subst e1 e2
    rcases convLit_parts hc with ⟨h2, h3⟩ | ⟨t', ty, h2, h3, h4⟩
    · cases h3
    · simp only at h2
      subst h2
      cases h4
      rcases hy with ⟨hy, -⟩ | ⟨t'', hy, ha⟩
      · cases hy
      · cases hy
        obtain ⟨z, hz, hp'⟩ := pAscription_head ha
        injection hz with _ hz
        subst hz
        obtain ⟨c, tl, hh, hal⟩ := read_head o hp' h3
        have hsk : skipSp ((textTy (run h) o t).text ++ rest) = (textTy (run h) o t).text ++ rest := by
          rw [hh]; exact skipSp_cons _ _ (by rintro rfl; revert hal; decide)
        rw [hsk] at hp'
        exact survives_of_read o t _ _ _ _ (by simp only [List.length_append]; omega) hr.ty hp' h3
  · have hn : ∀ t, v ≠ .null t := fun t e => hn ⟨t, e⟩
    have ht : (textLit (run h) o ⟨some v, nullable, 0⟩).text ++ rest =
        (textValue o v).text ++ ((if showSuffix o nullable v then textSuffix v nullable else .s []).text ++ rest) := by
      rw [← List.append_assoc, ← Out.text_append]
      cases v with
      | null t => exact absurd rfl (hn t)
      | _ => rfl
    rw [ht] at hv
    have hd : ∀ d, v = .date d → (dateText d).isSome = true := by
      rintro d rfl
      unfold dateText
      rw [if_pos hi]
      rfl
    have hread := value_read o v nullable 0 hs (suffix_num v nullable _ hr) hv hd
    have hnever : o.litTypes = .never → Untyped v ∧ nullable = false := by
      intro ho
      have hy' : y = rest := by
        have hsuf : (if showSuffix o nullable v then textSuffix v nullable else .s []).text ++ rest = rest := by
          simp [showSuffix, ho]
        rw [hsuf] at hread
        cases v with
        | null t => exact absurd rfl (hn t)
        | binary _ => exact hi.elim
        | other _ => exact hi.elim
        | prec k p v => cases k <;> exact hread.1
        | fp32 _ => exact hread.1
        | fp64 _ => exact hread.1
        | string _ => exact hread.1
        | time _ => exact hread.1
        | timestamp _ => exact hread.1
        | _ => exact hread
      subst hy'
      rcases hy with ⟨rfl, -⟩ | ⟨t, rfl, ha⟩
      · rcases convLit_parts hc with ⟨-, h3⟩ | ⟨t', ty, h2, -⟩
        · obtain ⟨w, hw, hw2, hw3⟩ := convValue_none h3
          cases hw
          exact ⟨hw2, hw3⟩
        · cases h2
      · rw [lit_no_colon hr] at ha; cases ha
    have hty : ∃ t, convValue sv t = .ok ⟨some v, nullable, 0⟩ := by
      rcases convLit_parts hc with ⟨-, h3⟩ | ⟨t', ty, -, -, h3⟩
      · exact ⟨_, h3⟩
      · exact ⟨_, h3⟩
    obtain ⟨t, hty⟩ := hty
    refine ⟨rfl, v, rfl, ?_⟩
    suffices Spelled (run h) nullable v by
      cases v with
      | null t => exact absurd rfl (hn t)
      | _ => exact ⟨this, hnever⟩
    cases v with
    | null t => exact absurd rfl (hn t)
    | binary _ => exact hi.elim
    | other _ => exact hi.elim
    | bool b => trivial
    | int w i => cases w <;> exact hi
    | fp32 f =>
      rcases hread.2 with ⟨h2, rfl⟩ | ⟨i, rfl⟩
      · exact ⟨h2, (toFloatLit_ok hty).1 f rfl⟩
      · obtain ⟨w, j, e⟩ := toIntLit_ok hty; cases e
    | fp64 f =>
      rcases hread.2 with ⟨h2, rfl⟩ | ⟨i, rfl⟩
      · exact ⟨h2, (toFloatLit_ok hty).2 f rfl⟩
      · obtain ⟨w, j, e⟩ := toIntLit_ok hty; cases e
    | string s =>
      obtain ⟨-, rfl⟩ := hread
      exact ⟨(unescape_escape_iff s).1 (toStringLit_ok hty), hi⟩
    | date d => exact hi
    | time us => exact ((timeText_some us 6).1 ⟨hread.2, by decide⟩).2
    | timestamp us => exact ⟨hi, ((timestampText_some us 6).1 ⟨hread.2, by decide⟩).2⟩
    | interval i =>
      obtain ⟨⟨p, h1, h2, h3⟩, h4⟩ := hi
      exact ⟨p, h2, h1, h3, h4⟩
    | prec k p v =>
      have hp12 : ∀ {p : Int}, p ∈ [(0 : Int), 3, 6, 9] → p ≠ 12 := by rintro p hp rfl; revert hp; decide
      cases k with
      | time => exact (timeText_some v p).1 ⟨hread.2, hp12 hi.1⟩
      | timestamp =>
        have := ((timestampText_some v p).1 ⟨hread.2, hp12 hi.1⟩)
        exact ⟨this.1, inI64_of_inCalendar hi.1 this.2 hi.2, this.2⟩
      | timestampTz =>
        have := ((timestampText_some v p).1 ⟨hread.2, hp12 hi.1⟩)
        exact ⟨this.1, inI64_of_inCalendar hi.1 this.2 hi.2, this.2⟩

theorem textValue_opts [UTab] [FTab] (o o' : Opts) (v : Lit) (h : ∀ b, v ≠ .binary b) : textValue o v = textValue o' v := by
  cases v with
  | binary b => exact absurd rfl (h b)
  | prec k p v => cases k <;> rfl
  | _ => rfl

/-- What survives is read back. -/
theorem read_of_survives_lit [UTab] [FTab] (hA : AsciiPrintable) {h : List Op} (o : Opts) (l : Literal) (hs : SurvivesLit (run h) o l) :
    ∃ s, convLit (run h) s = .ok l ∧
      ∀ rest, LitFollow rest → pLiteral ((textLit (run h) o l).text ++ rest) = some (s, rest) := by
  obtain ⟨value, nullable, tvar⟩ := l
  obtain ⟨h0, v, h1, h2⟩ := hs
  simp only at h0 h1 h2
  subst h0 h1
  by_cases hn : ∃ t, v = .null t
  · obtain ⟨t, rfl⟩ := hn
    obtain ⟨h2, rfl⟩ := h2
    obtain ⟨c, tl, hh, hal⟩ := survives_head o t h2
    obtain ⟨s, h3, h4⟩ := survives_ty o t h2
    refine ⟨⟨.null, some s⟩, ?_, fun rest hr => ?_⟩
    · simp [convLit, h3, Res.map, convValue, toNullLit]
    · have ht : (textLit (run h) o ⟨some (.null t), false, 0⟩).text ++ rest = cs!"null" ++ (':' :: ((textTy (run h) o t).text ++ rest)) := by
        simp [textLit, textValue]
      have hsk : skipSp ((textTy (run h) o t).text ++ rest) = (textTy (run h) o t).text ++ rest := by
        rw [hh]; exact skipSp_cons _ _ (by rintro rfl; revert hal; decide)
      have hp : pType ((textTy (run h) o t).text ++ rest) = some (s, rest) :=
        h4 _ rest (by simp only [List.length_append]; omega) hr.ty
      have ha : pAscription (':' :: ((textTy (run h) o t).text ++ rest)) = some (s, rest) := by
        simp [pAscription, lit_cons, lit_nil, hsk, hp]
      unfold pLiteral
      rw [ht, pValue_null]
      simp [pOpt, ha]
  · have hn : ∀ t, v ≠ .null t := fun t e => hn ⟨t, e⟩
    have h2 : Spelled (run h) nullable v ∧ (o.litTypes = .never → Untyped v ∧ nullable = false) := by
      cases v with
      | null t => exact absurd rfl (hn t)
      | _ => exact h2
    obtain ⟨h2, h3⟩ := h2
    have hb : ∀ b, v ≠ .binary b := by rintro b rfl; exact h2
    obtain ⟨s, h4, h5⟩ := rt_lit hA (Store.ordered_run h) { o with anchors := .required, litTypes := if o.litTypes = .never then .required else o.litTypes }
      (by simp) (by by_cases e : o.litTypes = .never <;> simp [e]) ⟨some v, nullable, 0⟩ ⟨rfl, v, rfl, h2⟩
    refine ⟨s, h4, fun rest hr => ?_⟩
    have := h5 rest hr
    rw [← this]
    congr 2
    have ht : ∀ o', textLit (run h) o' ⟨some v, nullable, 0⟩ =
        textValue o' v ++ (if showSuffix o' nullable v then textSuffix v nullable else .s []) := by
      intro o'
      cases v with
      | null t => exact absurd rfl (hn t)
      | _ => rfl
    rw [ht, ht, textValue_opts { o with anchors := .required, litTypes := if o.litTypes = .never then .required else o.litTypes } o v hb]
    suffices hsuf : showSuffix o nullable v = showSuffix { o with anchors := .required, litTypes := if o.litTypes = .never then .required else o.litTypes } nullable v by
      rw [hsuf]
    by_cases e : o.litTypes = .never
    · obtain ⟨h6, rfl⟩ := h3 e
      have : v.isDefault = true := by
        cases v with
        | int w i => cases w <;> first | rfl | exact h6.elim
        | _ => first | rfl | exact h6.elim
      simp [showSuffix, e, this]
    · have : (if o.litTypes = .never then Visibility.required else o.litTypes) = o.litTypes := if_neg e
      simp only [showSuffix, this]

end Verif
