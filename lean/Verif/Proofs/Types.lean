import Verif.Spec.Types
import Verif.Proofs.Rules
import Verif.Proofs.Printed
import Verif.Proofs.Escape
/-!
# Types read back
-/

namespace Verif
open StoreSpec

set_option autoImplicit false

/-! ## Keywords in front of names -/

theorem lit_name (k name x : Str) (hk : ∀ c ∈ k, isIdentChar c = true) (hx : NextNot isIdentChar x) :
    lit k (name ++ x) = if k.isPrefixOf name then some (name.drop k.length ++ x) else none := by
  induction k generalizing name with
  | nil => simp [lit]
  | cons c k ih =>
    cases name with
    | nil =>
      have := lit_none_of_next (k := k) hx (hk c (by simp))
      simpa using this
    | cons d name =>
      have hk' : ∀ c ∈ k, isIdentChar c = true := fun e he => hk e (by simp [he])
      by_cases hcd : c = d
      · subst hcd
        simp [lit, ih name hk']
      · simp [lit, hcd]

theorem pFirst_name (ks : List Str) (name x : Str) (hks : ∀ k ∈ ks, ∀ c ∈ k, isIdentChar c = true)
    (hx : NextNot isIdentChar x) :
    pFirst ks (name ++ x) =
      (ks.find? (·.isPrefixOf name)).map fun k => (k, name.drop k.length ++ x) := by
  induction ks with
  | nil => rfl
  | cons k ks ih =>
    have h1 := lit_name k name x (hks k (by simp)) hx
    have h2 := ih fun k' hk' => hks k' (by simp [hk'])
    unfold pFirst
    rw [h1]
    by_cases hp : k.isPrefixOf name = true
    · simp [hp]
    · simp only [hp, Bool.false_eq_true, if_false]
      rw [h2]
      simp [hp]

theorem simpleNames_ident : ∀ k ∈ simpleNames, ∀ c ∈ k, isIdentChar c = true := by decide

theorem toNat_toLower {c : Char} (h : isUpper c = true) : (toLower c).toNat = c.toNat + 32 := by
  have h' : 65 ≤ c.toNat ∧ c.toNat ≤ 90 := by simpa [isUpper] using h
  unfold toLower
  have key : ∀ m, m < 26 → (Char.ofNat (m + 97)).toNat = m + 97 := by decide
  have h2 := key (c.toNat - 65) (by omega)
  have h3 : c.toNat - 65 + 97 = c.toNat + 32 := by omega
  rw [h3] at h2
  rw [if_pos h, h2]

theorem isIdentChar_toLower {c : Char} : isIdentChar (toLower c) = isIdentChar c := by
  by_cases h : isUpper c = true
  · have h1 := toNat_toLower h
    have h' : 65 ≤ c.toNat ∧ c.toNat ≤ 90 := by simpa [isUpper] using h
    have hl : isLower (toLower c) = true := by simp [isLower, h1]; omega
    simp [isIdentChar, isAlnum, isAlpha, hl, h]
  · unfold toLower; rw [if_neg h]

/-- A keyword in front of a name: it is the name, or letters of the name follow, or it fails. -/
theorem litI_name (k name x : Str) (hk : ∀ c ∈ k, isIdentChar c = true) (hx : NextNot isIdentChar x)
    (hn : ∀ c ∈ name, isIdentChar c = true) :
    litI k (name ++ x) = none ∨
    (litI k (name ++ x) = some x ∧ name.map toLower = k.map toLower) ∨
    (∃ c r, litI k (name ++ x) = some (c :: r) ∧ isIdentChar c = true) := by
  induction k generalizing name with
  | nil =>
    cases name with
    | nil => exact Or.inr (Or.inl ⟨rfl, rfl⟩)
    | cons d name => exact Or.inr (Or.inr ⟨d, name ++ x, rfl, hn d (by simp)⟩)
  | cons c k ih =>
    cases name with
    | nil =>
      left
      cases x with
      | nil => rfl
      | cons d x =>
        have hd := (nextNot_cons _ d x).1 hx
        have hcd : ¬ toLower c = toLower d := by
          intro h
          have h1 := hk c (by simp)
          rw [← isIdentChar_toLower, h, isIdentChar_toLower, hd] at h1
          cases h1
        simp [litI, hcd]
    | cons d name =>
      by_cases hcd : toLower c = toLower d
      · have := ih name (fun e he => hk e (by simp [he])) (fun e he => hn e (by simp [he]))
        simp only [List.cons_append, litI, hcd, if_true, List.map_cons, List.cons.injEq, true_and]
        exact this
      · left; simp [litI, hcd]

theorem pNullability_ident {c : Char} {s : Str} (h : isIdentChar c = true) :
    pNullability (c :: s) = (.required, c :: s) := by
  unfold pNullability
  split
  · next h' => cases h'; simp [isIdentChar, isAlnum, isAlpha, isUpper, isLower, isDigit] at h
  · next h' => cases h'; simp [isIdentChar, isAlnum, isAlpha, isUpper, isLower, isDigit] at h
  · rfl

theorem pNullability_other {s : Str} (h : NextNot (fun c => c == '?' || c == '⁉') s) :
    pNullability s = (.required, s) := by
  cases s with
  | nil => rfl
  | cons c s =>
    have := (nextNot_cons _ c s).1 h
    simp only [Bool.or_eq_false_iff, beq_eq_false_iff_ne] at this
    unfold pNullability
    split
    · next h' => cases h'; exact absurd rfl this.1
    · next h' => cases h'; exact absurd rfl this.2
    · rfl

theorem pNullability_text (n : Nul) (rest : Str) (h : NextNot (fun c => c == '?' || c == '⁉') rest) :
    pNullability ((textNul n).text ++ rest) = (n, rest) := by
  cases n with
  | unspecified => rfl
  | nullable => rfl
  | required => exact pNullability_other h

/-- If a keyword opens a built-in type in front of a name then the keyword is the name. -/
theorem pKwOpen_name {kw name x : Str} {n : Nul} {y : Str} (hk : ∀ c ∈ kw, isIdentChar c = true)
    (hx : NextNot isIdentChar x) (hn : ∀ c ∈ name, isIdentChar c = true)
    (h : pKwOpen kw (name ++ x) = some (n, y)) :
    name.map toLower = kw.map toLower ∧ lit cs!"<" (pNullability x).2 = some y ∧ n = (pNullability x).1 := by
  unfold pKwOpen at h
  rcases litI_name kw name x hk hx hn with h1 | ⟨h1, h2⟩ | ⟨c, r, h1, h2⟩
  · simp [h1] at h
  · rw [h1] at h
    refine ⟨h2, ?_⟩
    cases h3 : lit cs!"<" (pNullability x).2 with
    | none => simp [h3] at h
    | some z => simp [h3] at h; exact ⟨by rw [h.2], h.1.symm⟩
  · rw [h1] at h
    have h3 : c ≠ '<' := by
      rintro rfl; simp [isIdentChar, isAlnum, isAlpha, isUpper, isLower, isDigit] at h2
    simp [pNullability_ident h2, h3.symm] at h

theorem pKwOpen_self (kw rest : Str) (n : Nul) :
    pKwOpen kw (kw ++ ((textNul n).text ++ '<' :: rest)) = some (n, rest) := by
  unfold pKwOpen
  rw [litI_append]
  have := pNullability_text n ('<' :: rest) (by simp [nextNot_cons])
  simp [this, lit]

/-- No built-in type starts with a name that is none of the built-in keywords. -/
theorem pKwOpen_none {kw name x : Str} (hk : ∀ c ∈ kw, isIdentChar c = true)
    (hx : NextNot isIdentChar x) (hn : ∀ c ∈ name, isIdentChar c = true)
    (h : name.map toLower ≠ kw.map toLower) : pKwOpen kw (name ++ x) = none := by
  cases h1 : pKwOpen kw (name ++ x) with
  | none => rfl
  | some p => exact absurd (pKwOpen_name hk hx hn h1).1 h

/-! ## The round trip -/

/-- What follows a type. -/
def TyFollow (s : Str) : Prop := NextNot typeContinues s

theorem TyFollow.ident {s : Str} (h : TyFollow s) : NextNot isIdentChar s :=
  NextNot.mono h fun c hc => by simp [typeContinues, hc]

theorem TyFollow.nul {s : Str} (h : TyFollow s) : NextNot (fun c => c == '?' || c == '⁉') s :=
  NextNot.mono h fun c hc => by
    simp only [Bool.or_eq_true, beq_iff_eq] at hc
    rcases hc with rfl | rfl <;> rfl

theorem textNul_follow (n : Nul) {s : Str} (h : NextNot isIdentChar s) :
    NextNot isIdentChar ((textNul n).text ++ s) := by
  cases n with
  | unspecified => exact (nextNot_cons _ _ _).2 (by decide)
  | nullable => exact (nextNot_cons _ _ _).2 (by decide)
  | required => exact h

theorem pSimpleType_name (name x : Str) (hx : NextNot isIdentChar x) :
    pSimpleType (name ++ x) = ((simpleNames.find? (·.isPrefixOf name)).map fun k =>
      (STy.simple k (pNullability (name.drop k.length ++ x)).1,
        (pNullability (name.drop k.length ++ x)).2)) := by
  unfold pSimpleType
  rw [pFirst_name _ _ _ simpleNames_ident hx]
  cases simpleNames.find? (·.isPrefixOf name) <;> simp

theorem find_simple (k : SimpleKind) :
    simpleNames.find? (·.isPrefixOf k.name) = some k.name := by cases k <;> decide

theorem convSimple_name (k : SimpleKind) (n : Nul) : convSimple k.name n = .ok (.simple k n 0) := by
  cases k <;> rfl

theorem textVariation_zero (st : Store) (o : Opts) : textVariation st o 0 = .s [] := rfl

theorem rt_simple (st : Store) (o : Opts) (k : SimpleKind) (n : Nul) (rest : Str) (fuel : Nat)
    (hr : TyFollow rest) :
    pTypeN (fuel + 1) ((textTy st o (.simple k n 0)).text ++ rest) = some (.simple k.name n, rest) := by
  have ht : (textTy st o (.simple k n 0)).text ++ rest = k.name ++ ((textNul n).text ++ rest) := by
    simp [textTy, textifyType, textVariation_zero, textParamList]
  rw [ht, pTypeN, pSimpleType_name _ _ (textNul_follow n hr.ident), find_simple]
  simp [pNullability_text n rest hr.nul]

theorem pSimpleType_none (name x : Str) (hx : NextNot isIdentChar x)
    (h : simpleNames.find? (·.isPrefixOf name) = none) : pSimpleType (name ++ x) = none := by
  rw [pSimpleType_name _ _ hx, h]; rfl

theorem pIntType_none {kw s : Str} {f : Nul → IntTok → STy}
    (h : ∀ n y, pKwOpen kw s = some (n, y) → pInteger y = none) : pIntType kw f s = none := by
  unfold pIntType
  cases h1 : pKwOpen kw s with
  | none => rfl
  | some p => simp [h p.1 p.2 h1]

theorem pListWith_none {ty : Str → Option (STy × Str)} {s : Str} (h : pKwOpen cs!"list" s = none) :
    pListWith ty s = none := by simp [pListWith, h]
theorem pMapWith_none {ty : Str → Option (STy × Str)} {s : Str} (h : pKwOpen cs!"map" s = none) :
    pMapWith ty s = none := by simp [pMapWith, h]
theorem pStructWith_none {ty : Str → Option (STy × Str)} {s : Str} (h : pKwOpen cs!"struct" s = none) :
    pStructWith ty s = none := by simp [pStructWith, h]

theorem pIntType_self (kw rest : Str) (f : Nul → IntTok → STy) (n : Nul) (i : Int) :
    pIntType kw f (kw ++ ((textNul n).text ++ '<' :: (decInt i ++ '>' :: rest))) = some (f n (.ofInt i), rest) := by
  unfold pIntType
  rw [pKwOpen_self]
  have := pInteger_decInt i ('>' :: rest) (by rw [nextNot_cons]; decide)
  simp [this, lit]

/-- Text of a keyword type with one integer parameter. -/
theorem rt_int_text (st : Store) (o : Opts) (kw : Str) (n : Nul) (i : Int) (rest : Str) :
    (textifyType st o (.s kw) n 0 [textIntParam i]).text ++ rest =
      kw ++ ((textNul n).text ++ '<' :: (decInt i ++ '>' :: rest)) := by
  simp [textifyType, textVariation_zero, textParamList, Out.sep, textIntParam]

theorem open_follow (n : Nul) (y : Str) : NextNot isIdentChar ((textNul n).text ++ '<' :: y) :=
  textNul_follow n ((nextNot_cons _ _ _).2 (by decide))

theorem convPrecision_ofInt {p : Int} (h0 : 0 ≤ p) (h1 : p ≤ 12) (w : Str) :
    convPrecision (.ofInt p) w = .ok p := by
  unfold convPrecision IntTok.toI32
  rw [IntTok.toInt_ofInt, if_pos ⟨by omega, by omega⟩]
  simp [h0, h1]

theorem rt_prec (st : Store) (o : Opts) (k : PrecKind) (p : Int) (n : Nul) (rest : Str) (fuel : Nat) :
    pTypeN (fuel + 1) ((textTy st o (.prec k p n 0)).text ++ rest) = some (.prec k n (.ofInt p), rest) := by
  rw [textTy, rt_int_text, pTypeN]
  have hx := open_follow n (decInt p ++ '>' :: rest)
  generalize hX : (textNul n).text ++ '<' :: (decInt p ++ '>' :: rest) = x at hx
  have hs := pIntType_self k.name rest (.prec k) n p
  rw [hX] at hs
  unfold pCompoundWith
  cases k with
  | time =>
    rw [pSimpleType_none _ _ hx (by decide),
      pListWith_none (pKwOpen_none (by decide) hx (by decide) (by decide)),
      pMapWith_none (pKwOpen_none (by decide) hx (by decide) (by decide)),
      pStructWith_none (pKwOpen_none (by decide) hx (by decide) (by decide)),
      pIntType_none (kw := cs!"precisiontimestamptz") (fun n y h => by
        rw [pKwOpen_none (by decide) hx (by decide) (by decide)] at h; cases h),
      pIntType_none (kw := cs!"precisiontimestamp") (fun n y h => by
        rw [pKwOpen_none (by decide) hx (by decide) (by decide)] at h; cases h)]
    simp only [PrecKind.name] at hs ⊢
    rw [hs]; simp
  | timestamp =>
    rw [pSimpleType_none _ _ hx (by decide),
      pListWith_none (pKwOpen_none (by decide) hx (by decide) (by decide)),
      pMapWith_none (pKwOpen_none (by decide) hx (by decide) (by decide)),
      pStructWith_none (pKwOpen_none (by decide) hx (by decide) (by decide)),
      pIntType_none (kw := cs!"precisiontimestamptz") (fun n y h => by
        rw [pKwOpen_none (by decide) hx (by decide) (by decide)] at h; cases h)]
    simp only [PrecKind.name] at hs ⊢
    rw [hs]; simp
  | timestampTz =>
    rw [pSimpleType_none _ _ hx (by decide),
      pListWith_none (pKwOpen_none (by decide) hx (by decide) (by decide)),
      pMapWith_none (pKwOpen_none (by decide) hx (by decide) (by decide)),
      pStructWith_none (pKwOpen_none (by decide) hx (by decide) (by decide))]
    simp only [PrecKind.name] at hs ⊢
    rw [hs]; simp

theorem rt_intervalDay (st : Store) (o : Opts) (p : Int) (n : Nul) (rest : Str) (fuel : Nat) :
    pTypeN (fuel + 1) ((textTy st o (.intervalDay (some p) n 0)).text ++ rest) =
      some (.intervalDay n (.ofInt p), rest) := by
  rw [textTy, Option.getD_some, rt_int_text, pTypeN]
  have hx := open_follow n (decInt p ++ '>' :: rest)
  generalize hX : (textNul n).text ++ '<' :: (decInt p ++ '>' :: rest) = x at hx
  have hs := pIntType_self cs!"interval_day" rest .intervalDay n p
  rw [hX] at hs
  unfold pCompoundWith
  rw [pSimpleType_none _ _ hx (by decide),
      pListWith_none (pKwOpen_none (by decide) hx (by decide) (by decide)),
      pMapWith_none (pKwOpen_none (by decide) hx (by decide) (by decide)),
      pStructWith_none (pKwOpen_none (by decide) hx (by decide) (by decide)),
      pIntType_none (kw := cs!"precisiontimestamptz") (fun n y h => by
        rw [pKwOpen_none (by decide) hx (by decide) (by decide)] at h; cases h),
      pIntType_none (kw := cs!"precisiontimestamp") (fun n y h => by
        rw [pKwOpen_none (by decide) hx (by decide) (by decide)] at h; cases h),
      pIntType_none (kw := cs!"precisiontime") (fun n y h => by
        rw [pKwOpen_none (by decide) hx (by decide) (by decide)] at h; cases h), hs]
  simp

theorem isAlpha_ident {c : Char} (h : isAlpha c = true) : isIdentChar c = true := by
  simp [isIdentChar, isAlnum, h]

/-- The name and anchor text of a declared type whose name is an identifier. -/
theorem textAnchor_type {st : Store} (hst : st.Ordered) (o : Opts) (ho : o.anchors ≠ .never) (ref : Nat)
    (name : Str) (hd : Declared st .type ref name) (hi : isIdentifier name = true) :
    ∃ a : Option Nat, textAnchor st o .type ref = .s (name ++ showAnchor a) ∧ (a = none ∨ a = some ref) ∧
      st.getAndValidateAnchor .type a name = .ok ref := by
  obtain ⟨c, t, rfl, hc, ht⟩ := (isIdentifier_iff name).1 hi
  have hcol : ':' ∉ c :: t := by
    intro h
    have : isIdentChar ':' = true := by
      rcases List.mem_cons.1 h with h | h
      · rw [h]; exact isAlpha_ident hc
      · exact ht _ h
    simp [isIdentChar, isAlnum, isAlpha, isUpper, isLower, isDigit] at this
  obtain ⟨na, h1, h2, h3, h4⟩ := Store.printed_type hst o.anchors ho .type (by decide) ref _ hd hcol
  have hn : na.shownName o.anchors = c :: t := by
    unfold NamedAnchor.shownName
    rw [h2, baseName_of_not_mem hcol]
    simp
  refine ⟨na.shownAnchor o.anchors, ?_, ?_, ?_⟩
  · unfold textAnchor; rw [h1]; simp only [hn]
  · unfold NamedAnchor.shownAnchor
    rw [h3]
    cases o.anchors with
    | never => exact Or.inl rfl
    | always => exact Or.inr rfl
    | required =>
      dsimp only
      split
      · exact Or.inr rfl
      · exact Or.inl rfl
  · rw [← hn]; exact h4

theorem ident_ne_bang {c : Char} (h : isIdentChar c = true) : c ≠ '!' := by
  rintro rfl; simp [isIdentChar, isAlnum, isAlpha, isUpper, isLower, isDigit] at h

theorem skipUBang_name {name x : Str} (hi : isIdentifier name = true)
    (hx : NextNot (fun c => isIdentChar c || c == '!') x) : skipUBang (name ++ x) = name ++ x := by
  obtain ⟨c, t, rfl, hc, ht⟩ := (isIdentifier_iff name).1 hi
  have hl : lit cs!"u!" (c :: t ++ x) = none := by
    cases h : lit cs!"u!" (c :: t ++ x) with
    | none => rfl
    | some r =>
      have := lit_some h
      cases t with
      | nil =>
        simp only [List.cons_append, List.nil_append, List.cons.injEq] at this
        rw [this.2] at hx
        exact absurd ((nextNot_cons _ _ _).1 hx) (by simp)
      | cons d t =>
        simp only [List.cons_append, List.nil_append, List.cons.injEq] at this
        exact absurd this.2.1 (ident_ne_bang (ht d (by simp)))
  rw [skipUBang, hl]; rfl

theorem pIdent_name {name x : Str} (hi : isIdentifier name = true) (hx : NextNot isIdentChar x) :
    pIdent (name ++ x) = some (name, x) := by
  obtain ⟨c, t, rfl, hc, ht⟩ := (isIdentifier_iff name).1 hi
  exact pIdent_append t x c hc ht hx

theorem digit_ne_space {c : Char} (h : isDigit c = true) : c ≠ ' ' := by
  rintro rfl; simp [isDigit] at h

theorem dec_next_space (n : Nat) (y : Str) : NextNot (· == ' ') (dec n ++ y) := by
  cases h : dec n with
  | nil => exact absurd h (dec_ne_nil n)
  | cons c d =>
    rw [List.cons_append, nextNot_cons]
    have := dec_all_digits n c (by rw [h]; simp)
    simpa using digit_ne_space this

theorem isDigit_ident {c : Char} (h : isDigit c = true) : isIdentChar c = true := by
  simp [isIdentChar, isAlnum, h]

theorem NextNot.digit {s : Str} (h : NextNot isIdentChar s) : NextNot isDigit s :=
  NextNot.mono h fun _ hc => isDigit_ident hc

theorem pAnchor_text (a : Option Nat) (y : Str) (hy : NextNot isIdentChar y) (hh : NextNot (· == '#') y) :
    pOpt pAnchor (showAnchor a ++ y) = (a.map fun a => ⟨false, a⟩, y) := by
  cases a with
  | none =>
    have : lit cs!"#" y = none := lit_none_of_next hh (by rfl)
    simp [showAnchor, pOpt, pAnchor, this]
  | some a =>
    have h1 := pInteger_dec a y hy.digit
    have h2 := skipSp_of_not _ (dec_next_space a y)
    simp [showAnchor, pOpt, pAnchor, lit, h1, h2]

theorem pUrn_none (y : Str) (hh : NextNot (· == '@') y) : pOpt pUrnAnchor y = (none, y) := by
  have : lit cs!"@" y = none := lit_none_of_next hh (by rfl)
  simp [pOpt, pUrnAnchor, this]

theorem unwrapU32_none : unwrapU32 none = .ok none := rfl

theorem unwrapU32_anchor {a : Option Nat} {ref : Nat} (ha : a = none ∨ a = some ref) (hr : ref < 2 ^ 32) :
    unwrapU32 (a.map fun a => ⟨false, a⟩) = .ok a := by
  rcases ha with rfl | rfl
  · rfl
  · simp only [Option.map_some, unwrapU32, IntTok.toU32, Bool.false_eq_true, if_false, hr, if_true]

theorem alpha_next {c : Char} {s : Str} (h : isAlpha c = true) : NextNot (· == ' ') (c :: s) := by
  rw [nextNot_cons]
  rw [beq_eq_false_iff_ne]
  rintro rfl; simp [isAlpha, isUpper, isLower] at h

theorem pInteger_alpha {c : Char} {s : Str} (h : isAlpha c = true) : pInteger (c :: s) = none := by
  have hm : c ≠ '-' := by rintro rfl; simp [isAlpha, isUpper, isLower] at h
  have hd : isDigit c = false := by
    cases hd : isDigit c with
    | false => rfl
    | true =>
      simp only [isAlpha, isUpper, isLower, isDigit, Bool.or_eq_true, Bool.and_eq_true,
        decide_eq_true_eq] at h hd
      omega
  have : pMinus (c :: s) = (false, c :: s) := by
    unfold pMinus
    split
    · next h' => cases h'; exact absurd rfl hm
    · rfl
  simp [pInteger, this, pDigits, hd]

theorem reserved_find {name : Str} (h : ∀ w ∈ reservedPrefixes, ¬ w <+: name) :
    simpleNames.find? (·.isPrefixOf name) = none := by
  rw [List.find?_eq_none]
  intro k hk
  have hcov : ∀ k ∈ simpleNames, ∃ w ∈ reservedPrefixes, w <+: k := by decide
  obtain ⟨w, hw, hwk⟩ := hcov k hk
  intro hp
  exact h w hw (hwk.trans (List.isPrefixOf_iff_prefix.1 hp))

/-- Text of the parameter list. -/
def paramsText (ts : List Str) : Str := if ts = [] then [] else '<' :: (joinS cs!", " ts ++ cs!">")

theorem textParamList_text (ps : List Out) : (textParamList ps).text = paramsText (ps.map Out.text) := by
  cases ps with
  | nil => rfl
  | cons p ps => simp [textParamList, paramsText, Out.text_sep]

theorem bracket_lower : ∀ w ∈ bracketWords, w.map toLower = w := by decide

theorem compound_none_user {name x : Str} {ty : Str → Option (STy × Str)} {bare : Prop}
    (hname : TypeName name bare) (hx : NextNot isIdentChar x)
    (hopen : ∀ y, lit cs!"<" (pNullability x).2 = some y → ¬ bare ∧ pInteger y = none) :
    pCompoundWith ty (name ++ x) = none := by
  have hi : ∀ c ∈ name, isIdentChar c = true := by
    obtain ⟨c, t, rfl, hc, ht⟩ := (isIdentifier_iff name).1 hname.1
    intro d hd
    rcases List.mem_cons.1 hd with rfl | hd
    · exact isAlpha_ident hc
    · exact ht d hd
  have hbr : ∀ w ∈ bracketWords, (∀ c ∈ w, isIdentChar c = true) → pKwOpen w (name ++ x) = none := by
    intro w hw hwi
    cases h : pKwOpen w (name ++ x) with
    | none => rfl
    | some p =>
      have h1 := pKwOpen_name hwi hx hi h
      have h2 := (hopen _ h1.2.1).1
      rcases hname.2.2 with hb | hb
      · exact absurd hb h2
      · rw [h1.1, bracket_lower w hw] at hb; exact absurd hw hb
  have hint : ∀ w f, (∀ c ∈ w, isIdentChar c = true) → pIntType w f (name ++ x) = none := by
    intro w f hwi
    apply pIntType_none
    intro n y h
    exact (hopen _ (pKwOpen_name hwi hx hi h).2.1).2
  unfold pCompoundWith
  rw [pListWith_none (hbr _ (by decide) (by decide)), pMapWith_none (hbr _ (by decide) (by decide)),
    pStructWith_none (hbr _ (by decide) (by decide)), hint _ _ (by decide), hint _ _ (by decide),
    hint _ _ (by decide), hint _ _ (by decide)]
  rfl

/-- The text of a writable type begins with a letter. -/
theorem writable_head {st : Store} (hst : st.Ordered) (o : Opts) (ho : o.anchors ≠ .never) (t : Ty)
    (h : Writable st t) : ∃ c tl, (textTy st o t).text = c :: tl ∧ isAlpha c = true := by
  cases t with
  | simple k n v =>
    cases k <;> exact ⟨_, _, rfl, by decide⟩
  | intervalDay p n v => exact ⟨_, _, rfl, by decide⟩
  | prec k p n v => cases k <;> exact ⟨_, _, rfl, by decide⟩
  | list t n v => exact ⟨_, _, rfl, by decide⟩
  | user ref ps n v =>
    unfold Writable at h
    obtain ⟨-, -, ⟨name, hd, hn⟩, -⟩ := h
    obtain ⟨a, h1, -, -⟩ := textAnchor_type hst o ho ref name hd hn.1
    obtain ⟨c, t, rfl, hc, ht⟩ := (isIdentifier_iff name).1 hn.1
    exact ⟨c, _, by rw [textTy, textUser, textifyType, h1]; rfl, hc⟩
  | _ => simp [Writable] at h

theorem close_follow (rest : Str) : TyFollow ('>' :: rest) := (nextNot_cons _ _ _).2 (by decide)
theorem comma_follow (rest : Str) : TyFollow (cs!", " ++ rest) := (nextNot_cons _ _ _).2 (by decide)

theorem pParamWith_ty {ty : Str → Option (STy × Str)} {s r : Str} {t : STy} (h : ty s = some (t, r)) :
    pParamWith ty s = some (.ty t, r) := by simp [pParamWith, h, mapFst]

theorem lit_lt_none {y : Str} (h : TyFollow y) : lit cs!"<" y = none :=
  lit_none_of_next h (by decide)

/-- Reading a user-defined type, given its parameters. -/
theorem rt_user {ty : Str → Option (STy × Str)} {name : Str} {a : Option Nat} {n : Nul}
    {items : List (Str × SParam)} {rest : Str}
    (hname : TypeName name (items = [])) (hr : TyFollow rest)
    (hp : ∀ i ∈ items, ∀ r, TyFollow r → pParamWith ty (i.1 ++ r) = some (i.2, r))
    (hh : ∀ i ∈ items, ∃ c tl, i.1 = c :: tl ∧ isAlpha c = true) :
    let s := name ++ (showAnchor a ++ ((textNul n).text ++ (paramsText (items.map (·.1)) ++ rest)))
    pSimpleType s = none ∧ pCompoundWith ty s = none ∧
    pUserWith ty s = some (.user name (a.map fun a => ⟨false, a⟩) none n
      (if items = [] then none else some (items.map (·.2))), rest) := by
  intro s
  -- what follows each piece
  have hz : NextNot (fun c => typeContinues c && c != '<') (paramsText (items.map (·.1)) ++ rest) := by
    unfold paramsText
    split
    · exact NextNot.mono hr fun c hc => by simp at hc; exact hc.1
    · exact (nextNot_cons _ _ _).2 (by decide)
  have hy : NextNot (fun c => isIdentChar c || c == '#' || c == '@' || c == '!')
      ((textNul n).text ++ (paramsText (items.map (·.1)) ++ rest)) := by
    cases n with
    | unspecified => exact (nextNot_cons _ _ _).2 (by decide)
    | nullable => exact (nextNot_cons _ _ _).2 (by decide)
    | required =>
      refine NextNot.mono hz fun c hc => ?_
      simp only [Bool.or_eq_true, beq_iff_eq] at hc
      rcases hc with ((hc | rfl) | rfl) | rfl
      · simp only [typeContinues, hc, Bool.true_or, Bool.true_and]
        rw [bne_iff_ne]
        rintro rfl
        revert hc; decide
      · decide
      · decide
      · decide
  have hx : NextNot (fun c => isIdentChar c || c == '!')
      (showAnchor a ++ ((textNul n).text ++ (paramsText (items.map (·.1)) ++ rest))) := by
    cases a with
    | some a => exact (nextNot_cons _ _ _).2 (by decide)
    | none =>
      refine NextNot.mono hy fun c hc => ?_
      simp only [Bool.or_eq_true, beq_iff_eq] at hc ⊢
      rcases hc with hc | rfl
      · exact Or.inl (Or.inl (Or.inl hc))
      · exact Or.inr rfl
  have hxi := NextNot.mono (q := isIdentChar) hx fun c hc => by simp [hc]
  have hyi := NextNot.mono (q := isIdentChar) hy fun c hc => by simp [hc]
  have hnul := pNullability_text n (paramsText (items.map (·.1)) ++ rest)
    (NextNot.mono hz fun c hc => by
      simp only [Bool.or_eq_true, beq_iff_eq] at hc
      rcases hc with rfl | rfl <;> decide)
  have hparams : items ≠ [] → pParamsWith ty (paramsText (items.map (·.1)) ++ rest) = some (items.map (·.2), rest) := by
    intro hne
    have h1 := pSep1_join commaSp (pParamWith ty) cs!", " TyFollow ('>' :: rest) items (by decide) hne
      (fun i hi r => by
        obtain ⟨c, tl, h, hc⟩ := hh i hi
        apply commaSp_join
        rw [h]; exact alpha_next hc)
      comma_follow (close_follow rest)
      (pStarN_stop _ _ _ (by simp [commaSp, lit]))
      hp
    have h2 : paramsText (items.map (·.1)) ++ rest = '<' :: (joinS cs!", " (items.map (·.1)) ++ '>' :: rest) := by
      simp [paramsText, hne]
    rw [h2]
    simp [pParamsWith, lit, pParamsTail, pSep, h1]
  refine ⟨?_, ?_, ?_⟩
  · exact pSimpleType_none _ _ hxi (reserved_find hname.2.1)
  · refine compound_none_user hname hxi ?_
    intro y hl
    cases a with
    | some a =>
      have : pNullability (showAnchor (some a) ++ ((textNul n).text ++ (paramsText (items.map (·.1)) ++ rest))) =
        (.required, showAnchor (some a) ++ ((textNul n).text ++ (paramsText (items.map (·.1)) ++ rest))) :=
        pNullability_other ((nextNot_cons _ _ _).2 (by decide))
      rw [this] at hl
      simp [showAnchor] at hl
    | none =>
      simp only [showAnchor, List.nil_append, hnul] at hl
      by_cases hne : items = []
      · subst hne
        simp only [List.map_nil, paramsText, if_true, List.nil_append] at hl
        rw [lit_lt_none hr] at hl; cases hl
      · refine ⟨hne, ?_⟩
        cases items with
        | nil => exact absurd rfl hne
        | cons i items =>
          obtain ⟨c, tl, h, hc⟩ := hh i (by simp)
          have h2 : paramsText ((i :: items).map (·.1)) ++ rest = '<' :: (joinS cs!", " ((i :: items).map (·.1)) ++ '>' :: rest) := by
            simp [paramsText]
          rw [h2] at hl
          have h3 := lit_some hl
          simp only [List.cons_append, List.nil_append, List.cons.injEq, true_and] at h3
          rw [← h3, List.map_cons, joinS_cons, h]
          exact pInteger_alpha hc
  · have hid := pIdent_name hname.1 hxi
    have hub := skipUBang_name hname.1 hx
    have han := pAnchor_text a _ hyi (NextNot.mono hy fun c hc => by simp at hc; simp [hc])
    have hur := pUrn_none _ (NextNot.mono hy fun c hc => by simp at hc; simp [hc])
    unfold pUserWith
    simp only [s, hub, hid, han, hur, hnul, Option.bind_eq_bind, Option.bind_some]
    by_cases hne : items = []
    · subst hne
      have : pParamsWith ty rest = none := by simp [pParamsWith, lit_lt_none hr]
      simp [paramsText, pOpt, this]
    · rw [if_neg hne]
      simp [pOpt, hparams hne]

theorem rt_list {st : Store} {o : Opts} {t : Ty} {n : Nul} {rest : Str} {fuel : Nat} {sy : STy}
    (h : pTypeN fuel ((textTy st o t).text ++ '>' :: rest) = some (sy, '>' :: rest)) :
    pTypeN (fuel + 1) ((textTy st o (.list (some t) n 0)).text ++ rest) = some (.list n sy, rest) := by
  have ht : (textTy st o (.list (some t) n 0)).text ++ rest =
      cs!"list" ++ ((textNul n).text ++ '<' :: ((textTy st o t).text ++ '>' :: rest)) := by
    simp [textTy, textTyOpt, textifyType, textVariation_zero, textParamList, Out.sep]
  rw [ht, pTypeN]
  have hs : pListWith (pTypeN fuel) (cs!"list" ++ ((textNul n).text ++ '<' :: ((textTy st o t).text ++ '>' :: rest)))
      = some (.list n sy, rest) := by
    unfold pListWith
    rw [pKwOpen_self]
    simp [h]
  have hx := open_follow n ((textTy st o t).text ++ '>' :: rest)
  unfold pCompoundWith
  rw [pSimpleType_none _ _ hx (by decide), hs]
  simp

theorem length_lt_paramsText (l : List Str) (x : Str) (hx : x ∈ l) : x.length < (paramsText l).length := by
  have hne : l ≠ [] := by rintro rfl; cases hx
  have := length_le_joinS cs!", " l x hx
  simp only [paramsText, hne, if_false, List.length_cons, List.length_append]
  omega

mutual
/-- A writable type is read back from its text, whatever follows. -/
theorem rt_ty {st : Store} (hst : st.Ordered) (o : Opts) (ho : o.anchors ≠ .never) :
    (t : Ty) → Writable st t → ∃ s, convTy st s = .ok t ∧
      ∀ (fuel : Nat) (rest : Str), (textTy st o t).text.length < fuel →
        TyFollow rest → pTypeN fuel ((textTy st o t).text ++ rest) = some (s, rest)
  | .simple k n v, h => by
    unfold Writable at h
    subst h
    refine ⟨.simple k.name n, by rw [convTy]; exact convSimple_name k n, ?_⟩
    intro fuel rest hf hr
    obtain ⟨fuel, rfl⟩ : ∃ f, fuel = f + 1 := ⟨fuel - 1, by omega⟩
    exact rt_simple st o k n rest fuel hr
  | .intervalDay (some p) n v, h => by
    unfold Writable at h
    obtain ⟨rfl, h0, h1⟩ := h
    refine ⟨.intervalDay n (.ofInt p), by rw [convTy, convPrecision_ofInt h0 h1]; rfl, ?_⟩
    intro fuel rest hf hr
    obtain ⟨fuel, rfl⟩ : ∃ f, fuel = f + 1 := ⟨fuel - 1, by omega⟩
    exact rt_intervalDay st o p n rest fuel
  | .prec k p n v, h => by
    unfold Writable at h
    obtain ⟨rfl, h0, h1⟩ := h
    refine ⟨.prec k n (.ofInt p), by rw [convTy, convPrecision_ofInt h0 h1]; rfl, ?_⟩
    intro fuel rest hf hr
    obtain ⟨fuel, rfl⟩ : ∃ f, fuel = f + 1 := ⟨fuel - 1, by omega⟩
    exact rt_prec st o k p n rest fuel
  | .list (some t) n v, h => by
    unfold Writable at h
    obtain ⟨rfl, ht⟩ := h
    obtain ⟨s, h1, h2⟩ := rt_ty hst o ho t ht
    refine ⟨.list n s, by rw [convTy, h1]; rfl, ?_⟩
    intro fuel rest hf hr
    obtain ⟨fuel, rfl⟩ : ∃ f, fuel = f + 1 := ⟨fuel - 1, by omega⟩
    have hlen : (textTy st o t).text.length < fuel := by
      simp [textTy, textTyOpt, textifyType, textVariation_zero, textParamList, Out.sep] at hf
      omega
    exact rt_list (h2 fuel ('>' :: rest) hlen (close_follow rest))
  | .user ref ps n v, h => by
    unfold Writable at h
    obtain ⟨rfl, href, ⟨name, hd, hname⟩, hps⟩ := h
    obtain ⟨a, h1, h2, h3⟩ := textAnchor_type hst o ho ref name hd hname.1
    have htext : (textTy st o (.user ref ps n 0)).text =
        name ++ (showAnchor a ++ ((textNul n).text ++ (paramsText ((textParams st o ps).map Out.text)))) := by
      simp [textTy, textUser, textifyType, h1, textVariation_zero, textParamList_text]
    obtain ⟨items, hi1, hi3, hi4, hi2⟩ := rt_params hst o ho ps hps
    have hbare : (ps = []) ↔ (items = []) := by
      have : ((textParams st o ps).map Out.text).length = items.length := by rw [← hi1]; simp
      cases ps with
      | nil => cases items with
        | nil => simp
        | cons i is => simp [textParams] at this
      | cons p ps => cases items with
        | nil => simp [textParams] at this
        | cons i is => simp
    have hname' : TypeName name (items = []) := by
      rw [← hbare]; exact hname
    refine ⟨.user name (a.map fun a => ⟨false, a⟩) none n (if items = [] then none else some (items.map (·.2))), ?_, ?_⟩
    · have hu := unwrapU32_anchor h2 href
      by_cases hne : items = []
      · rw [if_pos hne]
        have := hbare.2 hne
        subst this
        simp [convTy, hu, unwrapU32_none, h3, ofLookup]
      · rw [if_neg hne]
        simp [convTy, hu, unwrapU32_none, hi4, h3, ofLookup]
    · intro fuel rest hf hr
      obtain ⟨fuel, rfl⟩ : ∃ f, fuel = f + 1 := ⟨fuel - 1, by omega⟩
      have hlen : ∀ x ∈ (textParams st o ps).map Out.text, x.length < fuel := by
        intro x hx
        rw [htext] at hf
        simp only [List.length_append] at hf
        have := length_lt_paramsText _ x hx
        omega
      obtain ⟨hs, hc, hu⟩ := rt_user (ty := pTypeN fuel) (a := a) (n := n) (rest := rest) hname' hr (hi2 fuel hlen) hi3
      rw [hi1] at hs hc hu
      rw [htext]
      simp only [List.append_assoc] at hs hc hu ⊢
      rw [pTypeN, hs, hc, hu]
      rfl
/-- Writable parameters are read back from their texts. -/
theorem rt_params {st : Store} (hst : st.Ordered) (o : Opts) (ho : o.anchors ≠ .never) :
    (ps : List Param) → WritableParams st ps →
      ∃ items : List (Str × SParam), items.map (·.1) = (textParams st o ps).map Out.text ∧
        (∀ i ∈ items, ∃ c tl, i.1 = c :: tl ∧ isAlpha c = true) ∧
        convParams st (items.map (·.2)) = .ok ps ∧
        ∀ (fuel : Nat), (∀ x ∈ (textParams st o ps).map Out.text, x.length < fuel) →
          ∀ i ∈ items, ∀ r, TyFollow r → pParamWith (pTypeN fuel) (i.1 ++ r) = some (i.2, r)
  | [], _ => ⟨[], rfl, by simp, rfl, by simp⟩
  | .ty t :: ps, h => by
    unfold WritableParams at h
    obtain ⟨items, h1, h2, h3, h4⟩ := rt_params hst o ho ps h.2
    obtain ⟨s, hconv, hs⟩ := rt_ty hst o ho t h.1
    refine ⟨((textTy st o t).text, .ty s) :: items, by simp [h1, textParams, textParam], ?_, ?_, ?_⟩
    · intro i hi
      rcases List.mem_cons.1 hi with rfl | hi
      · exact writable_head hst o ho t h.1
      · exact h2 i hi
    · simp [convParams, convParam, hconv, convCons, h3, Res.map]
    · intro fuel hlen i hi r hr
      rcases List.mem_cons.1 hi with rfl | hi
      · exact pParamWith_ty (hs fuel r (hlen _ (by simp [textParams, textParam])) hr)
      · exact h4 fuel (fun x hx => hlen x (by simp only [textParams, List.map_cons]; exact List.mem_cons_of_mem _ hx))
          i hi r hr
end

/-- The same for the rule as it is used, with fuel from the input. -/
theorem pType_text {st : Store} (hst : st.Ordered) (o : Opts) (ho : o.anchors ≠ .never) (t : Ty)
    (h : Writable st t) : ∃ s, convTy st s = .ok t ∧
      ∀ rest, TyFollow rest → pType ((textTy st o t).text ++ rest) = some (s, rest) := by
  obtain ⟨s, h1, h2⟩ := rt_ty hst o ho t h
  refine ⟨s, h1, fun rest hr => h2 _ rest ?_ hr⟩
  simp only [List.length_append]
  omega

end Verif
