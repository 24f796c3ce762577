import Verif.Spec.Pest
import Verif.Model.RelLines
import Verif.Model.ExtSection
import Verif.Proofs.Grammar
/-!
# The recognisers are the grammar file: terminals and the rules for types
-/

namespace Verif
namespace PestSpec

set_option autoImplicit false

/-! ## The meaning of a grammar -/

theorem Peg.det {g : G} {s : Str} {o o' : Option Str} (h : Peg g s o) (h' : Peg g s o') : o = o' := by
  induction h generalizing o' with
  | lit k r =>
    generalize e : k ++ r = s at h'
    cases h' with
    | lit _ r' => rw [List.append_cancel_left e]
    | litFail hf => exact absurd ⟨r, e.symm⟩ hf
  | litFail hf =>
    cases h' with
    | lit _ r' => exact absurd ⟨r', rfl⟩ hf
    | litFail _ => rfl
  | litI r hx =>
    rename_i k x
    generalize e : x ++ r = s at h'
    cases h' with
    | litI r' hx' =>
      have hl := congrArg List.length (hx.trans hx'.symm)
      simp only [List.length_map] at hl
      rw [(List.append_inj e hl).2]
    | litIFail hf => exact absurd ⟨x, r, e.symm, hx⟩ hf
  | litIFail hf =>
    cases h' with
    | litI r hx => exact absurd ⟨_, r, rfl, hx⟩ hf
    | litIFail _ => rfl
  | any => cases h'; rfl
  | anyFail => cases h'; rfl
  | range s h1 h2 =>
    cases h' with
    | range => rfl
    | rangeFail hf => exact absurd ⟨_, s, rfl, h1, h2⟩ hf
  | rangeFail hf =>
    cases h' with
    | range r h1 h2 => exact absurd ⟨_, r, rfl, h1, h2⟩ hf
    | rangeFail => rfl
  | eoi => cases h'; rfl
  | eoiFail => cases h'; rfl
  | seq _ _ ih1 ih2 =>
    cases h' with
    | seq ha hb => cases ih1 ha; exact ih2 hb
    | seqFail ha => cases ih1 ha
  | seqFail _ ih =>
    cases h' with
    | seq ha hb => cases ih ha
    | seqFail ha => rfl
  | altFirst _ ih =>
    cases h' with
    | altFirst ha => exact ih ha
    | altNext ha hb => cases ih ha
  | altNext _ _ ih1 ih2 =>
    cases h' with
    | altFirst ha => cases ih1 ha
    | altNext ha hb => exact ih2 hb
  | starStop _ ih =>
    cases h' with
    | starStop => rfl
    | starMore ha hb => cases ih ha
  | starMore _ _ ih1 ih2 =>
    cases h' with
    | starStop ha => cases ih1 ha
    | starMore ha hb => cases ih1 ha; exact ih2 hb
  | optSome _ ih =>
    cases h' with
    | optSome ha => exact ih ha
    | optNone ha => cases ih ha
  | optNone _ ih =>
    cases h' with
    | optSome ha => cases ih ha
    | optNone ha => rfl
  | no _ ih =>
    cases h' with
    | no => rfl
    | noFail ha => cases ih ha
  | noFail _ ih =>
    cases h' with
    | no ha => cases ih ha
    | noFail ha => rfl
  | rule _ ih =>
    cases h' with
    | rule ha => exact ih ha

/-- What is left is an end of what was there. -/
theorem Peg.suffix {g : G} {s : Str} {o : Option Str} (h : Peg g s o) : ∀ r, o = some r → r <:+ s := by
  induction h with
  | lit k r => intro _ e; cases e; exact List.suffix_append _ _
  | litI r _ => intro _ e; cases e; exact List.suffix_append _ _
  | any c s => intro _ e; cases e; exact List.suffix_cons _ _
  | range s _ _ => intro _ e; cases e; exact List.suffix_cons _ _
  | eoi => intro _ e; cases e; exact List.suffix_refl _
  | seq _ _ ih1 ih2 => intro r e; exact (ih2 r e).trans (ih1 _ rfl)
  | altFirst _ ih => exact ih
  | altNext _ _ _ ih => exact ih
  | starStop => intro _ e; cases e; exact List.suffix_refl _
  | starMore _ _ ih1 ih2 => intro r e; exact (ih2 r e).trans (ih1 _ rfl)
  | optSome _ ih => exact ih
  | optNone => intro _ e; cases e; exact List.suffix_refl _
  | no => intro _ e; cases e; exact List.suffix_refl _
  | rule _ ih => exact ih
  | _ => intro _ e; cases e

theorem Peg.le {g : G} {s r : Str} (h : Peg g s (some r)) : r.length ≤ s.length := (h.suffix r rfl).length_le

/-! ## Steps -/

variable {α β : Type}

/-- What is left after a match. -/
abbrev ext (o : Option (α × Str)) : Option Str := o.map Prod.snd

theorem Peg.alt {a b : G} {s : Str} {x y : Option (α × Str)} (ha : Peg a s (ext x)) (hb : Peg b s (ext y)) :
    Peg (a /// b) s (ext (x.or y)) := by
  cases x with
  | none => exact .altNext ha hb
  | some x => exact .altFirst ha

theorem Peg.bindPair {a b : G} {s : Str} {p : Option (β × Str)} {f : β × Str → Option (α × Str)}
    (ha : Peg a s (ext p)) (hb : ∀ x r, p = some (x, r) → r.length ≤ s.length → Peg b r (ext (f (x, r)))) :
    Peg (a ~~ b) s (ext (p >>= f)) := by
  cases p with
  | none => exact .seqFail ha
  | some x => exact .seq ha (hb x.1 x.2 rfl ha.le)

theorem Peg.bindStr {a b : G} {s : Str} {p : Option Str} {f : Str → Option (α × Str)}
    (ha : Peg a s p) (hb : ∀ r, p = some r → r.length ≤ s.length → Peg b r (ext (f r))) :
    Peg (a ~~ b) s (ext (p >>= f)) := by
  cases p with
  | none => exact .seqFail ha
  | some x => exact .seq ha (hb x rfl ha.le)

theorem Peg.last {a : G} {s : Str} {p : Option Str} {v : α} (ha : Peg a s p) :
    Peg a s (ext (p >>= fun r => some (v, r))) := by
  cases p <;> exact ha

theorem Peg.lastPair {a : G} {s : Str} {p : Option (β × Str)} {f : β × Str → Option (α × Str)}
    (hf : ∀ x, ext (f x) = some x.2) (ha : Peg a s (ext p)) : Peg a s (ext (p >>= f)) := by
  cases p with
  | none => exact ha
  | some x => show Peg a s (ext (f x)); rw [hf]; exact ha

theorem Peg.opt_ {a : G} {s : Str} {p : Str → Option (α × Str)} (ha : Peg a s (ext (p s))) :
    Peg (.opt a) s (some (pOpt p s).2) := by
  unfold pOpt
  cases h : p s with
  | none => rw [h] at ha; exact .optNone ha
  | some x => rw [h] at ha; exact .optSome ha

theorem ext_mapFst (f : α → β) (o : Option (α × Str)) : ext (mapFst f o) = ext o := by
  cases o <;> rfl

theorem Peg.mapFst_ {a : G} {s : Str} {f : α → β} {o : Option (α × Str)} (h : Peg a s (ext o)) :
    Peg a s (ext (mapFst f o)) := by rw [ext_mapFst]; exact h

theorem ext_map {o : Option Str} {v : α} : ext (o.map fun r => (v, r)) = o := by
  cases o <;> rfl

theorem Peg.tag {a : G} {s : Str} {v : α} {o : Option Str} (h : Peg a s o) :
    Peg a s (ext (o.map fun r => (v, r))) := by rw [ext_map]; exact h

/-! ## Terminals -/

theorem lit_iff : ∀ (k s r : Str), lit k s = some r ↔ s = k ++ r
  | [], s, r => by simp [lit]
  | _ :: _, [], r => by simp [lit]
  | c :: k, d :: s, r => by
    unfold lit
    by_cases h : c = d
    · subst h; simp [lit_iff k s r]
    · simp [h, Ne.symm h]

theorem peg_lit (k s : Str) : Peg (.lit k) s (lit k s) := by
  cases h : lit k s with
  | none =>
    refine .litFail ?_
    rintro ⟨r, e⟩
    rw [(lit_iff k s r).2 e] at h
    cases h
  | some r => rw [(lit_iff k s r).1 h]; exact .lit k r

theorem lit_app (a b s : Str) : lit (a ++ b) s = (lit a s).bind (lit b) := by
  induction a generalizing s with
  | nil => rfl
  | cons c a ih =>
    cases s with
    | nil => rfl
    | cons d s =>
      show (if c = d then lit (a ++ b) s else none) = (if c = d then lit a s else none).bind (lit b)
      split
      · exact ih s
      · rfl

theorem peg_lit2 (a b s : Str) {g : G} {o : Option Str} (h : Peg (.lit (a ++ b) ~~ g) s o) : Peg (.lit a ~~ .lit b ~~ g) s o := by
  have e := peg_lit (a ++ b) s
  rw [lit_app] at e
  cases h with
  | seqFail h =>
    have := h.det e
    cases h1 : lit a s with
    | none => exact .seqFail (h1 ▸ peg_lit a s)
    | some t =>
      rw [h1] at this
      exact .seq (h1 ▸ peg_lit a s) (.seqFail (this ▸ peg_lit b t))
  | seq h1 h2 =>
    have := h1.det e
    cases h1 : lit a s with
    | none => rw [h1] at this; cases this
    | some t =>
      rw [h1] at this
      exact .seq (h1 ▸ peg_lit a s) (.seq (this ▸ peg_lit b t) h2)

theorem lit_len {k s r : Str} (h : lit k s = some r) : r.length + k.length = s.length := by
  rw [(lit_iff k s r).1 h]; simp; omega

theorem litI_iff : ∀ (k s r : Str), litI k s = some r ↔ ∃ x, s = x ++ r ∧ x.map Char.toLower = k.map Char.toLower
  | [], s, r => by
    unfold litI
    constructor
    · intro h; cases h; exact ⟨[], rfl, rfl⟩
    · rintro ⟨x, rfl, hx⟩
      cases x with
      | nil => rfl
      | cons => cases hx
  | _ :: _, [], r => by
    unfold litI
    constructor
    · intro h; cases h
    · rintro ⟨x, e, hx⟩
      cases x with
      | nil => cases hx
      | cons => cases e
  | c :: k, d :: s, r => by
    unfold litI
    rw [toLower_core, toLower_core]
    constructor
    · intro h
      split at h
      · rename_i e
        obtain ⟨x, e1, e2⟩ := (litI_iff k s r).1 h
        exact ⟨d :: x, by rw [e1]; rfl, by simp [e, e2]⟩
      · cases h
    · rintro ⟨x, e, hx⟩
      cases x with
      | nil => cases hx
      | cons y x =>
        cases e
        injection hx with h1 h2
        rw [if_pos h1.symm]
        exact (litI_iff k _ r).2 ⟨x, rfl, h2⟩

theorem peg_litI (k s : Str) : Peg (.litI k) s (litI k s) := by
  cases h : litI k s with
  | none =>
    refine .litIFail ?_
    rintro ⟨x, r, e⟩
    rw [(litI_iff k s r).2 ⟨x, e⟩] at h
    cases h
  | some r =>
    obtain ⟨x, rfl, e⟩ := (litI_iff k s r).1 h
    exact .litI r e

theorem litI_len {k s r : Str} (h : litI k s = some r) : r.length + k.length = s.length := by
  obtain ⟨x, rfl, e⟩ := (litI_iff k s r).1 h
  have := congrArg List.length e
  simp at this ⊢
  omega

/-- A class of characters. -/
def IsClass (g : G) (p : Char → Bool) : Prop :=
  Peg g [] none ∧ ∀ c s, Peg g (c :: s) (if p c = true then some s else none)

theorem IsClass.star {g : G} {p : Char → Bool} (h : IsClass g p) : ∀ s : Str, Peg (.star g) s (some (s.dropWhile p))
  | [] => .starStop h.1
  | c :: s => by
    have hc := h.2 c s
    rw [List.dropWhile_cons]
    by_cases e : p c = true
    · rw [if_pos e] at hc ⊢
      exact .starMore hc (IsClass.star h s)
    · rw [if_neg e] at hc ⊢
      exact .starStop hc

theorem IsClass.or {g g' : G} {p p' : Char → Bool} (h : IsClass g p) (h' : IsClass g' p') :
    IsClass (g /// g') (fun c => p c || p' c) := by
  refine ⟨.altNext h.1 h'.1, fun c s => ?_⟩
  have h1 := h.2 c s
  have h2 := h'.2 c s
  by_cases e : p c = true
  · rw [if_pos e] at h1; simp only [e, Bool.true_or, if_true]; exact .altFirst h1
  · rw [if_neg e] at h1; simp only [e, Bool.false_or]; exact .altNext h1 h2

theorem isClass_range (a b : Char) : IsClass (.range a b) (fun c => decide (a ≤ c) && decide (c ≤ b)) := by
  refine ⟨.rangeFail (by rintro ⟨c, r, e, -⟩; cases e), fun c s => ?_⟩
  by_cases h1 : a ≤ c
  · by_cases h2 : c ≤ b
    · simp only [h1, h2, decide_true, Bool.and_self, if_true]; exact .range s h1 h2
    · simp only [h1, h2, decide_true, decide_false, Bool.and_false]
      refine .rangeFail ?_
      rintro ⟨c', r, e, -, h⟩
      cases e; exact h2 h
  · simp only [h1, decide_false, Bool.false_and]
    refine .rangeFail ?_
    rintro ⟨c', r, e, h, -⟩
    cases e; exact h1 h

theorem isClass_lit (c : Char) : IsClass (.lit [c]) (· == c) := by
  refine ⟨peg_lit [c] [], fun d s => ?_⟩
  have := peg_lit [c] (d :: s)
  unfold lit lit at this
  by_cases h : c = d
  · subst h; simpa using this
  · rw [if_neg h] at this
    simpa [Ne.symm h] using this

theorem IsClass.congr {g : G} {p q : Char → Bool} (h : IsClass g p) (e : ∀ c, p c = q c) : IsClass g q := by
  rw [← (funext e : p = q)]; exact h

theorem isClass_rule {r : R} {p : Char → Bool} (h : IsClass (grammar r) p) : IsClass (.rule r) p :=
  ⟨.rule h.1, fun c s => .rule (h.2 c s)⟩

theorem char_le (a c : Char) : decide (a ≤ c) = decide (a.toNat ≤ c.toNat) := rfl

theorem isClass_digit : IsClass .digit isDigit := (isClass_range '0' '9').congr fun _ => rfl

theorem isClass_alpha : IsClass .alpha isAlpha :=
  ((isClass_range 'a' 'z').or (isClass_range 'A' 'Z')).congr fun c => Bool.or_comm _ _

theorem isClass_alnum : IsClass .alnum isAlnum :=
  ((isClass_range '0' '9').or ((isClass_range 'a' 'z').or (isClass_range 'A' 'Z'))).congr fun c => by
    rw [Bool.or_comm]; exact congrArg (· || _) (Bool.or_comm _ _)

theorem isClass_ident : IsClass (.alnum /// .lit cs!"_") isIdentChar := isClass_alnum.or (isClass_lit '_')

theorem peg_whitespace (s : Str) : Peg R.whitespace s (lit cs!" " s) := .rule (peg_lit _ _)

theorem peg_sp (s : Str) : Peg R.sp s (some (skipSp s)) :=
  .rule (IsClass.star (isClass_rule (r := .whitespace) (isClass_lit ' ')) s)

theorem Peg.sp_ {b : G} {s : Str} {o : Option Str} (h : Peg b (skipSp s) o) : Peg (R.sp ~~ b) s o :=
  .seq (peg_sp s) h

theorem skipSp_le' (s : Str) : (skipSp s).length ≤ s.length := (peg_sp s).le

theorem IsClass.plus {g : G} {p : Char → Bool} (h : IsClass g p) (s : Str) :
    Peg (.plus g) s (if (s.takeWhile p).isEmpty then none else some (s.dropWhile p)) := by
  cases s with
  | nil => exact .seqFail h.1
  | cons c s =>
    have hc := h.2 c s
    rw [List.dropWhile_cons, List.takeWhile_cons]
    by_cases e : p c = true
    · rw [if_pos e] at hc ⊢
      rw [if_pos e]
      exact .seq hc (h.star s)
    · rw [if_neg e] at hc ⊢
      exact .seqFail hc

theorem peg_digits (s : Str) : Peg (.plus .digit) s (ext (pDigits s)) := by
  have := isClass_digit.plus s
  unfold pDigits
  dsimp only
  split
  · rename_i h; rw [if_pos h] at this; exact this
  · rename_i h; rw [if_neg h] at this; exact this

theorem peg_identifier (s : Str) : Peg R.identifier s (ext (pIdent s)) := by
  refine .rule ?_
  cases s with
  | nil => exact .seqFail isClass_alpha.1
  | cons c s =>
    have hc := isClass_alpha.2 c s
    unfold pIdent
    dsimp only
    by_cases e : isAlpha c = true
    · rw [if_pos e] at hc ⊢
      exact .seq hc (isClass_ident.star s)
    · rw [if_neg e] at hc ⊢
      exact .seqFail hc

theorem peg_minus (s : Str) : Peg (.opt (.lit cs!"-")) s (some (pMinus s).2) := by
  have := peg_lit cs!"-" s
  unfold pMinus
  split
  · exact .optSome this
  · rename_i h
    cases e : lit cs!"-" s with
    | none => rw [e] at this; exact .optNone this
    | some r => exact absurd ((lit_iff _ _ _).1 e) (h r)

theorem peg_integer (s : Str) : Peg R.integer s (ext (pInteger s)) := by
  refine .rule (.seq (peg_minus s) ?_)
  have := peg_digits (pMinus s).2
  unfold pInteger
  dsimp only
  cases h : pDigits (pMinus s).2 with
  | none => rw [h] at this; exact this
  | some x => rw [h] at this; exact this

theorem peg_float (s : Str) : Peg R.float s (ext (pFloat s)) := by
  refine .rule (.seq (peg_minus s) ?_)
  have := peg_digits (pMinus s).2
  unfold pFloat
  dsimp only
  cases h : pDigits (pMinus s).2 with
  | none => rw [h] at this; exact .seqFail this
  | some x =>
    rw [h] at this
    refine .seq this ?_
    have h2 := peg_lit cs!"." x.2
    dsimp only
    cases h3 : lit cs!"." x.2 with
    | none => rw [h3] at h2; exact .seqFail h2
    | some t =>
      rw [h3] at h2
      refine .seq h2 ?_
      have h4 := peg_digits t
      dsimp only
      cases h5 : pDigits t with
      | none => rw [h5] at h4; exact h4
      | some y => rw [h5] at h4; exact h4

theorem peg_boolean (s : Str) : Peg R.boolean s (ext (pBoolean s)) := by
  refine .rule ?_
  have h1 := peg_lit cs!"true" s
  have h2 := peg_lit cs!"false" s
  unfold pBoolean
  cases e : lit cs!"true" s with
  | some r => rw [e] at h1; exact .altFirst h1
  | none =>
    rw [e] at h1
    refine .altNext h1 ?_
    dsimp only
    cases e2 : lit cs!"false" s with
    | some r => rw [e2] at h2; exact h2
    | none => rw [e2] at h2; exact h2

theorem peg_null (s : Str) : Peg R.null s (pNull s) := .rule (peg_lit _ _)

theorem peg_any_not {q c : Char} {s : Str} (h : c ≠ q) :
    Peg (.no (.lit [q]) ~~ .any) (c :: s) (some s) := by
  refine .seq (.no ?_) (.any c s)
  have := (isClass_lit q).2 c s
  rwa [if_neg (by simpa using h)] at this

theorem peg_quoted (q : Char) (hq : q ≠ '\\') : ∀ s : Str, ∃ t,
    Peg (.star ((.lit cs!"\\" ~~ .any) /// (.no (.lit [q]) ~~ .any))) s (some t) ∧
      ext (pQuoted q s) = lit [q] t
  | [] => ⟨[], .starStop (.altNext (.seqFail (isClass_lit _).1) (.seq (.no (isClass_lit _).1) .anyFail)), rfl⟩
  | c :: s => by
    have hc := (isClass_lit '\\').2 c s
    unfold pQuoted
    by_cases e : c = '\\'
    · subst e
      rw [if_pos (by simp)] at hc
      rw [if_pos rfl]
      cases s with
      | nil =>
        exact ⟨[], .starMore (.altNext (.seq hc .anyFail) (peg_any_not hq.symm))
          (.starStop (.altNext (.seqFail (isClass_lit _).1) (.seq (.no (isClass_lit _).1) .anyFail))), rfl⟩
      | cons d s =>
        obtain ⟨t, h1, h2⟩ := peg_quoted q hq s
        refine ⟨t, .starMore (.altFirst (.seq hc (.any d s))) h1, ?_⟩
        rw [← h2]
        dsimp only
        cases pQuoted q s <;> rfl
    · rw [if_neg (by simpa using e)] at hc
      rw [if_neg e]
      by_cases e2 : c = q
      · subst e2
        rw [if_pos rfl]
        refine ⟨c :: s, .starStop (.altNext (.seqFail hc) (.seqFail (.noFail (t := s) ?_))), ?_⟩
        · have := (isClass_lit c).2 c s
          rwa [if_pos (by simp)] at this
        · simp [lit]
      · rw [if_neg e2]
        obtain ⟨t, h1, h2⟩ := peg_quoted q hq s
        refine ⟨t, .starMore (.altNext (.seqFail hc) (peg_any_not e2)) h1, ?_⟩
        rw [← h2]
        cases pQuoted q s <;> rfl

theorem peg_string (s : Str) : Peg R.string_literal s (ext (pString s)) := by
  refine .rule ?_
  have h1 := peg_lit cs!"'" s
  unfold pString
  cases e : lit cs!"'" s with
  | none => rw [e] at h1; exact .seqFail h1
  | some t =>
    rw [e] at h1
    obtain ⟨u, h2, h3⟩ := peg_quoted '\'' (by decide) t
    refine .seq h1 (.seq h2 ?_)
    have h4 := peg_lit cs!"'" u
    rw [← h3] at h4
    dsimp only
    cases e2 : pQuoted '\'' t <;> rw [e2] at h4 <;> exact h4

theorem peg_quoted_name (s : Str) : Peg R.quoted_name s (ext (pQuotedName s)) := by
  refine .rule ?_
  have h1 := peg_lit cs!"\"" s
  unfold pQuotedName
  cases e : lit cs!"\"" s with
  | none => rw [e] at h1; exact .seqFail h1
  | some t =>
    rw [e] at h1
    obtain ⟨u, h2, h3⟩ := peg_quoted '"' (by decide) t
    refine .seq h1 (.seq h2 ?_)
    have h4 := peg_lit cs!"\"" u
    rw [← h3] at h4
    dsimp only
    cases e2 : pQuoted '"' t <;> rw [e2] at h4 <;> exact h4

theorem pName_or (s : Str) : pName s = (pIdent s).or (pQuotedName s) := by
  unfold pName; cases pIdent s <;> rfl

theorem peg_name (s : Str) : Peg R.name s (ext (pName s)) := by
  rw [pName_or]
  exact .rule (.alt (peg_identifier s) (peg_quoted_name s))

/-! ## Lists -/

section lists
variable {round g : G} {sep : Str → Option Str} {p : Str → Option (α × Str)} {N : Nat}

/-- Every round uses characters up. -/
theorem peg_star (hr : ∀ s, s.length < N → Peg round s ((sep s).bind fun t => ext (p t)))
    (hs : ∀ s t a u, s.length < N → sep s = some t → p t = some (a, u) → u.length < s.length) :
    ∀ (n : Nat) (s : Str), s.length ≤ n → s.length < N → Peg (.star round) s (some (pStarN sep p n s).2)
  | 0, s, hn, hN => by
    have h0 : s = [] := List.eq_nil_of_length_eq_zero (Nat.le_zero.1 hn)
    subst h0
    have := hr [] hN
    unfold pStarN
    cases e : sep [] with
    | none => rw [e] at this; exact .starStop this
    | some t =>
      rw [e] at this
      cases e2 : p t with
      | none => simp only [Option.bind_some, e2] at this; exact .starStop this
      | some x => exact absurd (hs [] t x.1 x.2 hN e e2) (Nat.not_lt_zero _)
  | n + 1, s, hn, hN => by
    have := hr s hN
    unfold pStarN
    cases e : sep s with
    | none => rw [e] at this; exact .starStop this
    | some t =>
      rw [e] at this
      cases e2 : p t with
      | none => simp only [Option.bind_some, e2] at this; simp only [e2]; exact .starStop this
      | some x =>
        have hl := hs s t x.1 x.2 hN e e2
        simp only [Option.bind_some, e2] at this
        simp only [e2]
        exact .starMore this (peg_star hr hs n x.2 (by omega) (by omega))

theorem peg_sep1 (hg : ∀ s, s.length < N → Peg g s (ext (p s)))
    (hr : ∀ s, s.length < N → Peg round s ((sep s).bind fun t => ext (p t)))
    (hs : ∀ s t, sep s = some t → t.length < s.length) (s : Str) (hN : s.length < N) :
    Peg (g ~~ .star round) s (ext (pSep1 sep p s)) := by
  have h1 := hg s hN
  unfold pSep1
  cases e : p s with
  | none => rw [e] at h1; exact .seqFail h1
  | some x =>
    rw [e] at h1
    have hl := h1.le
    refine .seq h1 (peg_star hr ?_ _ x.2 (Nat.le_refl _) (by omega))
    intro s t a u hN h2 h3
    have h4 := hs s t h2
    have h5 := hg t (by omega)
    rw [h3] at h5
    have : u.length ≤ t.length := h5.le
    omega

theorem peg_sep (hg : ∀ s, s.length < N → Peg g s (ext (p s)))
    (hr : ∀ s, s.length < N → Peg round s ((sep s).bind fun t => ext (p t)))
    (hs : ∀ s t, sep s = some t → t.length < s.length) (s : Str) (hN : s.length < N) :
    Peg (.opt (g ~~ .star round)) s (some (pSep sep p s).2) := by
  have h1 := peg_sep1 hg hr hs s hN
  unfold pSep
  cases e : pSep1 sep p s with
  | none => rw [e] at h1; exact .optNone h1
  | some x => rw [e] at h1; exact .optSome h1

theorem commaSp_lt (s t : Str) (h : commaSp s = some t) : t.length < s.length := by
  unfold commaSp at h
  cases e : lit cs!"," s with
  | none => rw [e] at h; cases h
  | some u =>
    rw [e] at h; cases h
    have := lit_len e
    have := skipSp_le' u
    simp only [List.length_cons, List.length_nil] at *
    omega

theorem spCommaSp_lt (s t : Str) (h : spCommaSp s = some t) : t.length < s.length := by
  unfold spCommaSp at h
  cases e : lit cs!"," (skipSp s) with
  | none => rw [e] at h; cases h
  | some u =>
    rw [e] at h; cases h
    have := lit_len e
    have := skipSp_le' u
    have := skipSp_le' s
    simp only [List.length_cons, List.length_nil] at *
    omega

theorem lit_lt {k : Str} (hk : 0 < k.length) (s t : Str) (h : lit k s = some t) : t.length < s.length := by
  have := lit_len h
  omega

theorem round_commaSp (hg : ∀ s, s.length < N → Peg g s (ext (p s))) (s : Str) (hN : s.length < N) :
    Peg (.lit cs!"," ~~ R.sp ~~ g) s ((commaSp s).bind fun t => ext (p t)) := by
  have h1 := peg_lit cs!"," s
  have h2 := commaSp_lt s
  unfold commaSp at h2 ⊢
  cases e : lit cs!"," s with
  | none => rw [e] at h1; exact .seqFail h1
  | some u =>
    rw [e] at h1 h2
    exact .seq h1 (.sp_ (hg _ (Nat.lt_trans (h2 _ rfl) hN)))

theorem round_spCommaSp (hg : ∀ s, s.length < N → Peg g s (ext (p s))) (s : Str) (hN : s.length < N) :
    Peg (R.sp ~~ .lit cs!"," ~~ R.sp ~~ g) s ((spCommaSp s).bind fun t => ext (p t)) := by
  refine .sp_ ?_
  have h1 := peg_lit cs!"," (skipSp s)
  have h2 := spCommaSp_lt s
  unfold spCommaSp at h2 ⊢
  cases e : lit cs!"," (skipSp s) with
  | none => rw [e] at h1; exact .seqFail h1
  | some u =>
    rw [e] at h1 h2
    exact .seq h1 (.sp_ (hg _ (Nat.lt_trans (h2 _ rfl) hN)))

theorem round_lit {k : Str} (hk : 0 < k.length) (hg : ∀ s, s.length < N → Peg g s (ext (p s))) (s : Str) (hN : s.length < N) :
    Peg (.lit k ~~ g) s ((lit k s).bind fun t => ext (p t)) := by
  have h1 := peg_lit k s
  cases e : lit k s with
  | none => rw [e] at h1; exact .seqFail h1
  | some u =>
    rw [e] at h1
    exact .seq h1 (hg _ (Nat.lt_trans (lit_lt hk _ _ e) hN))

end lists

/-! ## Types -/

theorem peg_first : ∀ (k : Str) (ks : List Str) (s : Str),
    Peg (ks.foldr (fun x g => fun k => .lit k /// g x) .lit k) s (ext (pFirst (k :: ks) s))
  | k, [], s => by
    have h := peg_lit k s
    show Peg (.lit k) s _
    unfold pFirst pFirst
    cases e : lit k s <;> rw [e] at h <;> exact h
  | k, k' :: ks, s => by
    have h := peg_lit k s
    have h2 := peg_first k' ks s
    show Peg (.lit k /// _) s _
    unfold pFirst
    cases e : lit k s with
    | none => rw [e] at h; exact .altNext h h2
    | some r => rw [e] at h; exact .altFirst h

theorem peg_anchor (s : Str) : Peg R.anchor s (ext (pAnchor s)) :=
  .rule (.bindStr (peg_lit _ s) fun _ _ _ => .sp_ (peg_integer _))

theorem peg_urn_anchor (s : Str) : Peg R.urn_anchor s (ext (pUrnAnchor s)) :=
  .rule (.bindStr (peg_lit _ s) fun _ _ _ => .sp_ (peg_integer _))

theorem peg_nullability (s : Str) : Peg R.nullability s (some (pNullability s).2) := by
  refine .rule ?_
  unfold pNullability
  split
  · exact .optSome (.altFirst (peg_lit cs!"?" (_ :: _)))
  · exact .optSome (.altNext (peg_lit cs!"?" (_ :: _)) (peg_lit cs!"⁉" (_ :: _)))
  · rename_i h1 h2
    refine .optNone (.altNext ?_ ?_)
    · have := peg_lit cs!"?" s
      cases e : lit cs!"?" s with
      | none => rwa [e] at this
      | some r => exact absurd ((lit_iff _ _ _).1 e) (h1 r)
    · have := peg_lit cs!"⁉" s
      cases e : lit cs!"⁉" s with
      | none => rwa [e] at this
      | some r => exact absurd ((lit_iff _ _ _).1 e) (h2 r)

theorem peg_simple_type_name (s : Str) : Peg R.simple_type_name s (ext (pFirst simpleNames s)) :=
  .rule (peg_first cs!"boolean" simpleNames.tail s)

theorem peg_simple_type (s : Str) : Peg R.simple_type s (ext (pSimpleType s)) := by
  refine .rule (.bindPair (peg_simple_type_name s) fun x r _ _ => ?_)
  exact peg_nullability r

section types
variable {ty : Str → Option (STy × Str)} {N : Nat}

theorem peg_parameter (ht : ∀ s, s.length < N → Peg R.type s (ext (ty s))) (s : Str) (hN : s.length < N) :
    Peg R.parameter s (ext (pParamWith ty s)) := by
  unfold pParamWith
  rw [Option.or_assoc]
  exact .rule (.alt (.mapFst_ (ht s hN)) (.alt (.mapFst_ (peg_integer s)) (.mapFst_ (peg_name s))))

theorem peg_parameters (ht : ∀ s, s.length < N → Peg R.type s (ext (ty s))) (s : Str) (hN : s.length ≤ N) :
    Peg R.parameters s (ext (pParamsWith ty s)) := by
  refine .rule (.bindStr (peg_lit _ s) fun r hr _ => ?_)
  have hl := lit_lt (by decide) _ _ hr
  have hp := peg_parameter ht
  refine .seq (peg_sep hp (round_commaSp hp) commaSp_lt r (by omega)) ?_
  exact .last (peg_lit _ _)

/-- After the keyword and the nullability. -/
theorem peg_kwOpen {kw : Str} (hk : 0 < kw.length) {s : Str} {g : G} {f : Nul × Str → Option (α × Str)}
    (h : ∀ n r, r.length + 1 < s.length → Peg g r (ext (f (n, r)))) :
    Peg (.litI kw ~~ R.nullability ~~ .lit cs!"<" ~~ g) s (ext (pKwOpen kw s >>= f)) := by
  have h1 := peg_litI kw s
  unfold pKwOpen
  cases e : litI kw s with
  | none => rw [e] at h1; exact .seqFail h1
  | some t =>
    rw [e] at h1
    have h2 := peg_nullability t
    refine .seq h1 (.seq h2 ?_)
    have h3 := peg_lit cs!"<" (pNullability t).2
    have hl := litI_len e
    have hl2 := h2.le
    show Peg _ _ (ext ((lit cs!"<" (pNullability t).2 >>= fun s => some ((pNullability t).1, s)) >>= f))
    cases e2 : lit cs!"<" (pNullability t).2 with
    | none => rw [e2] at h3; exact .seqFail h3
    | some u =>
      rw [e2] at h3
      have := lit_lt (by decide) _ _ e2
      exact .seq h3 (h _ u (by omega))

theorem peg_list_type (s : Str) (hN : s.length ≤ N) (ht : ∀ s, s.length < N → Peg R.type s (ext (ty s))) :
    Peg R.list_type s (ext (pListWith ty s)) := by
  refine .rule (peg_kwOpen (by decide) fun n r hr => ?_)
  exact .bindPair (ht r (by omega)) fun t u _ _ => .last (peg_lit _ _)

theorem peg_map_type (s : Str) (hN : s.length ≤ N) (ht : ∀ s, s.length < N → Peg R.type s (ext (ty s))) :
    Peg R.map_type s (ext (pMapWith ty s)) := by
  refine .rule (peg_kwOpen (by decide) fun n r hr => ?_)
  refine .bindPair (ht r (by omega)) fun t u _ _ => .bindStr (peg_lit _ _) fun v _ _ => .sp_ ?_
  have := skipSp_le' v
  exact .bindPair (ht _ (by omega)) fun t u _ _ => .last (peg_lit _ _)

theorem peg_struct_type (s : Str) (hN : s.length ≤ N) (ht : ∀ s, s.length < N → Peg R.type s (ext (ty s))) :
    Peg R.struct_type s (ext (pStructWith ty s)) := by
  have hp := peg_parameter ht
  have := peg_kwOpen (s := s) (kw := cs!"struct") (by decide)
    (f := fun x => (pParamsTail ty x.2) >>= fun y => some (STy.struct x.1 y.1, y.2))
    (g := .opt (R.parameter ~~ .star (.lit cs!"," ~~ R.sp ~~ R.parameter)) ~~ .lit cs!">") fun n r hr => ?_
  · refine .rule ?_
    have e : pStructWith ty s = (pKwOpen cs!"struct" s >>= fun x => (pParamsTail ty x.2) >>= fun y => some (STy.struct x.1 y.1, y.2)) := rfl
    rw [e]
    generalize ext _ = o at this ⊢
    cases this with
    | seqFail h => exact .seqFail h
    | seq h1 h2 =>
      refine .seq h1 ?_
      cases h2 with
      | seqFail h => exact .seqFail h
      | seq h3 h4 => exact .seq h3 (.rule h4)
  · refine .seq (peg_sep hp (round_commaSp hp) commaSp_lt r (by omega)) ?_
    have := peg_lit cs!">" (pSep commaSp (pParamWith ty) r).2
    show Peg _ _ (ext (pParamsTail ty r >>= fun y => some (STy.struct n y.1, y.2)))
    unfold pParamsTail
    show Peg _ _ (ext ((lit cs!">" (pSep commaSp (pParamWith ty) r).2 >>= fun s => some ((pSep commaSp (pParamWith ty) r).1, s)) >>= _))
    cases e : lit cs!">" (pSep commaSp (pParamWith ty) r).2 <;> rw [e] at this <;> exact this

theorem peg_int_type {kw : Str} (hk : 0 < kw.length) (f : Nul → IntTok → STy) (s : Str) :
    Peg (.litI kw ~~ R.nullability ~~ .lit cs!"<" ~~ R.integer ~~ .lit cs!">") s (ext (pIntType kw f s)) :=
  peg_kwOpen hk fun _ r _ => .bindPair (peg_integer r) fun _ _ _ _ => .last (peg_lit _ _)

theorem peg_compound_type (s : Str) (hN : s.length ≤ N) (ht : ∀ s, s.length < N → Peg R.type s (ext (ty s))) :
    Peg R.compound_type s (ext (pCompoundWith ty s)) := by
  unfold pCompoundWith
  simp only [Option.or_assoc]
  exact .rule (.alt (peg_list_type s hN ht) (.alt (peg_map_type s hN ht) (.alt (peg_struct_type s hN ht)
    (.alt (.rule (peg_int_type (by decide) _ s)) (.alt (.rule (peg_int_type (by decide) _ s))
      (.alt (.rule (peg_int_type (by decide) _ s)) (.rule (peg_int_type (by decide) _ s))))))))

theorem peg_uBang (s : Str) : Peg (.opt (.lit cs!"u!")) s (some (skipUBang s)) := by
  have := peg_lit cs!"u!" s
  unfold skipUBang
  cases e : lit cs!"u!" s with
  | none => rw [e] at this; exact .optNone this
  | some r => rw [e] at this; exact .optSome this

theorem ident_lt {s : Str} {x r : Str} (h : pIdent s = some (x, r)) : r.length < s.length := by
  unfold pIdent at h
  cases s with
  | nil => cases h
  | cons c s =>
    dsimp only at h
    split at h
    · cases h
      have := (List.dropWhile_suffix (l := s) isIdentChar).length_le
      simp only [List.length_cons]
      omega
    · cases h

theorem peg_user_defined_type (s : Str) (hN : s.length ≤ N) (ht : ∀ s, s.length < N → Peg R.type s (ext (ty s))) :
    Peg R.user_defined_type s (ext (pUserWith ty s)) := by
  have h0 := peg_uBang s
  refine .rule (.seq h0 (.bindPair (peg_identifier _) fun x r hr _ => ?_))
  have hl := ident_lt hr
  have hl0 := h0.le
  have h1 : Peg (.opt R.anchor) r _ := .opt_ (peg_anchor r)
  have h2 : Peg (.opt R.urn_anchor) _ _ := .opt_ (peg_urn_anchor (pOpt pAnchor r).2)
  have h3 := peg_nullability (pOpt pUrnAnchor (pOpt pAnchor r).2).2
  have hl1 := h1.le
  have hl2 := h2.le
  have hl3 := h3.le
  exact .seq h1 (.seq h2 (.seq h3 (.opt_ (peg_parameters ht _ (by omega)))))

theorem peg_typeN : ∀ (n : Nat) (s : Str), s.length < n → Peg R.type s (ext (pTypeN n s))
  | 0, _, h => absurd h (Nat.not_lt_zero _)
  | n + 1, s, h => by
    have ht := peg_typeN n
    unfold pTypeN
    rw [Option.or_assoc]
    exact .rule (.alt (peg_simple_type s) (.alt (peg_compound_type s (by omega) ht) (peg_user_defined_type s (by omega) ht)))

theorem peg_type (s : Str) : Peg R.type s (ext (pType s)) := peg_typeN _ s (Nat.lt_succ_self _)

end types

end PestSpec
end Verif
