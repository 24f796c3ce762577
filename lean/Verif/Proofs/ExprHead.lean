import Verif.Proofs.RelText
/-!
# The first character of an expression
-/

namespace Verif
open StoreSpec TextSpec RelSpec

set_option autoImplicit false

/-- The first character is not one a number begins with. -/
def NotNum (s : Str) : Prop := ∀ c t, s = c :: t → isDigit c = false ∧ c ≠ '-'

theorem notNum_cons {c : Char} {s : Str} (h : isDigit c = false) (h2 : c ≠ '-') : NotNum (c :: s) := by
  rintro d t ⟨⟩
  exact ⟨h, h2⟩

theorem notNum_nil : NotNum [] := by rintro d t ⟨⟩

theorem notNum_string [UTab] (s : Str) : NotNum (showString s) := notNum_cons (by decide) (by decide)

theorem notNum_fail (s : Str) : NotNum (Out.fail s).text := notNum_cons (by decide) (by decide)

theorem notNum_litFail : NotNum litFail.text := notNum_fail _

theorem notNum_panic : NotNum Out.panic.text := by
  simp only [Out.panic]
  first
    | exact notNum_nil
    | exact notNum_cons (by decide) (by decide)

theorem notNum_textValue [UTab] [FTab] (st : Store) (o : Opts) (n : Bool) (v : Lit) (h : Spelled st n v)
    (hn : ∀ k i, v ≠ .int k i) (h32 : ∀ f, v ≠ .fp32 f) (h64 : ∀ f, v ≠ .fp64 f) : NotNum (textValue o v).text := by
  have hp : ∀ (p : Int) (r : Option Str), NotNum (textPrecLit p r).text := by
    intro p r
    unfold textPrecLit
    repeat' split
    all_goals first
      | exact notNum_string _
      | exact notNum_litFail
      | exact notNum_panic
  cases v with
  | int k i => exact absurd rfl (hn k i)
  | fp32 f => exact absurd rfl (h32 f)
  | fp64 f => exact absurd rfl (h64 f)
  | bool b => cases b <;> exact notNum_cons (by decide) (by decide)
  | string s => exact notNum_string s
  | binary b => exact absurd h (by simp [Spelled])
  | date d =>
    simp only [textValue]
    split
    · exact notNum_string _
    · exact notNum_panic
  | time us => exact hp _ _
  | timestamp us => exact hp _ _
  | interval i =>
    simp only [textValue, textInterval]
    repeat' split
    all_goals first
      | exact notNum_litFail
      | (simp; exact notNum_string _)
      | (simp; exact notNum_litFail)
  | prec k p v => cases k <;> exact hp _ _
  | null t => exact notNum_cons (by decide) (by decide)
  | other x => exact absurd h (by simp [Spelled])

/-- What the first character of an expression says about it. -/
theorem expr_head_kind [UTab] [FTab] (hA : AsciiPrintable) {st : Store} (hst : st.Ordered) (o : Opts)
    (ho : o.anchors ≠ .never) (e : Expr) (h : Faithful st e) :
    ∃ c t, (textExpr st o e).text = c :: t ∧ (c = '$' → ∃ i, e = .selection (.field i none)) ∧
      (c = '(' → IsCast e) ∧ (isDigit c = true ∨ c = '-' → Numeric e) := by
  cases e with
  | missing => exact (by simp [Faithful] at h)
  | other => exact (by simp [Faithful] at h)
  | literal l =>
    simp only [Faithful] at h
    obtain ⟨c, t, h1, h2⟩ := lit_shape hA hst o ho l h
    refine ⟨c, t, by rw [textExpr, h1], ?_, ?_, ?_⟩
    · rintro rfl
      rcases h2 with h2 | h2
      · exact absurd h2 (by decide)
      · exact absurd h2.1 (by decide)
    · rintro rfl
      rcases h2 with h2 | h2
      · exact absurd h2 (by decide)
      · exact absurd h2.1 (by decide)
    · intro hc
      obtain ⟨value, nullable, tvar⟩ := l
      obtain ⟨h0, v, h3, h4⟩ := h
      simp only at h0 h3 h4
      subst h0 h3
      by_cases hv : (∃ k i, v = .int k i) ∨ (∃ f, v = .fp32 f) ∨ ∃ f, v = .fp64 f
      · rcases hv with ⟨_, _, rfl⟩ | ⟨_, rfl⟩ | ⟨_, rfl⟩ <;> trivial
      · exfalso
        have hv1 : ∀ k i, v ≠ .int k i := fun k i hh => hv (.inl ⟨k, i, hh⟩)
        have hv2 : ∀ f, v ≠ .fp32 f := fun f hh => hv (.inr (.inl ⟨f, hh⟩))
        have hv3 : ∀ f, v ≠ .fp64 f := fun f hh => hv (.inr (.inr ⟨f, hh⟩))
        have hnn := notNum_textValue st o nullable v h4 hv1 hv2 hv3
        have key : isDigit c = false ∧ c ≠ '-' := by
          by_cases hn : ∃ t, v = .null t
          · obtain ⟨t', rfl⟩ := hn
            simp only [textLit] at h1
            cases h1
            decide
          · have hn : ∀ t, v ≠ .null t := fun t e => hn ⟨t, e⟩
            have ht : textLit st o ⟨some v, nullable, 0⟩ =
                textValue o v ++ (if showSuffix o nullable v then textSuffix v nullable else .s []) := by
              cases v with
              | null t => exact absurd rfl (hn t)
              | _ => rfl
            obtain ⟨sv, h5, _⟩ := value_text hA st o nullable v hn h4
            have h6 := h5 [] (NextNot.nil _)
            rw [List.append_nil] at h6
            have hne : ∃ d u, (textValue o v).text = d :: u := by
              rcases pValue_head h6 with ⟨d, u, h, _⟩ | h | h | h
              · exact ⟨d, u, h⟩
              all_goals exact ⟨_, _, h⟩
            obtain ⟨d, u, hd⟩ := hne
            rw [ht, Out.text_append, hd] at h1
            cases h1
            exact hnn _ _ hd
        rcases hc with hc | hc
        · rw [key.1] at hc; cases hc
        · exact key.2 hc
  | selection f =>
    cases f with
    | field i child =>
      cases child with
      | some c => exact (by simp [Faithful] at h)
      | none =>
        exact ⟨'$', decInt i, by simp [textExpr, textFieldRef, textRef], fun _ => ⟨i, rfl⟩, fun h => absurd h (by decide), fun h => absurd h (by decide)⟩
    | badReference => exact (by simp [Faithful] at h)
    | badSegment => exact (by simp [Faithful] at h)
  | call f args opts out =>
    cases out with
    | none => exact (by simp [Faithful] at h)
    | some t =>
      simp only [Faithful] at h
      obtain ⟨_, rfl, ⟨name, hd, hn⟩, _, _⟩ := h
      obtain ⟨n, a, h1, h3, _⟩ := textAnchor_function' hst o ho f name hd hn
      obtain ⟨c, tl, rfl, hc⟩ := h3.head
      rw [call_text o h1]
      refine ⟨c, _, rfl, ?_, ?_, ?_⟩
      · rintro rfl; exact absurd hc (by decide)
      · rintro rfl; exact absurd hc (by decide)
      · rintro (h | rfl)
        · exfalso
          have := pInteger_alpha (s := []) hc
          simp only [isAlpha, isUpper, isLower, isDigit, Bool.or_eq_true, Bool.and_eq_true,
            decide_eq_true_eq] at hc h
          omega
        · exact absurd hc (by decide)
  | cast e t fb => exact ⟨'(', _, by simp [textExpr]; rfl, fun h => absurd h (by decide), fun _ => trivial,
      fun h => absurd h (by decide)⟩
  | ifThen ifs els => exact ⟨'i', _, by simp [textExpr]; rfl, fun h => absurd h (by decide),
      fun h => absurd h (by decide), fun h => absurd h (by decide)⟩

end Verif
