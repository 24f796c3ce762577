import Verif.Model.Peg
import Verif.Proofs.Num

namespace Verif

@[simp] theorem lit_nil (s : Str) : lit [] s = some s := by cases s <;> rfl
@[simp] theorem lit_cons (c d : Char) (p s : Str) :
    lit (c :: p) (d :: s) = if c = d then lit p s else none := rfl
@[simp] theorem lit_cons_nil (c : Char) (p : Str) : lit (c :: p) [] = none := rfl

theorem lit_append (p s : Str) : lit p (p ++ s) = some s := by
  induction p with
  | nil => simp
  | cons c p ih => simp [ih]

theorem lit_some {p s r : Str} (h : lit p s = some r) : s = p ++ r := by
  induction p generalizing s with
  | nil => simpa using h
  | cons c p ih =>
    cases s with
    | nil => simp at h
    | cons d s =>
      simp only [lit_cons] at h
      split at h
      · rename_i hc; subst hc; rw [ih h]; rfl
      · cases h

theorem lit_eq_some_iff (p s r : Str) : lit p s = some r ↔ s = p ++ r :=
  ⟨lit_some, fun h => by rw [h, lit_append]⟩

/-- The first character of the remaining text, if any, satisfies `p`. -/
def NextNot (p : Char → Bool) (s : Str) : Prop := ∀ c, s.head? = some c → p c = false

theorem NextNot.nil (p : Char → Bool) : NextNot p [] := by intro c h; cases h

theorem nextNot_cons (p : Char → Bool) (c : Char) (s : Str) : NextNot p (c :: s) ↔ p c = false := by
  simp [NextNot]

theorem takeWhile_append_of_all {p : Char → Bool} {a s : Str} (ha : ∀ c ∈ a, p c = true)
    (hs : NextNot p s) : (a ++ s).takeWhile p = a ∧ (a ++ s).dropWhile p = s := by
  induction a with
  | nil =>
    cases s with
    | nil => simp
    | cons c s => have := (nextNot_cons p c s).1 hs; simp [this]
  | cons c a ih =>
    have h1 := ha c (by simp)
    have h2 := ih (fun d hd => ha d (by simp [hd]))
    simp [h1, h2]

theorem skipSp_of_not (s : Str) (h : NextNot (· == ' ') s) : skipSp s = s := by
  have := (takeWhile_append_of_all (p := (· == ' ')) (a := []) (by simp) h).2
  simpa [skipSp] using this

@[simp] theorem skipSp_space (s : Str) : skipSp (' ' :: s) = skipSp s := by
  simp [skipSp]

theorem skipSp_cons (c : Char) (s : Str) (h : c ≠ ' ') : skipSp (c :: s) = c :: s := by
  simp [skipSp, beq_eq_false_iff_ne.2 h]

@[simp] theorem skipSp_nil : skipSp [] = [] := rfl

theorem pIdent_append (n rest : Str) (c : Char) (hc : isAlpha c = true)
    (hn : ∀ d ∈ n, isIdentChar d = true) (hr : NextNot isIdentChar rest) :
    pIdent (c :: n ++ rest) = some (c :: n, rest) := by
  have h := takeWhile_append_of_all hn hr
  simp [pIdent, hc, h]

theorem pDigits_append (ds rest : Str) (hne : ds ≠ []) (hd : ∀ c ∈ ds, isDigit c = true)
    (hr : NextNot isDigit rest) : pDigits (ds ++ rest) = some (ds, rest) := by
  have h := takeWhile_append_of_all hd hr
  simp [pDigits, h, hne]

theorem pDigits_dec (n : Nat) (rest : Str) (hr : NextNot isDigit rest) :
    pDigits (dec n ++ rest) = some (dec n, rest) :=
  pDigits_append _ _ (dec_ne_nil n) (dec_all_digits n) hr

theorem isDigit_ne_minus {c : Char} (h : isDigit c = true) : c ≠ '-' := by
  rintro rfl; simp [isDigit] at h

theorem pMinus_of_digit {s : Str} {c : Char} (h : isDigit c = true) : pMinus (c :: s) = (false, c :: s) := by
  have := isDigit_ne_minus h
  unfold pMinus
  split
  · rename_i heq; simp at heq; exact absurd heq.1 this
  · rfl

theorem pMinus_dec (n : Nat) (rest : Str) : pMinus (dec n ++ rest) = (false, dec n ++ rest) := by
  cases h : dec n with
  | nil => exact absurd h (dec_ne_nil n)
  | cons c ds =>
    have := dec_all_digits n c (by rw [h]; simp)
    exact pMinus_of_digit this

theorem pInteger_decInt (i : Int) (rest : Str) (hr : NextNot isDigit rest) :
    pInteger (decInt i ++ rest) = some (IntTok.ofInt i, rest) := by
  unfold decInt
  by_cases h : i < 0
  · simp only [h, if_true, List.cons_append]
    simp [pInteger, pMinus, pDigits_dec _ _ hr, decVal_dec, IntTok.ofInt, h]
  · simp only [h, if_false]
    simp [pInteger, pMinus_dec, pDigits_dec _ _ hr, decVal_dec, IntTok.ofInt, h]

theorem pInteger_dec (n : Nat) (rest : Str) (hr : NextNot isDigit rest) :
    pInteger (dec n ++ rest) = some (⟨false, n⟩, rest) := by
  simp [pInteger, pMinus_dec, pDigits_dec _ _ hr, decVal_dec]

/-! ### Quoted text -/

/-- Text that can stand between quotes `q`: no bare quote, no trailing lone backslash. -/
def QBody (q : Char) : Str → Prop
  | [] => True
  | ['\\'] => False
  | '\\' :: _ :: s => QBody q s
  | c :: s => c ≠ q ∧ QBody q s

theorem pQuoted_body (q : Char) (hq : q ≠ '\\') (b rest : Str) (hb : QBody q b) :
    pQuoted q (b ++ q :: rest) = some (b, rest) := by
  fun_induction QBody q b with
  | case1 => unfold pQuoted; simp [hq]
  | case2 => exact hb.elim
  | case3 c s ih => simp [pQuoted, ih hb]
  | case4 c s h1 h2 ih =>
    have hc : c ≠ '\\' := by
      rintro rfl
      cases s with
      | nil => exact h1 rfl rfl
      | cons d s => exact h2 d s rfl rfl
    rw [List.cons_append]; unfold pQuoted; simp [hc, hb.1, ih hb.2]

/-- What a match of a quoted text looks like. -/
theorem pQuoted_some (q : Char) (hq : q ≠ '\\') (s b r : Str) (h : pQuoted q s = some (b, r)) :
    s = b ++ q :: r ∧ QBody q b := by
  fun_induction pQuoted q s generalizing b with
  | case1 => cases h
  | case2 => cases h
  | case3 => cases h
  | case4 d s b' r' heq ih =>
    cases h
    obtain ⟨h1, h2⟩ := ih _ heq
    exact ⟨by rw [h1]; rfl, h2⟩
  | case5 =>
    cases h
    exact ⟨rfl, trivial⟩
  | case6 => cases h
  | case7 c s hc hcq b' r' heq ih =>
    cases h
    obtain ⟨h1, h2⟩ := ih _ heq
    refine ⟨by rw [h1]; rfl, ?_⟩
    unfold QBody
    split
    · simp at *
    · simp at *; exact absurd ‹c = _ ∧ _›.1 hc
    · simp at *; exact absurd ‹c = _ ∧ _›.1 hc
    · rename_i heq2; cases heq2; exact ⟨hcq, h2⟩

end Verif
