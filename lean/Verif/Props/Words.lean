import Verif.Model.Peg
import Verif.Proofs.Peg
import Verif.Proofs.Escape
/-!
# Property C77: which words are read
-/

namespace Verif

set_option autoImplicit false

namespace WordSpec

/-- `w` is the longest beginning of `s` that is a word, and `r` is the rest. -/
def Longest (word : Str → Prop) (s w r : Str) : Prop :=
  s = w ++ r ∧ word w ∧ ∀ w' r', s = w' ++ r' → word w' → w'.length ≤ w.length

def Letter (c : Char) : Prop := 'a' ≤ c ∧ c ≤ 'z' ∨ 'A' ≤ c ∧ c ≤ 'Z'
def Digit (c : Char) : Prop := '0' ≤ c ∧ c ≤ '9'

/-- An identifier: a letter, then letters, digits and underscores. -/
def Identifier (w : Str) : Prop := ∃ c cs, w = c :: cs ∧ Letter c ∧ ∀ d ∈ cs, Letter d ∨ Digit d ∨ d = '_'

/-- Digits, at least one. -/
def Digits (w : Str) : Prop := w ≠ [] ∧ ∀ c ∈ w, Digit c

/-- An optional minus. -/
def sign (neg : Bool) : Str := if neg then ['-'] else []

/-- The number that digits stand for. -/
def value : Str → Nat
  | [] => 0
  | c :: cs => (c.toNat - 48) * 10 ^ cs.length + value cs

/-- Raw text between quotes `q`, and the text it stands for. -/
inductive Body (q : Char) : Str → Str → Prop where
  | nil : Body q [] []
  | plain (c : Char) {raw v : Str} : c ≠ q → c ≠ '\\' → Body q raw v → Body q (c :: raw) (c :: v)
  | newline {raw v : Str} : Body q raw v → Body q ('\\' :: 'n' :: raw) ('\n' :: v)
  | tab {raw v : Str} : Body q raw v → Body q ('\\' :: 't' :: raw) ('\t' :: v)
  | ret {raw v : Str} : Body q raw v → Body q ('\\' :: 'r' :: raw) ('\r' :: v)
  | escaped (c : Char) {raw v : Str} : c ∉ cs!"ntr" → Body q raw v → Body q ('\\' :: c :: raw) (c :: v)

end WordSpec

open WordSpec

theorem letter_iff (c : Char) : isAlpha c = true ↔ Letter c := by
  simp only [isAlpha, isUpper, isLower, Letter, Bool.or_eq_true, Bool.and_eq_true, decide_eq_true_eq, Char.le_def,
    UInt32.le_iff_toNat_le, Char.toNat]
  exact Or.comm

theorem digit_iff (c : Char) : isDigit c = true ↔ Digit c := by
  simp only [isDigit, Digit, Bool.and_eq_true, decide_eq_true_eq, Char.le_def,
    UInt32.le_iff_toNat_le, Char.toNat]
  exact Iff.rfl

theorem word_char_iff (c : Char) : isIdentChar c = true ↔ Letter c ∨ Digit c ∨ c = '_' := by
  simp only [isIdentChar, isAlnum, Bool.or_eq_true, letter_iff, digit_iff, beq_iff_eq, or_assoc]

/-- The longest run of characters of a class. -/
theorem run_longest (p : Char → Bool) (s w r : Str) (h : s = w ++ r) (hw : ∀ c ∈ w, p c = true) :
    w.length ≤ (s.takeWhile p).length := by
  subst h
  induction w with
  | nil => simp
  | cons c w ih =>
    have := hw c (by simp)
    simp only [List.cons_append, List.takeWhile_cons, this, if_true, List.length_cons]
    have := ih fun d hd => hw d (by simp [hd])
    omega

theorem run_all (p : Char → Bool) (s : Str) : ∀ c ∈ s.takeWhile p, p c = true := by
  induction s with
  | nil => simp
  | cons c s ih =>
    rw [List.takeWhile_cons]
    split
    · next h =>
      intro d hd
      rcases List.mem_cons.1 hd with rfl | hd
      · exact h
      · exact ih d hd
    · intro c hc; cases hc

/-- Two longest words are the same. -/
theorem longest_unique {P : Str → Prop} {s w r w' r' : Str} (h : Longest P s w r) (h' : Longest P s w' r') :
    w = w' ∧ r = r' := by
  have h1 := h.2.2 w' r' h'.1 h'.2.1
  have h2 := h'.2.2 w r h.1 h.2.1
  exact List.append_inj (h.1.symm.trans h'.1) (by omega)

/-- What a reader gives that finds the longest word. -/
theorem longest_iff {P : Str → Prop} {s : Str} {x : Option (Str × Str)} (h1 : ∀ w r, x = some (w, r) → Longest P s w r)
    (h2 : x = none → ∀ w r, s = w ++ r → ¬ P w) (w r : Str) : x = some (w, r) ↔ Longest P s w r := by
  refine ⟨h1 w r, fun h => ?_⟩
  cases hx : x with
  | none => exact absurd h.2.1 (h2 hx w r h.1)
  | some y =>
    obtain ⟨w', r'⟩ := y
    obtain ⟨rfl, rfl⟩ := longest_unique (h1 w' r' hx) h
    rfl

/-- C77: the identifier that is read is the longest one at the beginning of the text; nothing is read exactly when there
is none. -/
theorem C77_identifier (s w r : Str) : pIdent s = some (w, r) ↔ Longest Identifier s w r := by
  refine longest_iff (fun w r h => ?_) (fun h => ?_) w r
  · cases s with
    | nil => cases h
    | cons c s =>
      simp only [pIdent] at h
      split at h
      · next hc =>
        simp only [Option.some.injEq, Prod.mk.injEq] at h
        obtain ⟨rfl, rfl⟩ := h
        refine ⟨by simp [List.takeWhile_append_dropWhile], ⟨c, _, rfl, (letter_iff c).1 hc, fun d hd => ?_⟩, ?_⟩
        · exact (word_char_iff d).1 (run_all _ _ d hd)
        · rintro w' r' he ⟨d, ds, rfl, -, hd⟩
          simp only [List.cons_append, List.cons.injEq] at he
          have := run_longest isIdentChar s ds r' he.2 fun e he => (word_char_iff e).2 (hd e he)
          simp only [List.length_cons]
          omega
      · cases h
  · rintro w r rfl ⟨c, cs, rfl, hc, -⟩
    simp [pIdent, (letter_iff c).2 hc] at h

theorem digits_read {s ds r : Str} (h : pDigits s = some (ds, r)) : s = ds ++ r ∧ Digits ds ∧
    ∀ w r', s = w ++ r' → (∀ c ∈ w, Digit c) → w.length ≤ ds.length := by
  simp only [pDigits] at h
  split at h
  · cases h
  · next hn =>
    simp only [Option.some.injEq, Prod.mk.injEq] at h
    obtain ⟨rfl, rfl⟩ := h
    refine ⟨by simp [List.takeWhile_append_dropWhile], ⟨?_, fun c hc => (digit_iff c).1 (run_all _ _ c hc)⟩, ?_⟩
    · intro h; rw [h] at hn; exact hn rfl
    · intro w r' he hw
      exact run_longest isDigit s w r' he fun c hc => (digit_iff c).2 (hw c hc)

theorem digits_none {s : Str} (h : pDigits s = none) (w r : Str) (he : s = w ++ r) : ¬ Digits w := by
  rintro ⟨h1, h2⟩
  simp only [pDigits] at h
  split at h
  · next hn =>
    have := run_longest isDigit s w r he fun c hc => (digit_iff c).2 (h2 c hc)
    rw [List.isEmpty_iff.1 hn] at this
    cases w with
    | nil => exact h1 rfl
    | cons => simp at this
  · cases h

/-- A word with an optional minus in front. -/
def WordSpec.Signed (word : Str → Prop) (w : Str) : Prop := ∃ neg v, w = sign neg ++ v ∧ word v

/-- Digits, a point and digits. -/
def WordSpec.Fraction (w : Str) : Prop := ∃ ds fs, w = ds ++ '.' :: fs ∧ Digits ds ∧ Digits fs

theorem minus_read (s : Str) : s = sign (pMinus s).1 ++ (pMinus s).2 := by
  unfold pMinus
  split <;> rfl

theorem minus_first {P : Str → Prop} (hP : ∀ w, P w → ∃ c cs, w = c :: cs ∧ Digit c) {neg neg' : Bool} {u v r' : Str}
    (hm : neg = false → ∀ t, u ≠ '-' :: t) (he : sign neg ++ u = sign neg' ++ v ++ r') (hv : P v) : neg = neg' ∧ u = v ++ r' := by
  obtain ⟨c, cs, rfl, hc⟩ := hP v hv
  have hc' : c ≠ '-' := by rintro rfl; exact absurd hc (by unfold Digit; decide)
  cases neg <;> cases neg' <;> simp [sign] at he ⊢
  · exact he
  · exact absurd he (hm rfl _)
  · exact absurd he.1.symm hc'
  · exact he

theorem pMinus_plain {s : Str} (h : (pMinus s).1 = false) : ∀ t, (pMinus s).2 ≠ '-' :: t := by
  unfold pMinus at h ⊢
  split at h
  · cases h
  · next h1 => exact h1

theorem longest_signed {P : Str → Prop} (hP : ∀ w, P w → ∃ c cs, w = c :: cs ∧ Digit c) {s v r : Str}
    (h : Longest P (pMinus s).2 v r) : Longest (Signed P) s (sign (pMinus s).1 ++ v) r := by
  refine ⟨?_, ⟨_, v, rfl, h.2.1⟩, ?_⟩
  · rw [List.append_assoc, ← h.1]; exact minus_read s
  · rintro w' r' he ⟨neg', v', rfl, hv⟩
    rw [minus_read s] at he
    obtain ⟨h1, h2⟩ := minus_first hP pMinus_plain he hv
    have := h.2.2 v' r' h2 hv
    rw [h1]
    simp only [List.length_append]
    omega

theorem none_signed {P : Str → Prop} (hP : ∀ w, P w → ∃ c cs, w = c :: cs ∧ Digit c) {s : Str}
    (h : ∀ w r, (pMinus s).2 = w ++ r → ¬ P w) (w r : Str) (he : s = w ++ r) : ¬ Signed P w := by
  rintro ⟨neg', v', rfl, hv⟩
  rw [minus_read s] at he
  exact h v' r (minus_first hP pMinus_plain he hv).2 hv

theorem digits_first (w : Str) (h : Digits w) : ∃ c cs, w = c :: cs ∧ Digit c := by
  cases w with
  | nil => exact absurd rfl h.1
  | cons c cs => exact ⟨c, cs, rfl, h.2 c (by simp)⟩

theorem fraction_first (w : Str) (h : Fraction w) : ∃ c cs, w = c :: cs ∧ Digit c := by
  obtain ⟨ds, fs, rfl, hd, -⟩ := h
  obtain ⟨c, cs, rfl, hc⟩ := digits_first ds hd
  exact ⟨c, _, rfl, hc⟩

theorem value_eq (ds : Str) : decVal ds = value ds := by
  have key : ∀ (ds : Str) (a : Nat), ds.foldl (fun a c => a * 10 + (c.toNat - 48)) a = a * 10 ^ ds.length + value ds := by
    intro ds
    induction ds with
    | nil => simp [value]
    | cons c ds ih =>
      intro a
      simp only [List.foldl_cons, List.length_cons, value]
      rw [ih, Nat.pow_succ, Nat.add_mul, Nat.mul_assoc, Nat.mul_comm 10, Nat.add_assoc]
  have := key ds 0
  simpa [decVal] using this

theorem longest_digits {s ds r : Str} (h : pDigits s = some (ds, r)) : Longest Digits s ds r :=
  have ⟨h1, h2, h3⟩ := digits_read h
  ⟨h1, h2, fun w r' he hw => h3 w r' he hw.2⟩

theorem pDigits_point {ds u : Str} (h : Digits ds) : pDigits (ds ++ '.' :: u) = some (ds, '.' :: u) := by
  have ha : ∀ c ∈ ds, isDigit c = true := fun c hc => (digit_iff c).2 (h.2 c hc)
  have ht : (ds ++ '.' :: u).takeWhile isDigit = ds := by
    rw [List.takeWhile_append_of_pos ha]; simp [isDigit]
  have hd : (ds ++ '.' :: u).dropWhile isDigit = '.' :: u := by
    rw [List.dropWhile_append_of_pos ha]; simp [isDigit]
  simp [pDigits, ht, hd, h.1]

/-- C77: integers: an optional minus and digits, as many as there are; the number is the one they stand for. -/
theorem C77_integer (s r : Str) (neg : Bool) (n : Nat) : pInteger s = some (⟨neg, n⟩, r) ↔
    ∃ ds, Longest (Signed Digits) s (sign neg ++ ds) r ∧ Digits ds ∧ n = value ds := by
  unfold pInteger
  dsimp only
  cases h : pDigits (pMinus s).2 with
  | none =>
    simp only [reduceCtorEq, false_iff]
    rintro ⟨ds, hl, -, -⟩
    exact none_signed digits_first (digits_none h) _ _ hl.1 hl.2.1
  | some x =>
    obtain ⟨ds, r1⟩ := x
    have hl := longest_signed digits_first (longest_digits h)
    simp only [Option.some.injEq, Prod.mk.injEq, IntTok.mk.injEq]
    constructor
    · rintro ⟨⟨rfl, rfl⟩, rfl⟩
      exact ⟨ds, hl, (longest_digits h).2.1, value_eq ds⟩
    · rintro ⟨ds', hl', hd', rfl⟩
      obtain ⟨h1, h2⟩ := longest_unique hl hl'
      have h3 := minus_first digits_first (r' := []) (u := ds) (v := ds') (fun hf t ht => by
        have := (longest_digits h).2.1.2 '-' (by rw [ht]; simp)
        exact absurd this (by unfold Digit; decide)) (by simpa using h1) hd'
      rw [List.append_nil] at h3
      rw [h3.2]
      exact ⟨⟨h3.1, value_eq ds'⟩, h2⟩

/-- C77: floats: an optional minus, digits, a point and digits, as many as there are. -/
theorem C77_float (s w r : Str) : pFloat s = some (w, r) ↔ Longest (Signed Fraction) s w r := by
  refine longest_iff (fun w r h => ?_) (fun h => ?_) w r
  · unfold pFloat at h
    dsimp only at h
    cases h1 : pDigits (pMinus s).2 with
    | none => rw [h1] at h; cases h
    | some x =>
      obtain ⟨ds, r1⟩ := x
      rw [h1] at h
      dsimp only at h
      cases h2 : lit cs!"." r1 with
      | none => rw [h2] at h; cases h
      | some r2 =>
        rw [h2] at h
        dsimp only at h
        cases h3 : pDigits r2 with
        | none => rw [h3] at h; cases h
        | some y =>
          obtain ⟨fs, r3⟩ := y
          rw [h3] at h
          simp only [Option.some.injEq, Prod.mk.injEq] at h
          obtain ⟨rfl, rfl⟩ := h
          have e2 : r1 = '.' :: r2 := by simpa using lit_some h2
          have l1 := longest_digits h1
          have l3 := longest_digits h3
          have key : Longest Fraction (pMinus s).2 (ds ++ '.' :: fs) r3 := by
            refine ⟨?_, ⟨ds, fs, rfl, l1.2.1, l3.2.1⟩, ?_⟩
            · rw [l1.1, e2, l3.1]; simp
            · rintro w' r' he ⟨ds', fs', rfl, hd, hf⟩
              have e1 : (pMinus s).2 = ds' ++ '.' :: (fs' ++ r') := by rw [he]; simp
              rw [e1, pDigits_point hd] at h1
              simp only [Option.some.injEq, Prod.mk.injEq] at h1
              obtain ⟨rfl, h1⟩ := h1
              rw [e2] at h1
              simp only [List.cons.injEq, true_and] at h1
              have := l3.2.2 fs' r' h1.symm hf
              simp only [List.length_append, List.length_cons]
              omega
          have := longest_signed fraction_first key
          simpa [sign] using this
  · refine none_signed fraction_first ?_
    rintro w r he ⟨ds, fs, rfl, hd, hf⟩
    have e1 : (pMinus s).2 = ds ++ '.' :: (fs ++ r) := by rw [he]; simp
    unfold pFloat at h
    dsimp only at h
    rw [e1, pDigits_point hd] at h
    have : lit cs!"." ('.' :: (fs ++ r)) = some (fs ++ r) := rfl
    simp only [this] at h
    cases h3 : pDigits (fs ++ r) with
    | none => exact digits_none h3 fs r rfl hf
    | some y => rw [h3] at h; cases h

theorem body_unescape {q : Char} {raw v : Str} (h : Body q raw v) : v = unescape raw := by
  induction h with
  | nil => rfl
  | plain c h1 h2 h3 ih => rw [unescape_append_char c _ h2, ← ih]
  | newline h ih => rw [ih]; simp [unescape]
  | tab h ih => rw [ih]; simp [unescape]
  | ret h ih => rw [ih]; simp [unescape]
  | escaped c h1 h2 ih =>
    simp only [List.mem_cons, List.not_mem_nil, or_false, not_or] at h1
    rw [ih]; simp [unescape, h1]

theorem pQuoted_cons (q c : Char) (s : Str) : pQuoted q (c :: s) =
    if c = '\\' then
      match s with
      | [] => none
      | d :: s =>
        match pQuoted q s with
        | none => none
        | some (b, r) => some (c :: d :: b, r)
    else if c = q then some ([], s)
    else
      match pQuoted q s with
      | none => none
      | some (b, r) => some (c :: b, r) := by
  cases s <;> (simp only [pQuoted] <;> rfl)

theorem quoted_of_body {q : Char} (hq : q ≠ '\\') {raw v : Str} (h : Body q raw v) (r : Str) :
    pQuoted q (raw ++ q :: r) = some (raw, r) := by
  induction h with
  | nil => rw [List.nil_append, pQuoted_cons, if_neg hq, if_pos rfl]
  | plain c h1 h2 h3 ih =>
    rw [List.cons_append, pQuoted_cons, if_neg h2, if_neg h1, ih]
  | newline h ih => simp only [List.cons_append]; rw [pQuoted_cons, if_pos rfl]; simp only [ih]
  | tab h ih => simp only [List.cons_append]; rw [pQuoted_cons, if_pos rfl]; simp only [ih]
  | ret h ih => simp only [List.cons_append]; rw [pQuoted_cons, if_pos rfl]; simp only [ih]
  | escaped c h1 h2 ih => simp only [List.cons_append]; rw [pQuoted_cons, if_pos rfl]; simp only [ih]

theorem body_of_quoted {q : Char} (n : Nat) : ∀ (s raw r : Str), s.length ≤ n → pQuoted q s = some (raw, r) →
    s = raw ++ q :: r ∧ Body q raw (unescape raw) := by
  induction n with
  | zero =>
    intro s raw r hl h
    cases s with
    | nil => cases h
    | cons => simp at hl
  | succ n ih =>
    intro s raw r hl h
    cases s with
    | nil => cases h
    | cons c s =>
      rw [pQuoted_cons] at h
      split at h
      · next hc =>
        subst hc
        cases s with
        | nil => cases h
        | cons d s =>
          dsimp only at h
          cases hp : pQuoted q s with
          | none => rw [hp] at h; cases h
          | some x =>
            obtain ⟨b, r1⟩ := x
            rw [hp] at h
            simp only [Option.some.injEq, Prod.mk.injEq] at h
            obtain ⟨rfl, rfl⟩ := h
            obtain ⟨h1, h2⟩ := ih s b r1 (by simp only [List.length_cons] at hl; omega) hp
            refine ⟨by rw [h1]; simp, ?_⟩
            simp only [unescape]
            by_cases n1 : d = 'n'
            · subst n1; exact .newline h2
            · by_cases n2 : d = 't'
              · subst n2; exact .tab h2
              · by_cases n3 : d = 'r'
                · subst n3; exact .ret h2
                · simp only [n1, n2, n3, if_false]
                  exact .escaped d (by simp [n1, n2, n3]) h2
      · next hc =>
        split at h
        · next hq =>
          subst hq
          simp only [Option.some.injEq, Prod.mk.injEq] at h
          obtain ⟨rfl, rfl⟩ := h
          exact ⟨rfl, .nil⟩
        · next hq =>
          cases hp : pQuoted q s with
          | none => rw [hp] at h; cases h
          | some x =>
            obtain ⟨b, r1⟩ := x
            rw [hp] at h
            simp only [Option.some.injEq, Prod.mk.injEq] at h
            obtain ⟨rfl, rfl⟩ := h
            obtain ⟨h1, h2⟩ := ih s b r1 (by simp only [List.length_cons] at hl; omega) hp
            refine ⟨by rw [h1]; simp, ?_⟩
            rw [unescape_append_char c _ hc]
            exact .plain c hq hc h2

theorem quoted_iff {q : Char} (hq : q ≠ '\\') (s v r : Str) :
    ((pQuoted q s).map fun x => (unescape x.1, x.2)) = some (v, r) ↔ ∃ raw, s = raw ++ q :: r ∧ Body q raw v := by
  constructor
  · intro h
    cases hp : pQuoted q s with
    | none => rw [hp] at h; cases h
    | some x =>
      obtain ⟨raw, r1⟩ := x
      rw [hp] at h
      cases h
      obtain ⟨h1, h2⟩ := body_of_quoted _ s raw _ (Nat.le_refl _) hp
      exact ⟨raw, h1, h2⟩
  · rintro ⟨raw, rfl, h⟩
    rw [quoted_of_body hq h]
    rw [body_unescape h]
    rfl

/-- C77: a string literal is what stands between its quotes: escapes for line feed, tab and carriage return, any other
character after a backslash as itself, other characters except the quote and the backslash as they are; it ends at the
first quote that is not escaped. -/
theorem C77_string (s v r : Str) : pString s = some (v, r) ↔ ∃ raw, s = '\'' :: raw ++ '\'' :: r ∧ Body '\'' raw v := by
  have hq := fun s => quoted_iff (q := '\'') (by decide) s v r
  cases s with
  | nil => simp [pString, lit]
  | cons c s =>
    by_cases hc : c = '\''
    · subst hc
      simp only [List.cons_append, List.cons.injEq, true_and]
      rw [← hq s]
      simp only [pString, lit, if_true]
      cases pQuoted '\'' s <;> rfl
    · simp [pString, lit, hc, Ne.symm hc]

/-- C77: a name is an identifier, or a text between double quotes with the same escapes. -/
theorem C77_name (s v r : Str) : pName s = some (v, r) ↔
    Longest Identifier s v r ∨ ∃ raw, s = '"' :: raw ++ '"' :: r ∧ Body '"' raw v := by
  have hq := fun s => quoted_iff (q := '"') (by decide) s v r
  have hn : pQuotedName s = some (v, r) ↔ ∃ raw, s = '"' :: raw ++ '"' :: r ∧ Body '"' raw v := by
    cases s with
    | nil => simp [pQuotedName, lit]
    | cons c s =>
      by_cases hc : c = '"'
      · subst hc
        simp only [List.cons_append, List.cons.injEq, true_and]
        rw [← hq s]
        simp only [pQuotedName, lit, if_true]
        cases pQuoted '"' s <;> rfl
      · simp [pQuotedName, lit, hc, Ne.symm hc]
  rw [← hn, ← C77_identifier]
  unfold pName
  cases hi : pIdent s with
  | none => simp
  | some x =>
    simp only [iff_self_or]
    intro h
    obtain ⟨raw, rfl, -⟩ := hn.1 h
    cases hi

/-- A word of each kind, with the text after it. -/
example : pIdent cs!"a_1b-c" = some (cs!"a_1b", cs!"-c") ∧ pIdent cs!"_a" = none ∧
    pInteger cs!"-0127x" = some (⟨true, 127⟩, cs!"x") ∧ pInteger cs!"--1" = none ∧
    pFloat cs!"-1.50.2" = some (cs!"-1.50", cs!".2") ∧ pFloat cs!"1." = none ∧
    pString cs!"'it\\'s\\n\\x' 'b'" = some (cs!"it's\nx", cs!" 'b'") ∧ pString cs!"'a\\'" = none ∧
    pName cs!"\"a\\\"b\"c" = some (cs!"a\"b", cs!"c") := by decide

end Verif
