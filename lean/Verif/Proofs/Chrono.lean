import Verif.Model.Chrono
import Verif.Proofs.Calendar
import Verif.Proofs.Peg
import Verif.Proofs.Trim
/-! # Dates and times survive writing and reading -/

namespace Verif

set_option autoImplicit false

theorem dec_length_le (w n : Nat) (hw : 0 < w) (h : n < 10 ^ w) : (dec n).length ≤ w := by
  induction w generalizing n with
  | zero => omega
  | succ w ih =>
    rw [dec]
    split
    · simp
    · rename_i hn
      have hw : 0 < w := by
        rcases Nat.eq_zero_or_pos w with rfl | h'
        · simp at h; omega
        · exact h'
      have := ih (n / 10) hw (by rw [Nat.pow_succ] at h; omega)
      simp; omega

theorem decVal_zeros (k : Nat) (s : Str) : decVal (List.replicate k '0' ++ s) = decVal s := by
  induction k with
  | zero => rfl
  | succ k ih => rw [List.replicate_succ, List.cons_append, ← ih]; rfl

theorem decVal_pad (w n : Nat) : decVal (pad w n) = n := by
  rw [pad, decVal_zeros, decVal_dec]

theorem pad_digits (w n : Nat) : ∀ c ∈ pad w n, isDigit c = true := by
  intro c hc
  rcases List.mem_append.1 hc with h | h
  · rw [List.eq_of_mem_replicate h]; decide
  · exact dec_all_digits n c h

theorem pad_length (w n : Nat) (hw : 0 < w) (h : n < 10 ^ w) : (pad w n).length = w := by
  have := dec_length_le w n hw h
  simp [pad]; omega

theorem pad_ne_nil (w n : Nat) : pad w n ≠ [] := by simp [pad, dec_ne_nil]

theorem takeWhile_all {p : Char → Bool} (s : Str) (h : ∀ c ∈ s, p c = true) : s.takeWhile p = s := by
  have := (takeWhile_append_of_all (s := []) h (NextNot.nil p)).1
  simpa using this

theorem scanNum_pad (w n : Nat) (rest : Str) (hw : 0 < w) (h : n < 10 ^ w) :
    scanNum w (pad w n ++ rest) = some (n, rest) := by
  have hl := pad_length w n hw h
  have ht : (pad w n ++ rest).take w = pad w n := by rw [← hl]; simp [hl]
  unfold scanNum
  simp only [ht, takeWhile_all _ (pad_digits w n), decVal_pad]
  have : (pad w n).isEmpty = false := by simp [pad_ne_nil]
  simp [this]

theorem scanNum_all (w n : Nat) (rest : Str) (hr : NextNot isDigit rest) :
    scanNum (pad w n ++ rest).length (pad w n ++ rest) = some (n, rest) := by
  unfold scanNum
  simp only [List.take_length, (takeWhile_append_of_all (pad_digits w n) hr).1, decVal_pad]
  have : (pad w n).isEmpty = false := by simp [pad_ne_nil]
  simp [this]

theorem isWs_digit {c : Char} (h : isDigit c = true) : isWs c = false := by
  simp only [isDigit, Bool.and_eq_true, decide_eq_true_eq] at h
  simp [isWs]; omega

theorem trimStart_digit {c : Char} {s : Str} (h : isDigit c = true) : trimStart (c :: s) = c :: s := by
  simp [trimStart, isWs_digit h]

theorem pad_cons (w n : Nat) : ∃ c s, pad w n = c :: s ∧ isDigit c = true := by
  cases hp : pad w n with
  | nil => exact absurd hp (pad_ne_nil w n)
  | cons c s => exact ⟨c, s, rfl, pad_digits w n c (by simp [hp])⟩

theorem scan2_pad (n : Nat) (rest : Str) (h : n < 100) : scan2 (pad 2 n ++ rest) = some (n, rest) := by
  obtain ⟨c, s, e, hc⟩ := pad_cons 2 n
  unfold scan2
  rw [show trimStart (pad 2 n ++ rest) = pad 2 n ++ rest by rw [e]; exact trimStart_digit hc]
  exact scanNum_pad 2 n rest (by omega) (by omega)

theorem scanYear_show (y : Int) (rest : Str) (hr : NextNot isDigit rest) :
    scanYear (showYear y ++ rest) = some (y, rest) := by
  unfold showYear
  split
  · rename_i h
    obtain ⟨c, s, e, hc⟩ := pad_cons 4 y.natAbs
    have hn : y.natAbs < 10 ^ 4 := by omega
    have hs := scanNum_pad 4 y.natAbs rest (by omega) hn
    have ht : trimStart (pad 4 y.natAbs ++ rest) = pad 4 y.natAbs ++ rest := by
      rw [e]; exact trimStart_digit hc
    unfold scanYear
    rw [ht]
    have h1 : c ≠ '-' := isDigit_ne_minus hc
    have h2 : c ≠ '+' := by rintro rfl; exact absurd hc (by decide)
    rw [e] at hs ⊢
    simp only [List.cons_append] at hs ⊢
    split
    · rename_i heq; exact absurd (List.cons.inj heq).1 h1
    · rename_i heq; exact absurd (List.cons.inj heq).1 h2
    · rw [hs]; simp; omega
  · rename_i h
    have hs := scanNum_all 4 y.natAbs rest hr
    split
    · unfold scanYear
      have : trimStart (('-' :: pad 4 y.natAbs) ++ rest) = '-' :: (pad 4 y.natAbs ++ rest) := by
        simp [trimStart, show isWs '-' = false by decide]
      rw [this]
      simp only [hs]
      simp; omega
    · unfold scanYear
      have : trimStart (('+' :: pad 4 y.natAbs) ++ rest) = '+' :: (pad 4 y.natAbs ++ rest) := by
        simp [trimStart, show isWs '+' = false by decide]
      rw [this]
      simp only [hs]
      simp; omega

theorem nextNot_digit_cons {c : Char} {s : Str} (h : isDigit c = false) : NextNot isDigit (c :: s) :=
  (nextNot_cons _ _ _).2 h

theorem scanDate_show (t : Date) (h : t.Valid) (rest : Str) :
    scanDate '-' (showDate t ++ rest) = some (t, rest) := by
  obtain ⟨y, m, d⟩ := t
  have hv := h
  obtain ⟨_, _, h1, h2, h3, h4⟩ := h
  simp only at h1 h2 h3 h4
  have h5 := daysInMonth_le y m
  unfold scanDate showDate
  simp only [List.append_assoc, List.cons_append, List.nil_append]
  rw [scanYear_show y _ (nextNot_digit_cons (by decide))]
  simp only [Option.bind_eq_bind, Option.bind_some, List.cons_append, List.nil_append, lit_cons,
    if_true, lit_nil]
  rw [scan2_pad m.natAbs _ (by omega)]
  simp only [Option.bind_some, lit_cons, if_true, lit_nil]
  rw [scan2_pad d.natAbs _ (by omega)]
  have e1 : (m.natAbs : Int) = m := by omega
  have e2 : (d.natAbs : Int) = d := by omega
  simp only [Option.bind_some, e1, e2, if_pos hv]

/-- The fraction digits of a precision lose nothing of a nanosecond count that is a multiple of
the unit. -/
def FracOk (p : Int) (ns : Int) : Prop :=
  (p = 0 ∧ ns % 1000000000 = 0) ∨ (p = 3 ∧ ns % 1000000 = 0) ∨ (p = 6 ∧ ns % 1000 = 0) ∨ p = 9 ∨ p = 12

theorem scanFrac_dot (w n k : Nat) (hw : 0 < w) (h9 : w ≤ 9) (h : n < 10 ^ w) (hk : k = n * 10 ^ (9 - w)) :
    scanFrac ('.' :: pad w n) = some (k, []) := by
  have hl := pad_length w n hw h
  unfold scanFrac
  have ht := takeWhile_all _ (pad_digits w n)
  have hd : (pad w n).dropWhile isDigit = [] := by
    have := (takeWhile_append_of_all (s := []) (pad_digits w n) (NextNot.nil _)).2
    simpa using this
  have h10 : (pad w n).take 9 = pad w n := List.take_of_length_le (by omega)
  have : (pad w n).isEmpty = false := by simp [pad_ne_nil]
  simp [ht, hd, h10, decVal_pad, hl, this, hk]

theorem scanFrac_show (p : Int) (ns : Nat) (hlt : ns < 1000000000) (h : FracOk p ns) :
    scanFrac (showFrac p ns) = some (ns, []) := by
  unfold showFrac
  rcases h with ⟨rfl, h⟩ | ⟨rfl, h⟩ | ⟨rfl, h⟩ | rfl | rfl
  · have : ns = 0 := by omega
    subst this; simp [scanFrac]
  · exact scanFrac_dot 3 _ _ (by omega) (by omega) (by omega) (by omega)
  · exact scanFrac_dot 6 _ _ (by omega) (by omega) (by omega) (by omega)
  · exact scanFrac_dot 9 _ _ (by omega) (by omega) (by omega) (by omega)
  · exact scanFrac_dot 9 _ _ (by omega) (by omega) (by omega) (by omega)

theorem scanTime_show (p : Int) (ns : Nat) (hlt : (ns : Int) < dayNs) (h : FracOk p ns) :
    scanTime true (showTime p ns) = some (ns, []) := by
  simp only [dayNs] at hlt
  have hf : FracOk p ((ns % 1000000000 : Nat) : Int) := by
    unfold FracOk at h ⊢; omega
  unfold scanTime showTime
  simp only [List.append_assoc]
  rw [scan2_pad _ _ (by omega)]
  simp only [Option.bind_eq_bind, Option.bind_some, List.cons_append, List.nil_append, lit_cons,
    if_true, lit_nil]
  rw [scan2_pad _ _ (by omega)]
  simp only [Option.bind_some, lit_cons, if_true, lit_nil]
  rw [scan2_pad _ _ (by omega)]
  simp only [Option.bind_some]
  rw [scanFrac_show p _ (by omega) hf]
  simp only [Option.bind_some]
  rw [if_pos (by omega)]
  simp only [Option.some.injEq, Prod.mk.injEq, and_true]
  omega

theorem readTime_show (p : Int) (ns : Nat) (hlt : (ns : Int) < dayNs) (h : FracOk p ns) :
    readTime (showTime p ns) = some (ns : Int) := by
  unfold readTime
  rw [scanTime_show p ns hlt h]
  rfl

theorem readStamp_show (p ns : Int) (h : FracOk p ns) (h1 : minDays ≤ ns / dayNs) (h2 : ns / dayNs ≤ maxDays) :
    readStamp (showDate (Date.ofDays (ns / dayNs)) ++ cs!"T" ++ showTime p (ns % dayNs).natAbs) = some ns := by
  have hlt : 0 ≤ ns % dayNs ∧ ns % dayNs < dayNs := by simp only [dayNs]; omega
  have e : ((ns % dayNs).natAbs : Int) = ns % dayNs := by omega
  have hf : FracOk p ((ns % dayNs).natAbs : Int) := by
    rw [e]; unfold FracOk at h ⊢; simp only [dayNs]; omega
  have hs : scanStamp '-' true true
      (showDate (Date.ofDays (ns / dayNs)) ++ cs!"T" ++ showTime p (ns % dayNs).natAbs) = some ns := by
    unfold scanStamp
    simp only [List.append_assoc]
    rw [scanDate_show _ ((Date.ofDays_valid_iff _).2 ⟨h1, h2⟩)]
    simp only [Option.bind_eq_bind, Option.bind_some, scanGap, if_true, List.cons_append, List.nil_append,
      lit_cons, lit_nil]
    rw [scanTime_show p _ (by omega) hf]
    simp only [Option.bind_some, if_true, Date.toDays_ofDays, e, Option.some.injEq, dayNs]
    omega
  unfold readStamp
  rw [hs]
  rfl

theorem readDate_show (z : Int) (h1 : minDays ≤ z) (h2 : z ≤ maxDays) :
    readDate (showDate (Date.ofDays z)) = some z := by
  have := scanDate_show _ ((Date.ofDays_valid_iff z).2 ⟨h1, h2⟩) []
  rw [List.append_nil] at this
  unfold readDate
  rw [this]
  simp [complete, Date.toDays_ofDays]

end Verif
