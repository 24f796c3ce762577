import Verif.Props.Literals
/-!
# C15 and C19: which intervals are reported, and how dates are spelled
-/

namespace Verif

set_option autoImplicit false

/-- C15, exactly: an interval is written without an error precisely when its precision is one of five, its days
and its whole length are within ten thousand years of 365 days, and its parts of a second, if any, are less than
a second and have a unit. -/
theorem C15_interval_errors_iff [UTab] (i : Interval) (p u : Int) (hp : i.units = (p, u)) :
    (textInterval i).errs = [] ↔
      p ∈ [(0 : Int), 3, 6, 9, 12] ∧ (-3650000 ≤ i.days ∧ i.days ≤ 3650000) ∧
      (-315360000000 ≤ i.days * 86400 + i.secs ∧ i.days * 86400 + i.secs ≤ 315360000000) ∧
      (u = 0 ∨ (p ≠ 0 ∧ -(10 ^ p.toNat) < u ∧ u < 10 ^ p.toNat)) := by
  have hb : i.outOfBounds ↔ ¬ ((-3650000 ≤ i.days ∧ i.days ≤ 3650000) ∧
      (-315360000000 ≤ i.days * 86400 + i.secs ∧ i.days * 86400 + i.secs ≤ 315360000000)) := by
    unfold Interval.outOfBounds
    omega
  have hsplit : (textInterval i).errs = [] ↔ (∃ pr, Precision.fromUnits p = some pr ∧ ¬ i.outOfBounds ∧
      (u = 0 ∨ (pr ≠ .seconds ∧ -(10 ^ pr.units.toNat) < u ∧ u < 10 ^ pr.units.toNat))) := by
    unfold textInterval
    rw [hp]
    dsimp only
    cases Precision.fromUnits p with
    | none => simp [litFail]
    | some pr =>
      by_cases hu : u = 0
      · simp [hu]
      · dsimp only
        rw [if_pos (show u ≠ 0 from hu)]
        cases pr <;> simp [Precision.subsecondUnit, litFail, hu]
  rw [hsplit]
  constructor
  · rintro ⟨pr, h1, h2, h3⟩
    rw [hb, Classical.not_not] at h2
    unfold Precision.fromUnits at h1
    repeat' split at h1
    all_goals first
      | (cases h1)
      | skip
    all_goals subst_vars
    all_goals refine ⟨by decide, h2.1, h2.2, ?_⟩
    all_goals first
      | (rcases h3 with h3 | h3
         · exact .inl h3
         · exact absurd rfl h3.1)
      | exact h3.imp id fun h => ⟨by decide, h.2⟩
  · rintro ⟨h1, h2, h3, h4⟩
    have hn : ¬ i.outOfBounds := by rw [hb, Classical.not_not]; exact ⟨h2, h3⟩
    simp only [List.mem_cons, List.not_mem_nil, or_false] at h1
    rcases h1 with rfl | rfl | rfl | rfl | rfl
    · exact ⟨.seconds, rfl, hn, h4.imp id fun h => absurd rfl h.1⟩
    · exact ⟨.milliseconds, rfl, hn, h4.imp id fun h => ⟨by decide, h.2⟩⟩
    · exact ⟨.microseconds, rfl, hn, h4.imp id fun h => ⟨by decide, h.2⟩⟩
    · exact ⟨.nanoseconds, rfl, hn, h4.imp id fun h => ⟨by decide, h.2⟩⟩
    · exact ⟨.picoseconds, rfl, hn, h4.imp id fun h => ⟨by decide, h.2⟩⟩

/-- The limits themselves are accepted, one second more is not. -/
example : letI := asciiTab
    (textInterval ⟨-3650000, 0, 0, .precision 0⟩).errs = [] ∧ (textInterval ⟨3649999, 86400, 999, .precision 3⟩).errs = [] ∧
    (textInterval ⟨-3650000, -1, 0, .precision 0⟩).errs ≠ [] ∧ (textInterval ⟨1, 1, 1000, .precision 3⟩).errs ≠ [] := by
  letI := asciiTab
  refine ⟨?_, ?_, ?_, ?_⟩
  · rw [C15_interval_errors_iff _ 0 0 rfl]; decide
  · rw [C15_interval_errors_iff _ 3 999 rfl]; decide
  · rw [Ne, C15_interval_errors_iff _ 0 0 rfl]; decide
  · rw [Ne, C15_interval_errors_iff _ 3 1000 rfl]; decide

/-- C19: a date is written as year, month and day with hyphens between them, month and day with two digits, and
a year from 0 to 9999 with four digits and no sign; any other year has a sign and at least four digits. -/
theorem C19_date_spelling (d : Int) (x : Str) (h : dateText d = some x) :
    ∃ sign y m n : Str, x = sign ++ y ++ '-' :: (m ++ '-' :: n) ∧ (∀ c ∈ y ++ m ++ n, isDigit c = true) ∧
      m.length = 2 ∧ n.length = 2 ∧ 4 ≤ y.length ∧ decVal y = (Date.ofDays d).y.natAbs ∧
      decVal m = (Date.ofDays d).m ∧ decVal n = (Date.ofDays d).d ∧
      (0 ≤ (Date.ofDays d).y ∧ (Date.ofDays d).y ≤ 9999 → sign = [] ∧ y.length = 4) ∧
      ((Date.ofDays d).y < 0 → sign = ['-']) ∧ (9999 < (Date.ofDays d).y → sign = ['+']) := by
  unfold dateText at h
  split at h
  · next hr =>
    cases h
    obtain ⟨-, -, hm1, hm2, hd1, hd2⟩ := (Date.ofDays_valid_iff d).2 hr
    have hd3 : daysInMonth (Date.ofDays d).y (Date.ofDays d).m ≤ 31 := by
      unfold daysInMonth
      repeat' split
      all_goals omega
    generalize Date.ofDays d = t at *
    have lpad : ∀ n, 4 ≤ (pad 4 n).length := by intro n; simp [pad]; omega
    refine ⟨if 0 ≤ t.y ∧ t.y ≤ 9999 then [] else [if t.y < 0 then '-' else '+'], pad 4 t.y.natAbs, pad 2 t.m.natAbs,
      pad 2 t.d.natAbs, ?_, ?_, pad_length _ _ (by decide) (by omega), pad_length _ _ (by decide) (by omega), lpad _,
      decVal_pad _ _, by rw [decVal_pad]; omega, by rw [decVal_pad]; omega, ?_, ?_, ?_⟩
    · unfold showDate showYear
      split <;> simp
    · intro c hc
      simp only [List.mem_append] at hc
      rcases hc with (hc | hc) | hc <;> exact pad_digits _ _ _ hc
    · intro hy
      exact ⟨if_pos hy, pad_length _ _ (by decide) (by omega)⟩
    · intro hy
      rw [if_neg (by omega), if_pos hy]
    · intro hy
      rw [if_neg (by omega), if_neg (by omega)]
  · cases h

example : dateText 2932896 = some cs!"9999-12-31" ∧ dateText 2932897 = some cs!"+10000-01-01" := by decide +kernel

end Verif
