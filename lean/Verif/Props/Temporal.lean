import Verif.Proofs.Temporal
import Verif.Proofs.LiteralsImage

/-!
C72: exactly which spellings of dates, times of day and timestamps are read.
-/

set_option autoImplicit false

namespace Verif

open TemporalSpec

theorem nsToUnits_iff {ns v : Int} {pr : Precision} (hp : pr ≠ .picoseconds)
    (hns : -(2 ^ 63 * 1000000) ≤ ns ∧ ns < 2 ^ 63 * 1000000) :
    nsToUnits ns pr = .ok v ↔ InI64 v ∧ v * 1000000000 = ns * perSecond pr.units := by
  have hi : ∀ v, inI64 v = true ↔ InI64 v := by intro v; simp only [inI64, InI64, decide_eq_true_eq]
  have e3 : perSecond 3 = 1000 := by decide
  have e6 : perSecond 6 = 1000000 := by decide
  have e9 : perSecond 9 = 1000000000 := by decide
  have e0 : perSecond 0 = 1 := by decide
  constructor
  · intro h
    obtain ⟨-, h1, h2⟩ := nsToUnits_ok h
    refine ⟨?_, h1⟩
    unfold InI64
    cases pr with
    | seconds => simp only [Precision.units, e0] at h1; omega
    | milliseconds => simp only [Precision.units, e3] at h1; omega
    | microseconds => exact h2 (.inl rfl)
    | nanoseconds => exact h2 (.inr rfl)
    | picoseconds => exact absurd rfl hp
  · rintro ⟨h1, h2⟩
    cases pr with
    | seconds =>
      simp only [Precision.units, e0] at h2
      obtain rfl : ns = v * 1000000000 := by omega
      simp only [nsToUnits]
      rw [Int.mul_tdiv_cancel _ (by omega), if_neg (by simp)]
    | milliseconds =>
      simp only [Precision.units, e3] at h2
      obtain rfl : ns = v * 1000000 := by omega
      simp only [nsToUnits]
      rw [Int.mul_tdiv_cancel _ (by omega), if_neg (by simp)]
    | microseconds =>
      simp only [Precision.units, e6] at h2
      obtain rfl : ns = v * 1000 := by omega
      simp only [nsToUnits]
      rw [Int.mul_tdiv_cancel _ (by omega), (hi v).2 h1]
      simp
    | nanoseconds =>
      simp only [Precision.units, e9] at h2
      obtain rfl : ns = v := by omega
      simp only [nsToUnits]
      rw [(hi ns).2 h1]
      simp
    | picoseconds => exact absurd rfl hp

theorem precision_of_mem {p : Int} (hm : p ∈ [(0 : Int), 3, 6, 9]) : ∃ pr, checkPrecision p = .ok pr := by
  simp only [List.mem_cons, List.mem_nil_iff, or_false] at hm
  rcases hm with rfl | rfl | rfl | rfl <;> exact ⟨_, rfl⟩

/-- C72: a text is a date literal if and only if it is a spelling of a date of the calendar with
hyphens or with slashes, and then the literal is the number of its day. -/
theorem C72_date (s : Str) (n : Nul) (var : Nat) (l : Literal) :
    toStringLit s (some (.simple .date n var)) = .ok l ↔
      ∃ d sep, l = ⟨some (.date d), n.asNullable, var⟩ ∧ (minDays ≤ d ∧ d ≤ maxDays) ∧ (sep = '-' ∨ sep = '/') ∧
        DateText sep s (Date.ofDays d) := by
  simp only [toStringLit]
  constructor
  · intro h
    split at h
    · next d hd =>
      cases h
      obtain ⟨h1, sep, h2, h3⟩ := (readDate_iff s d).1 hd
      exact ⟨d, sep, rfl, h1, h2, h3⟩
    · cases h
  · rintro ⟨d, sep, rfl, h1, h2, h3⟩
    rw [(readDate_iff s d).2 ⟨h1, sep, h2, h3⟩]

theorem timeText_range {s : Str} {ns : Nat} (h : TimeText s ns) : ns < 86401 * 10 ^ 9 := by
  have := readTime_range ((readTime_iff s ns).2 ⟨ns, h, rfl⟩)
  omega

/-- C72: a text is a time of day of a precision if and only if it is a spelling of a number of
nanoseconds that is a whole number of the units. -/
theorem C72_time (s : Str) (p v : Int) : timeUnits s p = .ok v ↔
    p ∈ [(0 : Int), 3, 6, 9] ∧ InI64 v ∧ ∃ ns, TimeText s ns ∧ v * 1000000000 = ns * perSecond p := by
  unfold timeUnits
  rw [Res.bind_ok_iff]
  constructor
  · rintro ⟨pr, h1, h2⟩
    obtain ⟨rfl, hm, hp⟩ := checkPrecision_ok h1
    split at h2
    · next x hx =>
      obtain ⟨ns, ht, rfl⟩ := (readTime_iff s _).1 hx
      have hr := timeText_range ht
      obtain ⟨h3, h4⟩ := (nsToUnits_iff hp (by omega)).1 h2
      exact ⟨hm, h3, ns, ht, h4⟩
    · cases h2
  · rintro ⟨hm, h3, ns, ht, h4⟩
    obtain ⟨pr, h1⟩ := precision_of_mem hm
    obtain ⟨rfl, hm, hp⟩ := checkPrecision_ok h1
    refine ⟨pr, h1, ?_⟩
    rw [(readTime_iff s ns).2 ⟨ns, ht, rfl⟩]
    have hr := timeText_range ht
    exact (nsToUnits_iff hp (by omega)).2 ⟨h3, h4⟩

/-- C72: a text is a timestamp of a precision if and only if it is a spelling of a date of the calendar
and a time of day, and the instant is a 64-bit number of the units. -/
theorem C72_timestamp (s : Str) (p v : Int) : stampUnits s p = .ok v ↔
    p ∈ [(0 : Int), 3, 6, 9] ∧ InI64 v ∧ ∃ (d : Int) (ns : Nat), (minDays ≤ d ∧ d ≤ maxDays) ∧
      StampText s (Date.ofDays d) ns ∧ v * 1000000000 = (d * 86400000000000 + ns) * perSecond p := by
  have hmin : minDays = -96465292 := by decide +kernel
  have hmax : maxDays = 95026236 := by decide +kernel
  have bound : ∀ (d : Int) (ns : Nat), minDays ≤ d ∧ d ≤ maxDays → ∀ {x : Str}, StampText x (Date.ofDays d) ns →
      -(2 ^ 63 * 1000000) ≤ d * 86400000000000 + ns ∧ d * 86400000000000 + (ns : Int) < 2 ^ 63 * 1000000 := by
    rintro d ns hd x ⟨sep, a, g, b, -, -, -, hb, -⟩
    have := timeText_range hb
    omega
  unfold stampUnits
  rw [Res.bind_ok_iff]
  constructor
  · rintro ⟨pr, h1, h2⟩
    obtain ⟨rfl, hm, hp⟩ := checkPrecision_ok h1
    split at h2
    · next x hx =>
      obtain ⟨t, ns, hv, ht, rfl⟩ := (readStamp_iff s _).1 hx
      have back : Date.ofDays t.toDays = t := Date.ofDays_toDays t (Date.valid_real hv)
      have hd := (Date.ofDays_valid_iff t.toDays).1 (by rw [back]; exact hv)
      rw [← back] at ht
      obtain ⟨h3, h4⟩ := (nsToUnits_iff hp (bound _ _ hd ht)).1 h2
      exact ⟨hm, h3, t.toDays, ns, hd, ht, h4⟩
    · cases h2
  · rintro ⟨hm, h3, d, ns, hd, ht, h4⟩
    obtain ⟨pr, h1⟩ := precision_of_mem hm
    obtain ⟨rfl, hm, hp⟩ := checkPrecision_ok h1
    refine ⟨pr, h1, ?_⟩
    rw [(readStamp_iff s (d * dayNs + ns)).2
      ⟨Date.ofDays d, ns, (Date.ofDays_valid_iff d).2 hd, ht, by rw [Date.toDays_ofDays]⟩]
    exact (nsToUnits_iff hp (bound _ _ hd ht)).2 ⟨h3, h4⟩

/-! ### What is refused, and how -/

/-- The whole units in a number of nanoseconds, towards zero. -/
def wholeUnits (ns p : Int) : Int := (ns * perSecond p).tdiv 1000000000

theorem nsToUnits_errors {ns : Int} {pr : Precision} (hp : pr ≠ .picoseconds)
    (hns : -(2 ^ 62 * 1000000) ≤ ns ∧ ns < 2 ^ 62 * 1000000) :
    (¬ InI64 (wholeUnits ns pr.units) → nsToUnits ns pr = .err (.invalid cs!"precision_literal_out_of_range")) ∧
    (InI64 (wholeUnits ns pr.units) → wholeUnits ns pr.units * 1000000000 ≠ ns * perSecond pr.units →
      nsToUnits ns pr = .err (.invalid cs!"precision_literal_fractional_truncated")) := by
  have hi : ∀ v, inI64 v = true ↔ InI64 v := by intro v; simp only [inI64, InI64, decide_eq_true_eq]
  have hf : ∀ v, ¬ InI64 v → inI64 v = false := by
    intro v hv
    cases h : inI64 v with
    | true => exact absurd ((hi _).1 h) hv
    | false => rfl
  have e3 : perSecond 3 = 1000 := by decide
  have e6 : perSecond 6 = 1000000 := by decide
  have e9 : perSecond 9 = 1000000000 := by decide
  have e0 : perSecond 0 = 1 := by decide
  have near : ∀ c : Int, 0 < c → ∀ x : Int, (x.tdiv c) * c ≤ x + c ∧ x - c ≤ (x.tdiv c) * c := by
    intro c hc x
    have h1 := Int.tmod_add_mul_tdiv x c
    have h2 := Int.tmod_lt_of_pos x hc
    have h3 := Int.lt_tmod_of_pos x hc
    rw [Int.mul_comm] at h1
    omega
  unfold wholeUnits
  cases pr with
  | seconds =>
    simp only [Precision.units, e0, Int.mul_one]
    have := near 1000000000 (by omega) ns
    refine ⟨fun h => absurd (show InI64 _ by unfold InI64; omega) h, fun _ h => ?_⟩
    simp only [nsToUnits]
    rw [if_pos h]
  | milliseconds =>
    simp only [Precision.units, e3]
    have e : (ns * 1000).tdiv 1000000000 = ns.tdiv 1000000 := Int.mul_tdiv_mul_of_pos_left ns 1000000 (by omega)
    rw [e]
    have := near 1000000 (by omega) ns
    refine ⟨fun h => absurd (show InI64 _ by unfold InI64; omega) h, fun _ h => ?_⟩
    simp only [nsToUnits]
    rw [if_pos (by omega)]
  | microseconds =>
    simp only [Precision.units, e6]
    have e : (ns * 1000000).tdiv 1000000000 = ns.tdiv 1000 := Int.mul_tdiv_mul_of_pos_left ns 1000 (by omega)
    rw [e]
    refine ⟨fun h => ?_, fun h h' => ?_⟩
    · simp only [nsToUnits]
      rw [hf _ h]
      simp
    · simp only [nsToUnits]
      rw [(hi _).2 h, if_neg (by simp), if_pos (by omega)]
  | nanoseconds =>
    simp only [Precision.units, e9]
    rw [Int.mul_tdiv_cancel _ (by omega)]
    refine ⟨fun h => ?_, fun h h' => absurd rfl h'⟩
    simp only [nsToUnits]
    rw [hf _ h]
    simp
  | picoseconds => exact absurd rfl hp

/-- C72: which error a text is refused with, as a time of day.  Together with `C72_time` this is everything:
a time of day is never out of range. -/
theorem C72_time_refused (s : Str) (p : Int) :
    (p = 12 → timeUnits s p = .err (.invalid cs!"precision_literal_unsupported_precision")) ∧
    (p ∉ [(0 : Int), 3, 6, 9, 12] → timeUnits s p = .err (.invalid cs!"precision_literal_invalid_precision")) ∧
    (p ∈ [(0 : Int), 3, 6, 9] → (¬ ∃ ns, TimeText s ns) → timeUnits s p = .err (.invalid cs!"time_parse_format")) ∧
    (p ∈ [(0 : Int), 3, 6, 9] → ∀ ns, TimeText s ns → (∃ v, InI64 v ∧ v * 1000000000 = ns * perSecond p ∧ timeUnits s p = .ok v) ∨
      (wholeUnits ns p * 1000000000 ≠ ns * perSecond p ∧
        timeUnits s p = .err (.invalid cs!"precision_literal_fractional_truncated"))) := by
  refine ⟨?_, ?_, ?_, ?_⟩
  · rintro rfl; rfl
  · intro h
    have : checkPrecision p = .err (.invalid cs!"precision_literal_invalid_precision") := by
      simp only [List.mem_cons, List.mem_nil_iff, or_false, not_or] at h
      simp [checkPrecision, Precision.fromUnits, h]
    rw [timeUnits, this]; rfl
  · intro h hn
    obtain ⟨pr, h1⟩ := precision_of_mem h
    have : readTime s = none := by
      cases hr : readTime s with
      | none => rfl
      | some v =>
        obtain ⟨ns, ht, -⟩ := (readTime_iff s v).1 hr
        exact absurd ⟨ns, ht⟩ hn
    rw [timeUnits, h1]
    simp [Res.bind, this]
  · intro h ns ht
    obtain ⟨pr, h1⟩ := precision_of_mem h
    obtain ⟨rfl, hm, hp⟩ := checkPrecision_ok h1
    have hr := timeText_range ht
    have he : timeUnits s pr.units = nsToUnits ns pr := by
      rw [timeUnits, h1]
      simp only [Res.bind, (readTime_iff s ns).2 ⟨ns, ht, rfl⟩]
    obtain ⟨-, k2⟩ := nsToUnits_errors hp (ns := ns) (by omega)
    have hin : InI64 (wholeUnits ns pr.units) := by
      unfold wholeUnits
      have : ∀ k : Int, 0 ≤ k → k ≤ 1000000000 → InI64 ((ns * k).tdiv 1000000000) := by
        intro k h0 hk
        have h2 : (ns : Int) * k ≤ 86401000000000 * 1000000000 := Int.mul_le_mul (by omega) hk h0 (by omega)
        have h3 : 0 ≤ (ns : Int) * k := Int.mul_nonneg (by omega) h0
        rw [Int.tdiv_eq_ediv_of_nonneg h3]
        unfold InI64
        omega
      simp only [List.mem_cons, List.mem_nil_iff, or_false] at hm
      rcases hm with e | e | e | e <;> rw [e] <;> exact this _ (by decide) (by decide)
    by_cases hx : wholeUnits ns pr.units * 1000000000 = ns * perSecond pr.units
    · exact .inl ⟨_, hin, hx, by rw [he]; exact (nsToUnits_iff hp (by omega)).2 ⟨hin, hx⟩⟩
    · exact .inr ⟨hx, by rw [he]; exact k2 hin hx⟩

/-- C72: which error a text is refused with, as a timestamp. -/
theorem C72_timestamp_refused (s : Str) (p : Int) :
    (p = 12 → stampUnits s p = .err (.invalid cs!"precision_literal_unsupported_precision")) ∧
    (p ∉ [(0 : Int), 3, 6, 9, 12] → stampUnits s p = .err (.invalid cs!"precision_literal_invalid_precision")) ∧
    (p ∈ [(0 : Int), 3, 6, 9] → (¬ ∃ (d : Int) (ns : Nat), (minDays ≤ d ∧ d ≤ maxDays) ∧ StampText s (Date.ofDays d) ns) →
      stampUnits s p = .err (.invalid cs!"timestamp_parse_format")) ∧
    (p ∈ [(0 : Int), 3, 6, 9] → ∀ (d : Int) (ns : Nat), (minDays ≤ d ∧ d ≤ maxDays) → StampText s (Date.ofDays d) ns →
      let v := wholeUnits (d * 86400000000000 + ns) p
      (¬ InI64 v → stampUnits s p = .err (.invalid cs!"precision_literal_out_of_range")) ∧
      (InI64 v → v * 1000000000 ≠ (d * 86400000000000 + ns) * perSecond p →
        stampUnits s p = .err (.invalid cs!"precision_literal_fractional_truncated")) ∧
      (InI64 v → v * 1000000000 = (d * 86400000000000 + ns) * perSecond p → stampUnits s p = .ok v)) := by
  refine ⟨?_, ?_, ?_, ?_⟩
  · rintro rfl; rfl
  · intro h
    have : checkPrecision p = .err (.invalid cs!"precision_literal_invalid_precision") := by
      simp only [List.mem_cons, List.mem_nil_iff, or_false, not_or] at h
      simp [checkPrecision, Precision.fromUnits, h]
    rw [stampUnits, this]; rfl
  · intro h hn
    obtain ⟨pr, h1⟩ := precision_of_mem h
    have : readStamp s = none := by
      cases hr : readStamp s with
      | none => rfl
      | some v =>
        obtain ⟨t, ns, hv, ht, -⟩ := (readStamp_iff s v).1 hr
        have back : Date.ofDays t.toDays = t := Date.ofDays_toDays t (Date.valid_real hv)
        exact absurd ⟨t.toDays, ns, (Date.ofDays_valid_iff t.toDays).1 (by rw [back]; exact hv), by rw [back]; exact ht⟩ hn
    rw [stampUnits, h1]
    simp [Res.bind, this]
  · intro h d ns hd ht
    obtain ⟨pr, h1⟩ := precision_of_mem h
    obtain ⟨rfl, hm, hp⟩ := checkPrecision_ok h1
    have he : stampUnits s pr.units = nsToUnits (d * dayNs + ns) pr := by
      rw [stampUnits, h1]
      simp only [Res.bind, (readStamp_iff s (d * dayNs + ns)).2
        ⟨Date.ofDays d, ns, (Date.ofDays_valid_iff d).2 hd, ht, by rw [Date.toDays_ofDays]⟩]
    have hmin : minDays = -96465292 := by decide +kernel
    have hmax : maxDays = 95026236 := by decide +kernel
    have hb : -(2 ^ 62 * 1000000) ≤ d * 86400000000000 + (ns : Int) ∧ d * 86400000000000 + (ns : Int) < 2 ^ 62 * 1000000 := by
      obtain ⟨sep, a, g, b, -, -, -, hb, -⟩ := ht
      have := timeText_range hb
      omega
    obtain ⟨k1, k2⟩ := nsToUnits_errors hp hb
    refine ⟨fun hv => ?_, fun hv hx => ?_, fun hv hx => ?_⟩
    · rw [he]; exact k1 hv
    · rw [he]; exact k2 hv hx
    · rw [he]; exact (nsToUnits_iff hp (by unfold dayNs; omega)).2 ⟨hv, hx⟩

/-- C72: a text that is not the spelling of a date is refused, and nothing else is. -/
theorem C72_date_refused (s : Str) (n : Nul) (var : Nat)
    (h : ¬ ∃ d sep, (minDays ≤ d ∧ d ≤ maxDays) ∧ (sep = '-' ∨ sep = '/') ∧ DateText sep s (Date.ofDays d)) :
    toStringLit s (some (.simple .date n var)) = .err (.invalid cs!"date_parse_format") := by
  simp only [toStringLit]
  cases hr : readDate s with
  | none => rfl
  | some d =>
    obtain ⟨h1, sep, h2, h3⟩ := (readDate_iff s d).1 hr
    exact absurd ⟨d, sep, h1, h2, h3⟩ h

example : timeUnits cs!"1:2:3.0005" 3 = .err (.invalid cs!"precision_literal_fractional_truncated") ∧
    stampUnits cs!"2300-01-01T00:00:00" 9 = .err (.invalid cs!"precision_literal_out_of_range") ∧
    timeUnits cs!"24:00:00" 0 = .err (.invalid cs!"time_parse_format") := by decide +kernel

/-- C72: white space inside is accepted, a tilde is not, and after a day of two digits nothing needs to
stand before the hour: `2020-01-112:00:00` is two o'clock on the eleventh. -/
theorem C72_lenient :
    readDate cs!"  2020-  1-1" = some 18262 ∧ readDate cs!"2020/1/1" = some 18262 ∧ readDate cs!"2020/1-1" = none ∧
    readDate cs!"2020~1~1" = none ∧ readDate cs!"2020-1-1 " = none ∧
    readDate cs!"+0002020-1-1" = some 18262 ∧ readDate cs!"02020-1-1" = none ∧
    stampUnits cs!"2020-01-112:00:00" 0 = stampUnits cs!"2020-01-11T02:00:00" 0 := by decide +kernel

example : DateText '/' cs!"2020/1/ 02" ⟨2020, 1, 2⟩ :=
  ⟨cs!"2020", cs!"1", cs!" 02", 1, 2, rfl,
    ⟨[], cs!"2020", 2020, by simp [Blank], ⟨by simp, by decide, by decide⟩, .inl ⟨rfl, by decide, rfl⟩⟩,
    ⟨[], cs!"1", rfl, by simp [Blank], ⟨by simp, by decide, by decide⟩, by decide⟩,
    ⟨cs!" ", cs!"02", rfl, by unfold Blank; decide, ⟨by simp, by decide, by decide⟩, by decide⟩, rfl, rfl⟩

example : TimeText cs!"23:59:60.5" 86400500000000 :=
  (readTime_iff cs!"23:59:60.5" 86400500000000).1 (by decide +kernel) |>.elim fun ns h => by
    obtain rfl : ns = 86400500000000 := by omega
    exact h.1

example : stampUnits cs!"2020-01-01 00:00:00.25" 3 = .ok 1577836800250 := by decide +kernel

end Verif
