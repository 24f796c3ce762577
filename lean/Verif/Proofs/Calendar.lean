import Verif.Model.Calendar
/-! # The calendar arithmetic -/

namespace Verif

set_option autoImplicit false

/-- A year counted from March, split into 400-, 100-, 4- and 1-year parts. -/
structure Split where
  era : Int
  c : Int
  q : Int
  yy : Int
  doy : Int

/-- The parts are in range; only the last year of a 4-year group has a day 365, unless the group
ends a century that is not the last of its era. -/
def Split.Ok (p : Split) : Prop :=
  0 ≤ p.c ∧ p.c ≤ 3 ∧ 0 ≤ p.q ∧ p.q ≤ 24 ∧ 0 ≤ p.yy ∧ p.yy ≤ 3 ∧ 0 ≤ p.doy ∧ p.doy ≤ 365 ∧
  (p.doy = 365 → p.yy = 3 ∧ (p.q = 24 → p.c = 3))

/-- Day number of a split. -/
def Split.days (p : Split) : Int :=
  p.era * 146097 + p.c * 36524 + p.q * 1461 + p.yy * 365 + p.doy - 719468

/-- The split of a day number. -/
def Split.of (z : Int) : Split :=
  let z := z + 719468
  let era := z / 146097
  let doe := z - era * 146097
  let c := if doe / 36524 < 3 then doe / 36524 else 3
  let r := doe - c * 36524
  let q := r / 1461
  let r := r - q * 1461
  let yy := if r / 365 < 3 then r / 365 else 3
  ⟨era, c, q, yy, r - yy * 365⟩

theorem Split.of_ok (z : Int) : (Split.of z).Ok := by
  unfold Split.of Split.Ok
  simp only
  generalize z + 719468 = w
  have h1 : 0 ≤ w - w / 146097 * 146097 ∧ w - w / 146097 * 146097 < 146097 := by omega
  generalize w - w / 146097 * 146097 = doe at h1
  obtain ⟨c, hc⟩ : ∃ c, c = if doe / 36524 < 3 then doe / 36524 else 3 := ⟨_, rfl⟩
  rw [← hc]
  have h2 : 0 ≤ c ∧ c ≤ 3 ∧ 0 ≤ doe - c * 36524 ∧ doe - c * 36524 ≤ 36524 ∧
      (doe - c * 36524 = 36524 → c = 3) := by
    split at hc <;> omega
  generalize doe - c * 36524 = r at h2
  have h3 : 0 ≤ r / 1461 ∧ r / 1461 ≤ 24 ∧ 0 ≤ r - r / 1461 * 1461 ∧ r - r / 1461 * 1461 < 1461 ∧
      (r / 1461 = 24 → r - r / 1461 * 1461 = 1460 → c = 3) := by omega
  generalize r / 1461 = q at h3
  generalize r - q * 1461 = r2 at h3
  obtain ⟨y, hy⟩ : ∃ y, y = if r2 / 365 < 3 then r2 / 365 else 3 := ⟨_, rfl⟩
  rw [← hy]
  split at hy <;> omega

theorem Split.days_of (z : Int) : (Split.of z).days = z := by
  simp only [Split.of, Split.days]
  omega

theorem Split.of_days (p : Split) (h : p.Ok) : Split.of p.days = p := by
  obtain ⟨era, c, q, yy, doy⟩ := p
  simp only [Split.Ok] at h
  obtain ⟨h1, h2, h3, h4, h5, h6, h7, h8, h9⟩ := h
  unfold Split.of Split.days
  simp only
  have e0 : era * 146097 + c * 36524 + q * 1461 + yy * 365 + doy - 719468 + 719468 =
      era * 146097 + c * 36524 + q * 1461 + yy * 365 + doy := by omega
  rw [e0]
  have hr2 : 0 ≤ yy * 365 + doy ∧ yy * 365 + doy ≤ 1460 := by omega
  have hr2' : yy * 365 + doy = 1460 → q = 24 → c = 3 := by omega
  have hr : 0 ≤ q * 1461 + yy * 365 + doy ∧ q * 1461 + yy * 365 + doy ≤ 36524 ∧
      (q * 1461 + yy * 365 + doy = 36524 → c = 3) := by omega
  have e1 : (era * 146097 + c * 36524 + q * 1461 + yy * 365 + doy) / 146097 = era := by omega
  rw [e1]
  have e2 : era * 146097 + c * 36524 + q * 1461 + yy * 365 + doy - era * 146097 =
      c * 36524 + (q * 1461 + yy * 365 + doy) := by omega
  rw [e2]
  have e3 : (if (c * 36524 + (q * 1461 + yy * 365 + doy)) / 36524 < 3
      then (c * 36524 + (q * 1461 + yy * 365 + doy)) / 36524 else 3) = c := by
    generalize q * 1461 + yy * 365 + doy = r at *
    split <;> omega
  rw [e3]
  have e4 : c * 36524 + (q * 1461 + yy * 365 + doy) - c * 36524 = q * 1461 + (yy * 365 + doy) := by omega
  rw [e4]
  have e5 : (q * 1461 + (yy * 365 + doy)) / 1461 = q := by omega
  rw [e5]
  have e6 : q * 1461 + (yy * 365 + doy) - q * 1461 = yy * 365 + doy := by omega
  rw [e6]
  have e7 : (if (yy * 365 + doy) / 365 < 3 then (yy * 365 + doy) / 365 else 3) = yy := by
    split <;> omega
  rw [e7]
  simp only [Split.mk.injEq, true_and]
  omega

/-- The March-based month and the day from the day of the year, as a calendar date. -/
def Split.date (p : Split) : Date :=
  let mp := (5 * p.doy + 2) / 153
  let m := if mp < 10 then mp + 3 else mp - 9
  let y := 100 * p.c + 4 * p.q + p.yy + p.era * 400
  ⟨if m ≤ 2 then y + 1 else y, m, p.doy - (153 * mp + 2) / 5 + 1⟩

theorem Date.ofDays_eq (z : Int) : Date.ofDays z = (Split.of z).date := rfl

/-- A date split. -/
def Date.split (t : Date) : Split :=
  let y := if t.m ≤ 2 then t.y - 1 else t.y
  let mp := if t.m > 2 then t.m - 3 else t.m + 9
  ⟨y / 400, y % 400 / 100, y % 100 / 4, y % 4, (153 * mp + 2) / 5 + t.d - 1⟩

theorem Date.toDays_eq (t : Date) : t.toDays = t.split.days := by
  unfold Date.toDays Date.split Split.days
  simp only
  generalize (if t.m ≤ 2 then t.y - 1 else t.y) = y
  generalize (153 * (if t.m > 2 then t.m - 3 else t.m + 9) + 2) / 5 = k
  have : (y - y / 400 * 400) * 365 + (y - y / 400 * 400) / 4 - (y - y / 400 * 400) / 100 =
      y % 400 / 100 * 36524 + y % 100 / 4 * 1461 + y % 4 * 365 := by omega
  omega

theorem isLeap_iff (y : Int) : isLeap y = true ↔ y % 4 = 0 ∧ (y % 100 ≠ 0 ∨ y % 400 = 0) := by
  simp [isLeap]

/-- A date that exists, in any year. -/
def Date.Real (t : Date) : Prop := 1 ≤ t.m ∧ t.m ≤ 12 ∧ 1 ≤ t.d ∧ t.d ≤ daysInMonth t.y t.m

theorem daysInMonth_le (y m : Int) : daysInMonth y m ≤ 31 := by
  unfold daysInMonth; repeat' split
  all_goals omega

theorem Date.month_cases {m : Int} (h1 : 1 ≤ m) (h2 : m ≤ 12) :
    m = 1 ∨ m = 2 ∨ m = 3 ∨ m = 4 ∨ m = 5 ∨ m = 6 ∨ m = 7 ∨ m = 8 ∨ m = 9 ∨ m = 10 ∨ m = 11 ∨ m = 12 := by
  omega

theorem Date.split_ok (t : Date) (h : t.Real) : t.split.Ok := by
  obtain ⟨y, m, d⟩ := t
  obtain ⟨h1, h2, h3, h4⟩ := h
  simp only at h1 h2 h3 h4
  have hl := isLeap_iff y
  unfold Date.split Split.Ok
  simp only
  rcases Date.month_cases h1 h2 with rfl | rfl | rfl | rfl | rfl | rfl | rfl | rfl | rfl | rfl | rfl | rfl <;>
    simp [daysInMonth] at h4 ⊢ <;> (try omega)
  split at h4
  · rename_i hy
    rw [hy] at hl; simp at hl
    omega
  · omega

theorem Date.date_split (t : Date) (h : t.Real) : t.split.date = t := by
  obtain ⟨y, m, d⟩ := t
  obtain ⟨h1, h2, h3, h4⟩ := h
  simp only at h1 h2 h3 h4
  have hm : (5 * ((153 * (if m > 2 then m - 3 else m + 9) + 2) / 5 + d - 1) + 2) / 153 =
      if m > 2 then m - 3 else m + 9 := by
    rcases Date.month_cases h1 h2 with rfl | rfl | rfl | rfl | rfl | rfl | rfl | rfl | rfl | rfl | rfl | rfl <;>
      simp [daysInMonth] at h4 ⊢
    case inr.inl =>
      have h4 : d ≤ 29 := by split at h4 <;> omega
      omega
    all_goals omega
  unfold Date.split Split.date
  simp only
  rw [hm]
  have e1 : (if (if m > 2 then m - 3 else m + 9) < 10 then (if m > 2 then m - 3 else m + 9) + 3
      else (if m > 2 then m - 3 else m + 9) - 9) = m := by
    repeat' split
    all_goals omega
  rw [e1]
  simp only [Date.mk.injEq, true_and]
  refine ⟨?_, ?_⟩
  · split <;> omega
  · generalize (153 * (if m > 2 then m - 3 else m + 9) + 2) / 5 = k
    omega

theorem Split.real_date (p : Split) (h : p.Ok) : p.date.Real := by
  obtain ⟨era, c, q, yy, doy⟩ := p
  simp only [Split.Ok] at h
  obtain ⟨h1, h2, h3, h4, h5, h6, h7, h8, h9⟩ := h
  unfold Split.date Date.Real
  simp only
  have hl := isLeap_iff (100 * c + 4 * q + yy + era * 400 + 1)
  have hmp : 0 ≤ (5 * doy + 2) / 153 ∧ (5 * doy + 2) / 153 ≤ 11 := by omega
  have hc : (5 * doy + 2) / 153 = 0 ∨ (5 * doy + 2) / 153 = 1 ∨ (5 * doy + 2) / 153 = 2 ∨
      (5 * doy + 2) / 153 = 3 ∨ (5 * doy + 2) / 153 = 4 ∨ (5 * doy + 2) / 153 = 5 ∨
      (5 * doy + 2) / 153 = 6 ∨ (5 * doy + 2) / 153 = 7 ∨ (5 * doy + 2) / 153 = 8 ∨
      (5 * doy + 2) / 153 = 9 ∨ (5 * doy + 2) / 153 = 10 ∨ (5 * doy + 2) / 153 = 11 := by omega
  rcases hc with hk | hk | hk | hk | hk | hk | hk | hk | hk | hk | hk | hk <;>
    rw [hk] <;> simp [daysInMonth] <;> (try omega)
  split
  · omega
  · rename_i hy
    simp only [Bool.not_eq_true] at hy
    rw [hy] at hl; simp at hl
    omega

theorem Split.split_date (p : Split) (h : p.Ok) : p.date.split = p := by
  obtain ⟨era, c, q, yy, doy⟩ := p
  simp only [Split.Ok] at h
  obtain ⟨h1, h2, h3, h4, h5, h6, h7, h8, h9⟩ := h
  unfold Split.date Date.split
  simp only
  have hmp : 0 ≤ (5 * doy + 2) / 153 ∧ (5 * doy + 2) / 153 ≤ 11 := by omega
  generalize hmd : (5 * doy + 2) / 153 = mp at hmp
  have e1 : (if (if mp < 10 then mp + 3 else mp - 9) > 2 then (if mp < 10 then mp + 3 else mp - 9) - 3
      else (if mp < 10 then mp + 3 else mp - 9) + 9) = mp := by
    repeat' split
    all_goals omega
  rw [e1]
  generalize (if mp < 10 then mp + 3 else mp - 9) = m
  have e2 : (if m ≤ 2 then (if m ≤ 2 then 100 * c + 4 * q + yy + era * 400 + 1
        else 100 * c + 4 * q + yy + era * 400) - 1 else
      (if m ≤ 2 then 100 * c + 4 * q + yy + era * 400 + 1 else 100 * c + 4 * q + yy + era * 400)) =
      100 * c + 4 * q + yy + era * 400 := by
    split <;> omega
  rw [e2]
  simp only [Split.mk.injEq]
  omega

/-- A day number is recovered from its date. -/
theorem Date.toDays_ofDays (z : Int) : (Date.ofDays z).toDays = z := by
  rw [Date.ofDays_eq, Date.toDays_eq, Split.split_date _ (Split.of_ok z), Split.days_of]

/-- An existing date is recovered from its day number. -/
theorem Date.ofDays_toDays (t : Date) (h : t.Real) : Date.ofDays t.toDays = t := by
  rw [Date.ofDays_eq, Date.toDays_eq, Split.of_days _ (Date.split_ok t h), Date.date_split t h]

theorem Date.ofDays_real (z : Int) : (Date.ofDays z).Real := by
  rw [Date.ofDays_eq]; exact Split.real_date _ (Split.of_ok z)

/-- The day after a date, by the rules of the calendar. -/
def Date.next (t : Date) : Date :=
  if t.d < daysInMonth t.y t.m then ⟨t.y, t.m, t.d + 1⟩
  else if t.m < 12 then ⟨t.y, t.m + 1, 1⟩ else ⟨t.y + 1, 1, 1⟩

theorem Date.toDays_next (t : Date) (h : t.Real) : t.next.toDays = t.toDays + 1 := by
  obtain ⟨y, m, d⟩ := t
  obtain ⟨h1, h2, h3, h4⟩ := h
  simp only at h1 h2 h3 h4
  have hl := isLeap_iff y
  unfold Date.next
  simp only
  split
  · simp only [Date.toDays]; omega
  · rename_i hd
    have hd : d = daysInMonth y m := by omega
    subst hd
    clear h3 h4
    rcases Date.month_cases h1 h2 with rfl | rfl | rfl | rfl | rfl | rfl | rfl | rfl | rfl | rfl | rfl | rfl <;>
      simp [daysInMonth, Date.toDays] <;> (try omega)
    split
    · rename_i hy
      rw [hy] at hl; simp at hl; omega
    · rename_i hy
      simp only [Bool.not_eq_true] at hy
      rw [hy] at hl; simp at hl; omega

theorem Date.next_real (t : Date) (h : t.Real) : t.next.Real := by
  obtain ⟨y, m, d⟩ := t
  obtain ⟨h1, h2, h3, h4⟩ := h
  simp only at h1 h2 h3 h4
  have hpos : ∀ y m, 1 ≤ daysInMonth y m := by
    intro y m; unfold daysInMonth; repeat' split
    all_goals omega
  unfold Date.next
  simp only
  split
  · exact ⟨h1, h2, by show 1 ≤ d + 1; omega, by show d + 1 ≤ daysInMonth y m; omega⟩
  · split
    · exact ⟨by show 1 ≤ m + 1; omega, by show m + 1 ≤ 12; omega, by show (1:Int) ≤ 1; omega, hpos _ _⟩
    · exact ⟨by show (1:Int) ≤ 1; omega, by show (1:Int) ≤ 12; omega, by show (1:Int) ≤ 1; omega, hpos _ _⟩

/-- Day numbers follow the calendar: 0 is 1970-01-01 and each number is one day later. -/
theorem Date.ofDays_zero : Date.ofDays 0 = ⟨1970, 1, 1⟩ := by decide

theorem Date.ofDays_succ (z : Int) : Date.ofDays (z + 1) = (Date.ofDays z).next := by
  have hr := Date.ofDays_real z
  have h := Date.toDays_next _ hr
  rw [Date.toDays_ofDays] at h
  rw [← h, Date.ofDays_toDays _ (Date.next_real _ hr)]

/-- The first and last day number of a year bound the dates of that year. -/
theorem Date.toDays_year_lt (t u : Date) (ht : t.Real) (hu : u.Real) (h : t.y < u.y) :
    t.toDays < u.toDays := by
  have key : ∀ t : Date, t.Real → Date.toDays ⟨t.y, 1, 1⟩ ≤ t.toDays ∧ t.toDays < Date.toDays ⟨t.y + 1, 1, 1⟩ := by
    rintro ⟨y, m, d⟩ ⟨h1, h2, h3, h4⟩
    simp only at h1 h2 h3 h4
    have hl := isLeap_iff y
    rcases Date.month_cases h1 h2 with rfl | rfl | rfl | rfl | rfl | rfl | rfl | rfl | rfl | rfl | rfl | rfl <;>
      simp [daysInMonth, Date.toDays] at h4 ⊢ <;> omega
  have mono : ∀ y k : Int, 0 ≤ k → Date.toDays ⟨y, 1, 1⟩ ≤ Date.toDays ⟨y + k, 1, 1⟩ := by
    intro y k hk
    simp [Date.toDays]
    omega
  have h1 := (key t ht).2
  have h2 := (key u hu).1
  have h3 := mono (t.y + 1) (u.y - t.y - 1) (by omega)
  have e : t.y + 1 + (u.y - t.y - 1) = u.y := by omega
  rw [e] at h3
  omega

/-- A day number in chrono's range is a valid date, and only those are. -/
theorem Date.ofDays_valid_iff (z : Int) : (Date.ofDays z).Valid ↔ minDays ≤ z ∧ z ≤ maxDays := by
  have hr := Date.ofDays_real z
  have hmin : minDays = -96465292 := by decide
  have hmax : maxDays = 95026236 := by decide
  have hz := Date.toDays_ofDays z
  constructor
  · rintro ⟨h1, h2, _⟩
    have a : Date.Real ⟨minYear - 1, 12, 31⟩ := by unfold Date.Real; decide
    have b : Date.Real ⟨maxYear + 1, 1, 1⟩ := by unfold Date.Real; decide
    have h3 := Date.toDays_year_lt _ _ a hr (by show minYear - 1 < _; omega)
    have h4 := Date.toDays_year_lt _ _ hr b (by show _ < maxYear + 1; omega)
    have e1 : Date.toDays ⟨minYear - 1, 12, 31⟩ = minDays - 1 := by decide
    have e2 : Date.toDays ⟨maxYear + 1, 1, 1⟩ = maxDays + 1 := by decide
    omega
  · rintro ⟨h1, h2⟩
    refine ⟨?_, ?_, hr⟩
    · refine Int.not_lt.1 fun h => ?_
      have a : Date.Real ⟨minYear, 1, 1⟩ := by unfold Date.Real; decide
      have := Date.toDays_year_lt _ _ hr a h
      unfold minDays at h1; omega
    · refine Int.not_lt.1 fun h => ?_
      have a : Date.Real ⟨maxYear, 12, 31⟩ := by unfold Date.Real; decide
      have := Date.toDays_year_lt _ _ a hr h
      unfold maxDays at h2; omega

end Verif
