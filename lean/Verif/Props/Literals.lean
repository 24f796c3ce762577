import Verif.Proofs.LiteralsImage
/-!
# Properties C13 to C19 and the literal part of C38
-/

namespace Verif
open StoreSpec TextSpec

set_option autoImplicit false

/-- Tables for the examples: printable are the ASCII characters. -/
def asciiTab : UTab := ⟨fun c => decide (32 ≤ c.toNat ∧ c.toNat ≤ 126), fun _ => false⟩

/-- Floating-point operations for the examples: number `n` is written `n.5`. -/
def halfTab : FTab :=
  ⟨fun n => dec n ++ cs!".5", fun n => dec n ++ cs!".5", fun s => decVal (s.takeWhile isDigit), id⟩

/-- The hypothesis on the tables is satisfiable. -/
theorem asciiTab_printable : @AsciiPrintable asciiTab := by
  intro c h1 h2
  exact ⟨decide_eq_true ⟨h1, h2⟩, rfl⟩

/-! ## C13 -/

/-- The four integer types, with the width each stands for. -/
def intTy : IntW → SimpleKind
  | .i8 => .i8
  | .i16 => .i16
  | .i32 => .i32
  | .i64 => .i64

/-- C13, what is true of it: a number that fits 32 bits, or 64 bits when the type is `i64`, is read
exactly. -/
theorem C13_int_literal_exact_partial (w : IntW) (n : Nul) (i : IntTok)
    (h : if w = .i64 then InI64 i.toInt else InI32 i.toInt) :
    toIntLit i (some (.simple (intTy w) n 0)) = .ok ⟨some (.int w i.toInt), n.asNullable, 0⟩ := by
  have h64 : InI64 i.toInt := by
    split at h
    · exact h
    · exact h.i64
  have e : i.toI64 = some i.toInt := by
    unfold IntTok.toI64; rw [if_pos ⟨h64.1, h64.2⟩]
  cases w <;> simp only [toIntLit, e, intTy]
  · rw [wrap32_id (by simpa using h)]
  · rw [wrap32_id (by simpa using h)]
  · rw [wrap32_id (by simpa using h)]

/-- C13: a number without a type is read exactly, as `i64`. -/
theorem C13_int_literal_untyped (i : IntTok) (h : InI64 i.toInt) :
    toIntLit i none = .ok ⟨some (.int .i64 i.toInt), false, 0⟩ := by
  have e : i.toI64 = some i.toInt := by
    unfold IntTok.toI64; rw [if_pos ⟨h.1, h.2⟩]
  simp only [toIntLit, e]

/-- C13: the exact extent of the failure.  A number is read as a different one exactly when its type
is one of the three narrow ones and it fits 64 bits but not 32. -/
theorem C13_int_literal_changed_iff (w : IntW) (n : Nul) (i : IntTok) :
    (∃ j, toIntLit i (some (.simple (intTy w) n 0)) = .ok ⟨some (.int w j), n.asNullable, 0⟩ ∧ j ≠ i.toInt) ↔
      w ≠ .i64 ∧ InI64 i.toInt ∧ ¬ InI32 i.toInt := by
  constructor
  · intro ⟨j, h, hne⟩
    have h64 : InI64 i.toInt := by
      unfold toIntLit at h
      split at h
      · cases h
      · rename_i k hk
        have := toI64_range hk
        rw [this.2]; exact this.1
    by_cases hw : w = .i64
    · subst hw
      rw [C13_int_literal_exact_partial .i64 n i (by simpa using h64)] at h
      cases h
      exact absurd rfl hne
    · refine ⟨hw, h64, fun h32 => ?_⟩
      rw [C13_int_literal_exact_partial w n i (by simp [hw, h32])] at h
      cases h
      exact absurd rfl hne
  · intro ⟨hw, h64, h32⟩
    have e : i.toI64 = some i.toInt := by
      unfold IntTok.toI64; rw [if_pos ⟨h64.1, h64.2⟩]
    have hne : wrap32 i.toInt ≠ i.toInt := fun hc => h32 (hc ▸ wrap32_range _)
    cases w
    · exact ⟨_, by simp only [toIntLit, e, intTy], hne⟩
    · exact ⟨_, by simp only [toIntLit, e, intTy], hne⟩
    · exact ⟨_, by simp only [toIntLit, e, intTy], hne⟩
    · exact absurd rfl hw

/-- C13 fails: `5000000000:i32` is accepted as 705032704. -/
theorem C13_int_literal_wraps [FTab] :
    ∃ s, pLiteral cs!"5000000000:i32" = some (s, []) ∧
      convLit (run []) s = .ok ⟨some (.int .i32 705032704), false, 0⟩ := by
  refine ⟨⟨.int ⟨false, 5000000000⟩, some (.simple cs!"i32" .required)⟩, by rfl, ?_⟩
  have e : IntTok.toI64 ⟨false, 5000000000⟩ = some 5000000000 := by decide +kernel
  have e' : wrap32 5000000000 = 705032704 := by decide +kernel
  show toIntLit ⟨false, 5000000000⟩ (some (.simple .i32 .required 0)) = _
  simp only [toIntLit, e, e']
  rfl

/-- C13 fails: `300:i8` is accepted as an `i8` literal holding 300. -/
theorem C13_narrow_range_unchecked [FTab] :
    ∃ s, pLiteral cs!"300:i8" = some (s, []) ∧
      convLit (run []) s = .ok ⟨some (.int .i8 300), false, 0⟩ := by
  refine ⟨⟨.int ⟨false, 300⟩, some (.simple cs!"i8" .required)⟩, by rfl, ?_⟩
  have e : IntTok.toI64 ⟨false, 300⟩ = some 300 := by decide +kernel
  have e' : wrap32 300 = 300 := by decide +kernel
  show toIntLit ⟨false, 300⟩ (some (.simple .i8 .required 0)) = _
  simp only [toIntLit, e, e']
  rfl

/-- C13: a number outside 64 bits is neither read nor rejected; the parser panics, whatever type is
ascribed. -/
theorem C13_overflow_panics (i : IntTok) (h : ¬ InI64 i.toInt) (t : Option Ty) : toIntLit i t = .panic := by
  have e : i.toI64 = none := by
    unfold IntTok.toI64; rw [if_neg (fun hc => h ⟨hc.1, hc.2⟩)]
  simp only [toIntLit, e]

example [FTab] : ∃ s, pLiteral cs!"9223372036854775808" = some (s, []) ∧ convLit (run []) s = .panic := by
  refine ⟨⟨.int ⟨false, 9223372036854775808⟩, none⟩, by rfl, ?_⟩
  exact C13_overflow_panics ⟨false, 9223372036854775808⟩ (by unfold InI64; decide +kernel) none
example : InI32 (IntTok.toInt ⟨true, 2147483648⟩) := by unfold InI32; decide

/-! ## C14 -/

/-- C14 (for the literals that have a faithful text).  Whatever declarations are in force and
whether literal types are shown always or when required, the text of a literal is read back as the
same literal, with its type and nullability, in any context that does not continue the literal. -/
theorem C14_literal_round_trip_partial [UTab] [FTab] (hA : AsciiPrintable) (h : List Op) (o : Opts)
    (ho : o.anchors ≠ .never) (hl : o.litTypes ≠ .never) (l : Literal) (hs : Survives (run h) l) (rest : Str)
    (hr : NextNot litContinues rest) :
    ∃ s, pLiteral ((textLit (run h) o l).text ++ rest) = some (s, rest) ∧ convLit (run h) s = .ok l := by
  obtain ⟨s, h1, h2⟩ := rt_lit hA (Store.ordered_run h) o ho hl l hs
  exact ⟨s, h2 rest hr, h1⟩

/-- C14: every literal the parser builds is of a kind described by `LitImage`.  In particular no
string literal is nullable, no null literal is nullable, and no literal has a type variation. -/
theorem C14_parser_builds (h : List Op) [FTab] (s : SLit) (l : Literal) (hc : convLit (run h) s = .ok l) :
    LitImage (run h) l := convLit_image (Store.ordered_run h) s l hc

/-- C14 fails for nullable strings: whatever is written, no nullable string literal is read. -/
theorem C14_nullable_string_lost (h : List Op) [FTab] (s : SLit) (x : Str) (v : Nat) :
    convLit (run h) s ≠ .ok ⟨some (.string x), true, v⟩ := by
  intro hc
  obtain ⟨_, w, hw, hi⟩ := C14_parser_builds h s _ hc
  cases hw
  simp at hi

/-- C14 fails: the nullable string `'x'` prints as `'x':string?` without error and is read as a
required string. -/
theorem C14_nullable_string_witness [FTab] :
    letI := asciiTab
    textLit (run []) .default ⟨some (.string cs!"x"), true, 0⟩ = .s cs!"'x':string?" ∧
    ∃ s, pLiteral cs!"'x':string?" = some (s, []) ∧
      convLit (run []) s = .ok ⟨some (.string cs!"x"), false, 0⟩ :=
  ⟨rfl, _, rfl, rfl⟩

/-- C14.  A null is written with its type whatever the options and the nullability flag say. -/
theorem C14_null_text [UTab] [FTab] (st : Store) (o : Opts) (t : Ty) (nullable : Bool) (v : Nat) :
    (textLit st o ⟨some (.null t), nullable, v⟩).text = cs!"null:" ++ (textTy st o t).text := by
  simp [textLit, textValue]

/-- C14 fails for nullable nulls: no reader whatsoever could restore the flag of the literal itself. -/
theorem C14_null_flag_lost [UTab] [FTab] (h : List Op) (o : Opts) (t : Ty) (v : Nat) (read : Str → Literal) :
    ¬ ∀ n, read (textLit (run h) o ⟨some (.null t), n, v⟩).text = ⟨some (.null t), n, v⟩ := by
  intro hc
  have h1 := hc true
  have h2 := hc false
  rw [show textLit (run h) o ⟨some (.null t), true, v⟩ = textLit (run h) o ⟨some (.null t), false, v⟩ from rfl,
    h2] at h1
  simp at h1

/-- C14 fails for type variations: no reader whatsoever could restore them. -/
theorem C14_variation_lost [UTab] [FTab] (h : List Op) (o : Opts) (l : Option Lit) (n : Bool) (read : Str → Literal) :
    ¬ ∀ v, read (textLit (run h) o ⟨l, n, v⟩).text = ⟨l, n, v⟩ := by
  intro hc
  have h1 := hc 0
  have h2 := hc 1
  rw [show textLit (run h) o ⟨l, n, 0⟩ = textLit (run h) o ⟨l, n, 1⟩ from rfl, h2] at h1
  simp at h1

/-- C14: a string ascribed any type that is not read from a string, for instance `'x':i64`, is taken
for a string literal without complaint. -/
theorem C14_string_ascription_ignored (x : Str) (k : SimpleKind) (n : Nul) (v : Nat)
    (hk : k ≠ .date ∧ k ≠ .time ∧ k ≠ .timestamp) :
    toStringLit x (some (.simple k n v)) = .ok ⟨some (.string x), false, 0⟩ := by
  cases k <;> simp_all [toStringLit]

/-- C14 fails for floating-point numbers without a fraction.  If the standard library prints one as
`2`, the text is read as the integer 2. -/
theorem C14_integral_float_misread [UTab] [FTab] (f : Nat) (h : FTab.show64 f = cs!"2") :
    textLit (run []) .default ⟨some (.fp64 f), false, 0⟩ = .s cs!"2" ∧
    ∃ s, pLiteral cs!"2" = some (s, []) ∧ convLit (run []) s = .ok ⟨some (.int .i64 2), false, 0⟩ := by
  refine ⟨?_, ⟨.int ⟨false, 2⟩, none⟩, rfl,
    C13_int_literal_untyped ⟨false, 2⟩ (by unfold InI64; decide +kernel)⟩
  simp [textLit, textValue, h, showSuffix, Opts.default, Lit.isDefault, Out.s]
  rfl

/-- C14 fails for binary values: they print as `{binary}` without any error, which is no literal. -/
theorem C14_binary_unreadable [UTab] [FTab] (bs : List Nat) :
    textLit (run []) .default ⟨some (.binary bs), false, 0⟩ = .s cs!"{binary}" ∧
    pLiteral cs!"{binary}" = none := ⟨rfl, rfl⟩

/-- Literals that meet the hypotheses of C14. -/
example : @Survives asciiTab halfTab (run []) ⟨some (.int .i16 (-7)), true, 0⟩ :=
  ⟨rfl, _, rfl, by simp [Spelled, InI32]⟩
example : @Survives asciiTab halfTab (run []) ⟨some (.fp64 12), false, 0⟩ :=
  ⟨rfl, _, rfl, ⟨false, cs!"12", cs!"5", by decide, by decide, by decide, by decide, by decide +kernel⟩,
    by decide +kernel⟩
example : @Survives asciiTab halfTab (run []) ⟨some (.prec .timestampTz 9 (-1)), true, 0⟩ :=
  ⟨rfl, _, rfl, by
    simp only [Spelled, InI64, InCalendar]
    decide⟩
example : letI := asciiTab; letI := halfTab
    textLit (run []) .default ⟨some (.prec .timestampTz 9 (-1)), true, 0⟩ =
      .s cs!"'1969-12-31T23:59:59.999999999':precisiontimestamptz?<9>" := by decide +kernel

/-! ## C15 -/

/-- C15.  An interval with a writable precision survives: any days and seconds of 32 bits and any
sub-seconds of 64 bits (none at precision 0). -/
theorem C15_interval_round_trip [UTab] [FTab] (hA : AsciiPrintable) (h : List Op) (o : Opts)
    (ho : o.anchors ≠ .never) (hl : o.litTypes ≠ .never) (days secs sub p : Int) (n : Bool)
    (hp : p ∈ [(0 : Int), 3, 6, 9, 12]) (h0 : p = 0 → sub = 0) (hd : InI32 days) (hs : InI32 secs)
    (hb : InI64 sub) (rest : Str) (hr : NextNot litContinues rest) :
    ∃ s, pLiteral ((textLit (run h) o ⟨some (.interval ⟨days, secs, sub, .precision p⟩), n, 0⟩).text ++ rest) =
        some (s, rest) ∧
      convLit (run h) s = .ok ⟨some (.interval ⟨days, secs, sub, .precision p⟩), n, 0⟩ :=
  C14_literal_round_trip_partial hA h o ho hl _
    ⟨rfl, .interval ⟨days, secs, sub, .precision p⟩, rfl, p, rfl, hp, h0, hd, hs, hb⟩ rest hr

/-- C15: the two deprecated encodings print like precision 6, so they are read back as precision 6
with the same number of microseconds. -/
theorem C15_deprecated_modes_normalise [UTab] [FTab] (st : Store) (o : Opts) (days secs sub us : Int) (n : Bool) (v : Nat) :
    textLit st o ⟨some (.interval ⟨days, secs, sub, .unset⟩), n, v⟩ =
      textLit st o ⟨some (.interval ⟨days, secs, sub, .precision 6⟩), n, v⟩ ∧
    textLit st o ⟨some (.interval ⟨days, secs, sub, .microseconds us⟩), n, v⟩ =
      textLit st o ⟨some (.interval ⟨days, secs, us, .precision 6⟩), n, v⟩ := ⟨rfl, rfl⟩

/-- C15: the terms really are the numbers. -/
example : letI := asciiTab; letI := halfTab
    textLit (run []) .default ⟨some (.interval ⟨-1, 2147483647, -5, .precision 9⟩), true, 0⟩ =
      .s cs!"'-1d 2147483647s -5ns':interval_day?<9>" := by decide +kernel

/-! ## C16 -/

/-- C16.  A string is accepted as an interval of a given precision exactly when it writes that
interval: terms in order, each at most once and at least one, single spaces, the unit of the
precision, numbers that fit; and the value is the written one. -/
theorem C16_interval_text_exact (s : Str) (p : Precision) (i : Interval) :
    readInterval s p = .ok i ↔ WritesInterval s p i :=
  ⟨readInterval_sound, readInterval_complete⟩

/-- C16: reading an interval never panics. -/
theorem C16_interval_no_panic (s : Str) (p : Precision) : readInterval s p ≠ .panic := by
  have hf : ∀ {α : Type} (f : α → Option Int) t, fitOr f t ≠ .panic := by
    intro α f t
    cases t with
    | none => simp [fitOr]
    | some t => simp only [fitOr]; split <;> simp
  unfold readInterval
  split
  · simp
  · rename_i d _
    intro h
    cases h1 : fitOr IntTok.toI32 d.days with
    | panic => exact hf _ _ h1
    | err e => simp [h1, Res.bind] at h
    | ok a =>
      cases h2 : fitOr IntTok.toI32 d.secs with
      | panic => exact hf _ _ h2
      | err e => simp [h1, h2, Res.bind] at h
      | ok b =>
        cases h3 : convSub p d.sub with
        | panic =>
          revert h3
          unfold convSub
          split
          · simp
          · split
            · simp
            · exact hf _ _
        | err e => simp [h1, h2, h3, Res.bind] at h
        | ok c => simp [h1, h2, h3, Res.bind] at h

example : WritesInterval cs!"2d -5ms" .milliseconds ⟨2, 0, -5, .precision 3⟩ := by
  refine ⟨rfl, by unfold InI32; decide, by unfold InI32; decide, by unfold InI64; decide,
    some cs!"2d", none, some cs!"-5ms", by simp, rfl,
    ⟨cs!"2", rfl, false, cs!"2", by decide, by decide, rfl, rfl⟩, rfl, ?_⟩
  rw [if_neg (by simp)]
  exact ⟨cs!"ms", rfl, cs!"-5", rfl, true, cs!"5", by decide, by decide, rfl, rfl⟩
example : readInterval cs!"5s 2d" .seconds = .err (.invalid cs!"interval_day_duration") := rfl
example : readInterval cs!"5us" .milliseconds = .err (.invalid cs!"interval_day_duration") := rfl
example : readInterval cs!"2d  5s" .seconds = .err (.invalid cs!"interval_day_duration") := rfl

/-! ## C17 -/

/-- C17: the exponent table and its inverse; every other exponent is refused. -/
theorem C17_units_inverse (i : Int) (p : Precision) : Precision.fromUnits i = some p ↔ p.units = i := by
  constructor
  · intro h; exact (fromUnits_units h).1.symm
  · rintro rfl; cases p <;> rfl

/-- C17: the suffix table and its inverse; every other suffix is refused. -/
theorem C17_suffix_inverse (s : Str) (p : Precision) :
    Precision.fromSubsecondUnit s = some p ↔ p.subsecondUnit = some s :=
  ⟨unit_of_fromSub, p.fromSub_unit s⟩

/-- C17: the exponents are exactly 0, 3, 6, 9 and 12, and seconds alone have no suffix. -/
theorem C17_supported (i : Int) :
    ((Precision.fromUnits i).isSome ↔ i ∈ [(0 : Int), 3, 6, 9, 12]) ∧
    (∀ p : Precision, p.subsecondUnit = none ↔ p.units = 0) := by
  refine ⟨?_, fun p => by cases p <;> simp [Precision.subsecondUnit, Precision.units]⟩
  constructor
  · intro h
    obtain ⟨p, hp⟩ := Option.isSome_iff_exists.1 h
    exact (fromUnits_units hp).2
  · intro h
    obtain ⟨p, hp, _⟩ := fromUnits_mem h
    simp [hp]

/-! ## C18 -/

/-- C18: a timestamp read at a precision is exact: the number of units is the instant that was
read.  The precision is one of the four supported ones. -/
theorem C18_timestamp_exact (s : Str) (p v : Int) (h : stampUnits s p = .ok v) :
    ∃ ns, readStamp s = some ns ∧ v * 1000000000 = ns * perSecond p ∧ p ∈ [(0 : Int), 3, 6, 9] := by
  unfold stampUnits at h
  obtain ⟨pr, h1, h2⟩ := Res.bind_ok_iff.1 h
  obtain ⟨rfl, hm, hp⟩ := checkPrecision_ok h1
  split at h2
  · rename_i ns hr
    exact ⟨ns, hr, (nsToUnits_ok h2).2.1, hm⟩
  · cases h2

/-- C18: the same for times of day. -/
theorem C18_time_exact (s : Str) (p v : Int) (h : timeUnits s p = .ok v) :
    ∃ ns, readTime s = some ns ∧ v * 1000000000 = ns * perSecond p ∧ p ∈ [(0 : Int), 3, 6, 9] := by
  unfold timeUnits at h
  obtain ⟨pr, h1, h2⟩ := Res.bind_ok_iff.1 h
  obtain ⟨rfl, hm, hp⟩ := checkPrecision_ok h1
  split at h2
  · rename_i ns hr
    exact ⟨ns, hr, (nsToUnits_ok h2).2.1, hm⟩
  · cases h2

/-- C18: a timestamp of a supported precision is read back unchanged, for every 64-bit count of
units that falls into the calendar. -/
theorem C18_timestamp_round_trip (v p : Int) (hp : p ∈ [(0 : Int), 3, 6, 9]) (hv : InI64 v)
    (hc : InCalendar v p) : ∃ x, timestampText v p = some x ∧ stampUnits x p = .ok v := by
  obtain ⟨x, h1, _, h2⟩ := stamp_text v p hp hv hc
  exact ⟨x, h1, h2⟩

/-- C18: a time of day of a supported precision is read back unchanged. -/
theorem C18_time_round_trip (v p : Int) (hp : p ∈ [(0 : Int), 3, 6, 9]) (h0 : 0 ≤ v)
    (hv : v < 86400 * perSecond p) : ∃ x, timeText v p = some x ∧ timeUnits x p = .ok v := by
  obtain ⟨x, h1, _, h2⟩ := time_text v p hp h0 hv
  exact ⟨x, h1, h2⟩

/-- C18: what cannot be written at a precision without loss is refused. -/
theorem C18_loss_refused (ns : Int) (p : Precision)
    (h : ∀ v, v * 1000000000 ≠ ns * perSecond p.units) : ∃ e, nsToUnits ns p = .err e := by
  cases hc : nsToUnits ns p with
  | ok v => exact absurd (nsToUnits_ok hc).2.1 (h v)
  | err e => exact ⟨e, rfl⟩
  | panic =>
    exfalso
    cases p <;> simp only [nsToUnits] at hc <;> (repeat' split at hc) <;> cases hc

/-- C18 fails beyond nanoseconds: a tenth digit is dropped by the library without notice, so two
different texts are the same instant. -/
theorem C18_tenth_digit_lost_partial :
    stampUnits cs!"2020-01-01T00:00:00.0000000019" 9 = stampUnits cs!"2020-01-01T00:00:00.000000001" 9 ∧
    stampUnits cs!"2020-01-01T00:00:00.000000001" 9 = .ok 1577836800000000001 := by decide +kernel

/-- C18: a leap second is accepted as a time of day, but the value is out of range for printing, so
the printer reports a failure for a literal the parser built. -/
theorem C18_leap_second_not_printable :
    timeUnits cs!"23:59:60" 6 = .ok 86400000000 ∧ timeText 86400000000 6 = none := by decide +kernel

example : stampUnits cs!"2024-02-29T12:34:56.789" 3 = .ok 1709210096789 := by decide +kernel
example : stampUnits cs!"2024-02-29T12:34:56.789" 0 =
    .err (.invalid cs!"precision_literal_fractional_truncated") := by decide +kernel
example : InI64 (-1) ∧ InCalendar (-1) 9 := by unfold InI64 InCalendar; decide

/-! ## C19 -/

/-- C19.  Every day count that can be printed is read back unchanged. -/
theorem C19_date_round_trip (d : Int) (x : Str) (h : dateText d = some x) : readDate x = some d := by
  unfold dateText at h
  split at h
  · rename_i hc
    cases h
    exact readDate_show d hc.1 hc.2
  · cases h

/-- C19: the printed date is the right one.  Day 0 is 1970-01-01, and the date of the next day is the
next date of the calendar, everywhere. -/
theorem C19_date_calendar : Date.ofDays 0 = ⟨1970, 1, 1⟩ ∧ ∀ d, Date.ofDays (d + 1) = (Date.ofDays d).next :=
  ⟨Date.ofDays_zero, Date.ofDays_succ⟩

/-- C19: printing panics exactly when the date leaves the years -262143 to 262142. -/
theorem C19_date_panics_iff (d : Int) :
    dateText d = none ↔ (Date.ofDays d).y < -262143 ∨ 262142 < (Date.ofDays d).y := by
  have hv := Date.ofDays_valid_iff d
  have hr := Date.ofDays_real d
  unfold dateText
  by_cases h : minDays ≤ d ∧ d ≤ maxDays
  · have := hv.2 h
    rw [if_pos h]
    simp only [reduceCtorEq, false_iff]
    have h1 : minYear ≤ (Date.ofDays d).y := this.1
    have h2 : (Date.ofDays d).y ≤ maxYear := this.2.1
    simp only [minYear, maxYear] at h1 h2
    omega
  · rw [if_neg h]
    simp only [true_iff]
    refine Classical.byContradiction fun hc => h (hv.1 ⟨?_, ?_, hr⟩)
    · simp only [minYear]; omega
    · simp only [maxYear]; omega

/-- C19: the whole literal. -/
theorem C19_date_literal_round_trip [UTab] [FTab] (hA : AsciiPrintable) (h : List Op) (o : Opts)
    (ho : o.anchors ≠ .never) (hl : o.litTypes ≠ .never) (d : Int) (n : Bool)
    (hd : minDays ≤ d ∧ d ≤ maxDays) (rest : Str) (hr : NextNot litContinues rest) :
    ∃ s, pLiteral ((textLit (run h) o ⟨some (.date d), n, 0⟩).text ++ rest) = some (s, rest) ∧
      convLit (run h) s = .ok ⟨some (.date d), n, 0⟩ :=
  C14_literal_round_trip_partial hA h o ho hl _ ⟨rfl, .date d, rfl, hd⟩ rest hr

example : dateText 19782 = some cs!"2024-02-29" := by decide +kernel
example : dateText (-96465292) = some cs!"-262143-01-01" := by decide +kernel

/-! ## C38, literals -/

/-- C38, literals.  The printer reports no error exactly for complete literals. -/
theorem C38_literal_errors_exact [UTab] [FTab] (h : List Op) (o : Opts) (l : Literal) :
    (textLit (run h) o l).errs = [] ↔ CompleteLit (run h) l := textLit_errs (Store.ordered_run h) o l

example : letI := asciiTab; letI := halfTab
    textLit (run []) .default ⟨some (.time (-1)), false, 0⟩ = ⟨cs!"!{LiteralType}:time", [cs!"LiteralType"]⟩ := by
  decide +kernel

end Verif
