import Verif.Proofs.LiteralsMore
import Verif.Proofs.TypesErr
/-!
# What the literal parser builds, and when the literal printer reports nothing
-/

namespace Verif
open StoreSpec

set_option autoImplicit false

theorem wrap32_range (i : Int) : InI32 (wrap32 i) := by
  unfold wrap32 InI32; omega

theorem toI64_range {t : IntTok} {i : Int} (h : t.toI64 = some i) : InI64 i ∧ t.toInt = i := by
  unfold IntTok.toI64 at h
  split at h
  · rename_i hc
    cases h
    exact ⟨hc, rfl⟩
  · cases h

/-- A conversion that succeeds is exact. -/
theorem nsToUnits_ok {ns v : Int} {p : Precision} (h : nsToUnits ns p = .ok v) :
    p ≠ .picoseconds ∧ v * 1000000000 = ns * perSecond p.units ∧
      (p = .microseconds ∨ p = .nanoseconds → InI64 v) := by
  have hi : ∀ v, inI64 v = true → InI64 v := by
    intro v hv; simpa only [inI64, InI64, decide_eq_true_eq] using hv
  have e3 : perSecond 3 = 1000 := by decide
  have e6 : perSecond 6 = 1000000 := by decide
  have e9 : perSecond 9 = 1000000000 := by decide
  have e0 : perSecond 0 = 1 := by decide
  cases p <;> simp only [nsToUnits] at h
  · split at h
    · cases h
    · rename_i hc
      cases h
      refine ⟨by simp, ?_, by simp⟩
      simp only [Precision.units, e0]
      omega
  · split at h
    · cases h
    · rename_i hc
      cases h
      refine ⟨by simp, ?_, by simp⟩
      simp only [Precision.units, e3]
      omega
  · split at h
    · cases h
    · rename_i hb
      split at h
      · cases h
      · rename_i hc
        cases h
        refine ⟨by simp, ?_, fun _ => hi _ (by simpa using hb)⟩
        simp only [Precision.units, e6]
        omega
  · split at h
    · rename_i hb
      cases h
      refine ⟨by simp, ?_, fun _ => hi _ hb⟩
      simp only [Precision.units, e9]
    · cases h
  · cases h

theorem checkPrecision_ok {p : Int} {pr : Precision} (h : checkPrecision p = .ok pr) :
    p = pr.units ∧ p ∈ [(0 : Int), 3, 6, 9] ∧ pr ≠ .picoseconds := by
  unfold checkPrecision Precision.fromUnits at h
  by_cases h0 : p = 0
  · subst h0; simp at h; subst h; exact ⟨rfl, by simp, by simp⟩
  by_cases h3 : p = 3
  · subst h3; simp at h; subst h; exact ⟨rfl, by simp, by simp⟩
  by_cases h6 : p = 6
  · subst h6; simp at h; subst h; exact ⟨rfl, by simp, by simp⟩
  by_cases h9 : p = 9
  · subst h9; simp at h; subst h; exact ⟨rfl, by simp, by simp⟩
  by_cases h12 : p = 12
  · subst h12; simp at h
  · simp [h0, h3, h6, h9, h12] at h

theorem decVal_foldl_lt (s : Str) (h : ∀ c ∈ s, isDigit c = true) :
    ∀ a, s.foldl (fun a c => a * 10 + (c.toNat - 48)) a < (a + 1) * 10 ^ s.length := by
  induction s with
  | nil => simp
  | cons c s ih =>
    intro a
    have hc := h c (by simp)
    simp only [isDigit, Bool.and_eq_true, decide_eq_true_eq] at hc
    have := ih (fun c hc => h c (by simp [hc])) (a * 10 + (c.toNat - 48))
    simp only [List.foldl_cons, List.length_cons, Nat.pow_succ]
    refine Nat.lt_of_lt_of_le this ?_
    rw [Nat.mul_comm (10 ^ _) 10, ← Nat.mul_assoc]
    exact Nat.mul_le_mul_right _ (by omega)

theorem decVal_lt (s : Str) (h : ∀ c ∈ s, isDigit c = true) : decVal s < 10 ^ s.length := by
  have := decVal_foldl_lt s h 0
  rwa [Nat.zero_add, Nat.one_mul] at this

theorem scanFrac_lt {s r : Str} {n : Nat} (h : scanFrac s = some (n, r)) : n < 1000000000 := by
  unfold scanFrac at h
  split at h
  · simp only at h
    split at h
    · cases h
    · cases h
      rename_i s _
      have hl : ((s.takeWhile isDigit).take 9).length ≤ 9 := by rw [List.length_take]; omega
      have := decVal_lt ((s.takeWhile isDigit).take 9) (fun c hc =>
        List.all_eq_true.1 List.all_takeWhile c (List.mem_of_mem_take hc))
      calc _ < 10 ^ ((s.takeWhile isDigit).take 9).length * 10 ^ (9 - ((s.takeWhile isDigit).take 9).length) :=
            Nat.mul_lt_mul_of_pos_right this (Nat.pow_pos (by omega))
        _ = 1000000000 := by rw [← Nat.pow_add, Nat.add_sub_cancel' hl]
  · cases h; omega

theorem scanTime_lt {f : Bool} {s r : Str} {n : Nat} (h : scanTime f s = some (n, r)) :
    n < 86401000000000 := by
  simp only [scanTime, Option.bind_eq_bind, Option.bind_eq_some_iff] at h
  obtain ⟨⟨hh, s1⟩, _, s2, _, ⟨mm, s3⟩, _, s4, _, ⟨ss, s5⟩, _, h⟩ := h
  have h : ∃ ns s6, ns < 1000000000 ∧ (if hh ≤ 23 ∧ mm ≤ 59 ∧ ss ≤ 60 then
      some (((hh * 60 + mm) * 60 + ss) * 1000000000 + ns, s6) else none) = some (n, r) := by
    cases f with
    | false => exact ⟨0, s5, by omega, h⟩
    | true =>
      simp only [if_true, Option.bind_eq_some_iff] at h
      obtain ⟨⟨ns, s6⟩, hf, h⟩ := h
      exact ⟨ns, s6, scanFrac_lt hf, h⟩
  obtain ⟨ns, s6, hn, h⟩ := h
  split at h
  · rename_i hc
    simp only [Option.some.injEq, Prod.mk.injEq] at h
    omega
  · cases h

theorem readTime_range {s : Str} {ns : Int} (h : readTime s = some ns) : 0 ≤ ns ∧ ns < 86401000000000 := by
  unfold readTime at h
  rw [Option.map_eq_some_iff] at h
  obtain ⟨n, hn, rfl⟩ := h
  have : n < 86401000000000 := by
    rw [Option.or_eq_some_iff] at hn
    rcases hn with hn | ⟨_, hn⟩ <;> exact scanTime_lt (complete_some hn)
  exact ⟨Int.natCast_nonneg _, by show (n : Int) < _; omega⟩

theorem readDate_range {s : Str} {d : Int} (h : readDate s = some d) : minDays ≤ d ∧ d ≤ maxDays := by
  unfold readDate at h
  rw [Option.map_eq_some_iff] at h
  obtain ⟨n, hn, rfl⟩ := h
  have hv : n.Valid := by
    have key : ∀ sep, complete (scanDate sep s) = some n → n.Valid := by
      intro sep h
      have h := complete_some h
      simp only [scanDate, Option.bind_eq_bind, Option.bind_eq_some_iff] at h
      obtain ⟨⟨y, s1⟩, _, s2, _, ⟨mm, s3⟩, _, s4, _, ⟨ss, s5⟩, _, h⟩ := h
      simp only at h
      split at h
      · rename_i hc; cases h; exact hc
      · cases h
    rw [Option.or_eq_some_iff] at hn
    rcases hn with hn | ⟨_, hn⟩ <;> exact key _ hn
  rw [← Date.ofDays_valid_iff, Date.ofDays_toDays _ hv.2.2]
  exact hv

theorem timeUnits_range {s : Str} {p v : Int} (h : timeUnits s p = .ok v) :
    p ∈ [(0 : Int), 3, 6, 9] ∧ 0 ≤ v ∧ v < 86401 * perSecond p := by
  unfold timeUnits at h
  obtain ⟨pr, h1, h2⟩ := Res.bind_ok_iff.1 h
  obtain ⟨rfl, hm, hp⟩ := checkPrecision_ok h1
  split at h2
  · rename_i ns hr
    have h3 := readTime_range hr
    obtain ⟨_, h4, _⟩ := nsToUnits_ok h2
    refine ⟨hm, ?_⟩
    rcases perSecond_mem hm with ⟨_, e⟩ | ⟨_, e⟩ | ⟨_, e⟩ | ⟨_, e⟩ <;> rw [e] at h4 ⊢ <;> omega
  · cases h2

theorem stampUnits_range {s : Str} {p v : Int} (h : stampUnits s p = .ok v) :
    p ∈ [(0 : Int), 3, 6, 9] ∧ (p = 6 ∨ p = 9 → InI64 v) := by
  unfold stampUnits at h
  obtain ⟨pr, h1, h2⟩ := Res.bind_ok_iff.1 h
  obtain ⟨rfl, hm, hp⟩ := checkPrecision_ok h1
  split at h2
  · refine ⟨hm, fun h6 => (nsToUnits_ok h2).2.2 ?_⟩
    revert h6
    cases pr <;> decide
  · cases h2

theorem fromUnits_units {p : Int} {pr : Precision} (h : Precision.fromUnits p = some pr) :
    p = pr.units ∧ p ∈ [(0 : Int), 3, 6, 9, 12] := by
  unfold Precision.fromUnits at h
  by_cases h0 : p = 0
  · subst h0; simp at h; subst h; exact ⟨rfl, by simp⟩
  by_cases h3 : p = 3
  · subst h3; simp at h; subst h; exact ⟨rfl, by simp⟩
  by_cases h6 : p = 6
  · subst h6; simp at h; subst h; exact ⟨rfl, by simp⟩
  by_cases h9 : p = 9
  · subst h9; simp at h; subst h; exact ⟨rfl, by simp⟩
  by_cases h12 : p = 12
  · subst h12; simp at h; subst h; exact ⟨rfl, by simp⟩
  · simp [h0, h3, h6, h9, h12] at h

/-- Whatever the parser accepts is one of these literals. -/
theorem convLit_image [FTab] {st : Store} (hst : st.Ordered) (s : SLit) (l : Literal)
    (h : convLit st s = .ok l) : LitImage st l := by
  unfold convLit at h
  obtain ⟨t, ht, h⟩ := Res.bind_ok_iff.1 h
  have hp : ∀ x, t = some x → Producible st x := by
    intro x hx
    subst hx
    cases hs : s.ty with
    | none => rw [hs] at ht; cases ht
    | some y =>
      rw [hs] at ht
      simp only at ht
      cases hy : convTy st y with
      | ok z => rw [hy] at ht; cases ht; exact convTy_image hst _ _ hy
      | err e => rw [hy] at ht; cases ht
      | panic => rw [hy] at ht; cases ht
  clear ht
  have hv : ∀ x n v, t = some (.simple x n v) → v = 0 := fun x n v e => hp _ e
  cases hval : s.value with
  | int i =>
    rw [hval] at h
    simp only [convValue, toIntLit] at h
    split at h
    · cases h
    · rename_i j hj
      have hj := toI64_range hj
      split at h <;> cases h
      · exact ⟨rfl, _, rfl, hj.1⟩
      · exact ⟨rfl, _, rfl, hj.1⟩
      · exact ⟨hv _ _ _ rfl, _, rfl, wrap32_range _⟩
      · exact ⟨hv _ _ _ rfl, _, rfl, wrap32_range _⟩
      · exact ⟨hv _ _ _ rfl, _, rfl, wrap32_range _⟩
      · exact ⟨hv _ _ _ rfl, _, rfl, hj.1⟩
  | float x =>
    rw [hval] at h
    simp only [convValue, toFloatLit] at h
    split at h <;> cases h
    · exact ⟨rfl, _, rfl, trivial⟩
    · exact ⟨rfl, _, rfl, trivial⟩
    · exact ⟨hv _ _ _ rfl, _, rfl, trivial⟩
    · exact ⟨hv _ _ _ rfl, _, rfl, trivial⟩
  | bool b =>
    rw [hval] at h
    simp only [convValue, toBoolLit] at h
    split at h <;> cases h
    · exact ⟨rfl, _, rfl, trivial⟩
    · exact ⟨rfl, _, rfl, trivial⟩
    · exact ⟨hv _ _ _ rfl, _, rfl, trivial⟩
  | null =>
    rw [hval] at h
    simp only [convValue, toNullLit] at h
    split at h <;> cases h
    exact ⟨rfl, _, rfl, hp _ rfl, rfl⟩
  | str x =>
    rw [hval] at h
    simp only [convValue, toStringLit] at h
    split at h
    · split at h
      · rename_i hd
        cases h
        exact ⟨hv _ _ _ rfl, _, rfl, readDate_range hd⟩
      · cases h
    · rename_i p n v
      split at h
      · rename_i pr hpr
        obtain ⟨i, hi, h⟩ := Res.bind_ok_iff.1 h
        cases h
        have hP := hp _ rfl
        cases p with
        | none => simp at hpr
        | some p =>
          simp only [Producible] at hP
          have hf := fromUnits_units hpr
          obtain ⟨hm, hd, hs, hb, a, b, c, _, _, _, _, hc⟩ := readInterval_sound hi
          refine ⟨hP.1, _, rfl, ⟨pr.units, hf.1 ▸ hf.2, hm, fun h0 => ?_⟩, hd, hs, hb⟩
          have : pr = .seconds := by revert h0; cases pr <;> decide
          subst this
          by_cases hcn : c = none
          · simpa [hcn] using hc
          · rw [if_neg hcn] at hc
            obtain ⟨u, hu, _⟩ := hc
            simp [Precision.subsecondUnit] at hu
      · cases h
    · obtain ⟨i, hi, h⟩ := Res.bind_ok_iff.1 h
      cases h
      exact ⟨hv _ _ _ rfl, _, rfl, (timeUnits_range hi).2⟩
    · obtain ⟨i, hi, h⟩ := Res.bind_ok_iff.1 h
      cases h
      exact ⟨hv _ _ _ rfl, _, rfl, (stampUnits_range hi).2 (.inl rfl)⟩
    · obtain ⟨i, hi, h⟩ := Res.bind_ok_iff.1 h
      cases h
      have hP := hp _ rfl
      simp only [Producible] at hP
      exact ⟨hP.1, _, rfl, timeUnits_range hi⟩
    · rename_i k p n v hk
      obtain ⟨i, hi, h⟩ := Res.bind_ok_iff.1 h
      cases h
      have hP := hp _ rfl
      simp only [Producible] at hP
      refine ⟨hP.1, _, rfl, ?_⟩
      cases k
      case time => exact absurd rfl hk
      all_goals exact stampUnits_range hi
    · cases h
      exact ⟨rfl, _, rfl, rfl⟩

/-! ## Errors of the printer -/

theorem timeText_some (v p : Int) : (timeText v p).isSome ∧ p ≠ 12 ↔
    p ∈ [(0 : Int), 3, 6, 9] ∧ 0 ≤ v ∧ v < 86400 * perSecond p := by
  constructor
  · intro ⟨h, h12⟩
    unfold timeText at h
    split at h
    · simp at h
    · rename_i h0
      split at h
      · simp at h
      · rename_i ns hns
        have hm : p ∈ [(0 : Int), 3, 6, 9] := by
          unfold unitsToNs at hns
          simp only [List.mem_cons, List.not_mem_nil, or_false]
          by_cases p = 0 <;> by_cases p = 3 <;> by_cases p = 6 <;> by_cases p = 9 <;> simp_all
        obtain ⟨ns', pr, h1, h2, h3, h4, h5⟩ := unitsToNs_mem (v := v) hm
        rw [hns] at h1; cases h1
        split at h
        · simp at h
        · rename_i hd
          simp only [dayNs] at hd
          refine ⟨hm, by omega, ?_⟩
          rcases perSecond_mem hm with ⟨_, e⟩ | ⟨_, e⟩ | ⟨_, e⟩ | ⟨_, e⟩ <;> rw [e] at h5 ⊢ <;> omega
  · intro ⟨hm, h0, hv⟩
    obtain ⟨x, hx, _⟩ := time_text v p hm h0 hv
    refine ⟨by simp [hx], ?_⟩
    intro h; subst h; simp at hm

theorem timestampText_some (v p : Int) : (timestampText v p).isSome ∧ p ≠ 12 ↔
    p ∈ [(0 : Int), 3, 6, 9] ∧ InCalendar v p := by
  have hday : ∀ ns, p ∈ [(0 : Int), 3, 6, 9] → ns * perSecond p = v * 1000000000 →
      ns / dayNs = v / (86400 * perSecond p) := by
    intro ns hp h5
    simp only [dayNs]
    rcases perSecond_mem hp with ⟨_, e⟩ | ⟨_, e⟩ | ⟨_, e⟩ | ⟨_, e⟩ <;> rw [e] at h5 ⊢ <;> omega
  constructor
  · intro ⟨h, h12⟩
    unfold timestampText at h
    split at h
    · simp at h
    · rename_i ns hns
      have hm : p ∈ [(0 : Int), 3, 6, 9] := by
        unfold unitsToNs at hns
        simp only [List.mem_cons, List.not_mem_nil, or_false]
        by_cases p = 0 <;> by_cases p = 3 <;> by_cases p = 6 <;> by_cases p = 9 <;> simp_all
      obtain ⟨ns', pr, h1, h2, h3, h4, h5⟩ := unitsToNs_mem (v := v) hm
      rw [hns] at h1; cases h1
      split at h
      · rename_i hc
        rw [hday _ hm h5] at hc
        exact ⟨hm, hc⟩
      · simp at h
  · intro ⟨hm, hc⟩
    obtain ⟨ns, pr, h1, h2, h3, h4, h5⟩ := unitsToNs_mem (v := v) hm
    refine ⟨?_, ?_⟩
    · unfold timestampText
      rw [h1]
      simp only
      rw [hday _ hm h5, if_pos ⟨hc.1, hc.2⟩]; rfl
    · intro h; subst h; simp at hm

theorem textPrecLit_errs [UTab] (p : Int) (x : Option Str) :
    (textPrecLit p x).errs = [] ↔ x.isSome ∧ p ≠ 12 := by
  cases x with
  | none => simp [textPrecLit, litFail, Out.fail]
  | some s =>
    simp only [textPrecLit, Option.isSome_some, true_and]
    split <;> simp_all

theorem textSuffix_errs (v : Lit) (n : Bool) : (textSuffix v n).errs = [] := by
  unfold textSuffix
  split <;> rfl

theorem textSuffix_ite (v : Lit) (n c : Bool) :
    (if c = true then textSuffix v n else { text := [], errs := [] }).errs = [] := by
  split
  · exact textSuffix_errs _ _
  · rfl

theorem textInterval_errs [UTab] (i : Interval) :
    (textInterval i).errs = [] ↔ i.units.1 ∈ [(0 : Int), 3, 6, 9, 12] ∧ ¬ i.outOfBounds ∧
        (i.units.1 = 0 → i.units.2 = 0) ∧ (i.units.2 < perSecond i.units.1 ∧ -perSecond i.units.1 < i.units.2) := by
  unfold textInterval
  cases hf : Precision.fromUnits i.units.1 with
  | none =>
    simp only [litFail, Out.fail]
    constructor
    · intro h; simp at h
    · intro ⟨h, _⟩
      simp only [List.mem_cons, List.not_mem_nil, or_false] at h
      rcases h with h | h | h | h | h <;> simp [h, Precision.fromUnits] at hf
  | some pr =>
    obtain ⟨h1, h2⟩ := fromUnits_units hf
    simp only
    have hpos : 0 < perSecond i.units.1 := by
      unfold perSecond; exact Int.pow_pos (by decide)
    have hps : (10 : Int) ^ pr.units.toNat = perSecond i.units.1 := by rw [h1]; rfl
    rw [hps]
    by_cases hz : i.units.2 = 0
    · rw [if_neg (by simpa using hz)]
      simp only [Out.errs_append, Out.s, List.append_nil, h2, true_and, hz]
      by_cases ho : i.outOfBounds
      · simp [ho]
      · simp only [ho, if_false, true_iff, not_false_eq_true, true_and]
        exact ⟨fun _ => trivial, by omega, by omega⟩
    · rw [if_pos hz]
      cases hu : pr.subsecondUnit with
      | none =>
        have : pr = .seconds := by revert hu; cases pr <;> simp [Precision.subsecondUnit]
        subst this
        simp only [Out.errs_append, litFail, Out.fail]
        constructor
        · intro h; simp at h
        · intro h; exact absurd (h.2.2.1 h1) hz
      | some u =>
        have hne : i.units.1 ≠ 0 := by
          rw [h1]; revert hu; cases pr <;> simp [Precision.subsecondUnit, Precision.units]
        simp only [Out.errs_append, Out.s, List.append_nil, h2, true_and, List.append_eq_nil_iff, hne,
          false_implies]
        by_cases ho : i.outOfBounds
        · simp [ho]
        simp only [ho, if_false, true_and, not_false_eq_true, true_implies]
        by_cases hr : i.units.2 ≤ -perSecond i.units.1 ∨ perSecond i.units.1 ≤ i.units.2
        · rw [if_pos hr]
          constructor
          · intro h; simp at h
          · omega
        · rw [if_neg hr]
          simp only [true_iff]; omega

/-- The literal printer reports nothing exactly for complete literals. -/
theorem textLit_errs [UTab] [FTab] {st : Store} (hst : st.Ordered) (o : Opts) (l : Literal) :
    (textLit st o l).errs = [] ↔ CompleteLit st l := by
  obtain ⟨value, nullable, tvar⟩ := l
  unfold CompleteLit
  have hsuf : ∀ v : Lit, (if showSuffix o nullable v = true then textSuffix v nullable else .s []).errs = [] := by
    intro v
    split
    · exact textSuffix_errs _ _
    · rfl
  cases value with
  | none => simp [textLit, Out.fail]
  | some v =>
    simp only [Option.some.injEq, exists_eq_left']
    cases v with
    | null t =>
      simp only [textLit, Out.errs_append, Out.s, List.nil_append]
      exact textTy_errs hst o t
    | bool b => simp [textLit, Out.errs_append, textSuffix_ite, textValue, Out.s]
    | int w i => simp [textLit, Out.errs_append, textSuffix_ite, textValue, Out.s]
    | fp32 f => simp [textLit, Out.errs_append, textSuffix_ite, textValue, Out.s]
    | fp64 f => simp [textLit, Out.errs_append, textSuffix_ite, textValue, Out.s]
    | string f => simp [textLit, Out.errs_append, textSuffix_ite, textValue, Out.s]
    | binary f => simp [textLit, Out.errs_append, textSuffix_ite, textValue, textBinary, Out.s]
    | other f => simp [textLit, Out.errs_append, textSuffix_ite, textValue, litFail, Out.fail]
    | date d =>
      simp only [textLit, Out.errs_append, hsuf, textValue, List.append_nil, dateText]
      by_cases h : minDays ≤ d ∧ d ≤ maxDays
      · simp [h, Out.s]
      · simp only [h, if_false, Out.panic, iff_false]; simp
    | time us =>
      simp only [textLit, Out.errs_append, hsuf, textValue, List.append_nil, textPrecLit_errs, timeText_some]
      simp
    | timestamp us =>
      simp only [textLit, Out.errs_append, hsuf, textValue, List.append_nil, textPrecLit_errs, timestampText_some]
      simp
    | interval i =>
      simp only [textLit, Out.errs_append, hsuf, textValue, List.append_nil]
      exact textInterval_errs i
    | prec k p v =>
      cases k <;>
        simp only [textLit, Out.errs_append, hsuf, textValue, List.append_nil, textPrecLit_errs, timestampText_some,
          timeText_some]

end Verif
