import Verif.Proofs.PanicsRead
import Verif.Props.Literals
import Verif.Props.Reparse
/-!
# C60: what goes wrong while formatting

The formatter panics for dates outside the calendar of `chrono`, and for nothing else; its errors carry
one of a fixed set of names.
-/

namespace Verif
open StoreSpec TextSpec RelSpec PlanSpec PanicSpec

set_option autoImplicit false

/-- C60.  The days that exist are those of the years -262143 to 262142. -/
theorem C60_days (d : Int) : DayExists d ↔ -262143 ≤ (Date.ofDays d).y ∧ (Date.ofDays d).y ≤ 262142 := by
  have h1 : minDays = -96465292 := by decide +kernel
  have h2 : maxDays = 95026236 := by decide +kernel
  have h := C19_date_panics_iff d
  unfold dateText at h
  rw [h1, h2] at h
  unfold DayExists
  by_cases hd : -96465292 ≤ d ∧ d ≤ 95026236
  · rw [if_pos hd] at h
    simp only [reduceCtorEq, false_iff] at h
    omega
  · rw [if_neg hd] at h
    simp only [true_iff] at h
    omega

/-- C60.  An expression panics exactly when it has a date that does not exist. -/
theorem C60_expression_panics_iff [UTab] [FTab] (st : Store) (o : Opts) (e : Expr) :
    panicMark ∈ (textExpr st o e).errs ↔ ∃ d ∈ exprDates e, ¬ DayExists d := by
  constructor
  · intro h
    refine Classical.byContradiction fun hc => ?_
    have := only_expr (Q := (· ∈ errorNames)) (fun _ h => h) st o e
      (fun d hd hn => absurd ⟨d, hd, hn⟩ hc) panicMark h
    revert this
    decide
  · rintro ⟨d, hd, hn⟩
    exact expr_panics st o e d hd hn

/-- C60.  The errors of a plan carry one of the names, unless a date that does not exist is written. -/
theorem C60_error_names [UTab] [FTab] (reg : Registry ExtArgs (List Nat)) (o : Opts) (p : Plan) :
    ∀ n ∈ (textPlan reg o p).errs, n ∈ errorNames ∨ n = panicMark ∧ ∃ d ∈ planDates reg o p, ¬ DayExists d :=
  only_plan (Q := fun n => n ∈ errorNames ∨ n = panicMark ∧ ∃ d ∈ planDates reg o p, ¬ DayExists d)
    (fun _ h => .inl h) reg o p fun d hd hn => .inr ⟨rfl, d, hd, hn⟩

/-- C60.  Formatting panics only on a date that does not exist. -/
theorem C60_panics_only_on_dates [UTab] [FTab] (reg : Registry ExtArgs (List Nat)) (o : Opts) (p : Plan)
    (h : panicMark ∈ (textPlan reg o p).errs) : ∃ d ∈ planDates reg o p, ¬ DayExists d := by
  rcases C60_error_names reg o p _ h with h | ⟨-, h⟩
  · exact absurd h (by decide)
  · exact h

/-- C60.  A plan that was read is formatted without a panic, whatever the options, provided the handlers
explain payloads with dates that exist. -/
theorem C60_no_panic_after_parse [UTab] [FTab] (reg : Registry ExtArgs (List Nat)) (hr : DatedRegistry reg)
    (text : Str) (p : Plan) (h : parsePlan reg text = .ok p) (o : Opts) : panicMark ∉ (textPlan reg o p).errs := by
  intro hp
  obtain ⟨d, hd, hn⟩ := C60_panics_only_on_dates reg o p hp
  exact hn (dated_parse hr h o d hd)

/-! ## Cases -/

theorem hGet_mem {V : Type} {l : List ((Ns × Str) × V)} {k : Ns × Str} {v : V} (h : hGet l k = some v) :
    (k, v) ∈ l := by
  induction l with
  | nil => cases h
  | cons a l ih =>
    obtain ⟨k', v'⟩ := a
    rw [hGet] at h
    split at h
    · next hk => cases h; subst hk; exact List.mem_cons_self
    · exact List.mem_cons_of_mem _ (ih h)

theorem sampleReg_dated : DatedRegistry sampleReg := by
  intro n ws d e he
  have hn : ∀ url cols a, (∀ c ∈ cols, columnExprs c = []) → (noteHandler url cols).textify d ws = .ok a →
      argsExprs a = [] := by
    intro url cols a hc ha
    simp only [noteHandler] at ha
    split at ha
    · cases ha
      simpa [argsExprs, valuesExprs, valueExprs] using hc
    · cases ha
  unfold payloadExprs at he
  split at he
  · rename_i name a hd
    exfalso
    unfold Registry.decode at hd
    split at hd
    · cases hd
    · split at hd
      · cases hd
      · rename_i h hh
        split at hd
        · rename_i args ha
          cases hd
          have := hGet_mem hh
          have : argsExprs a = [] := by
            simp only [sampleReg, List.mem_cons, List.not_mem_nil, or_false] at this
            rcases this with hx | hx | hx | hx <;> cases hx <;> exact hn _ _ _ (by simp [columnExprs]) ha
          rw [this] at he
          cases he
        · cases hd
  · cases he

/-- A filter by a date. -/
def datePlan (d : Int) : Plan where
  version := none
  urns := []
  decls := []
  rels := [.rel (.node (.filter none (some (.literal ⟨some (.date d), false, 0⟩)) none)
    [some (.node (.read none (some ⟨[cs!"a"], some ⟨[.simple .i64 .required 0], 0, .required⟩⟩) none
      (.named [cs!"t"] 0) none 0) [])])]

/-- C60.  The last day is written; the next one, a valid `i32`, panics. -/
theorem C60_last_day : letI := asciiTab; letI := halfTab
    (textPlan sampleReg .default (datePlan 95026236)).text =
      cs!"=== Plan\nFilter['+262142-12-31':date => $0]\n  Read[t => a:i64]\n" ∧
    (textPlan sampleReg .default (datePlan 95026236)).errs = [] ∧
    (textPlan sampleReg .default (datePlan 95026237)).errs = [panicMark] ∧
    (textPlan sampleReg .default (datePlan (-96465293))).errs = [panicMark] := by
  decide +kernel

example : planDates sampleReg .default (datePlan 7) = [7] := by decide +kernel

example : letI := asciiTab; letI := halfTab; ∀ o, panicMark ∉ (textPlan sampleReg o ReparseSample.plan).errs :=
  letI := asciiTab; letI := halfTab
  C60_no_panic_after_parse sampleReg sampleReg_dated _ _ ReparseSample.read

end Verif
