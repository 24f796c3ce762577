import Verif.Proofs.ReparsePlan
import Verif.Proofs.Tidy
import Verif.Props.Plan
/-!
# Texts that are read, written and read again (C58)
-/

namespace Verif
open StoreSpec TextSpec RelSpec PlanSpec

set_option autoImplicit false

/-- C58: an accepted text whose plan is plain is written as a text that is accepted and stands for a
plan with the same meaning.  Nothing is assumed of the declarations, the version, the shape of the tree
or the functions called. -/
theorem C58_reparse [UTab] [FTab] (hA : AsciiPrintable) (reg : Registry ExtArgs (List Nat)) (o : Opts)
    (ho : Readable o) (text : Str) (p : Plan) (h : parsePlan reg text = .ok p) (hp : PlainPlan reg o p) :
    ∃ p', parsePlan reg (textPlan reg o p).text = .ok p' ∧ PlanEquiv reg p p' := by
  obtain ⟨p', h1, h2, -⟩ := planRT hA reg o ho p (planOk_of_parse h hp).1
  exact ⟨p', h1, h2⟩

/-- C58: what is written after that is the same text again. -/
theorem C58_settles [UTab] [FTab] (hA : AsciiPrintable) (reg : Registry ExtArgs (List Nat)) (o : Opts)
    (ho : Readable o) (hl : o.litTypes = .required) (text : Str) (p : Plan) (h : parsePlan reg text = .ok p)
    (hp : PlainPlan reg o p) :
    ∃ p', parsePlan reg (textPlan reg o p).text = .ok p' ∧ (textPlan reg o p').text = (textPlan reg o p).text ∧
      (textPlan reg o p').errs = (textPlan reg o p).errs := by
  obtain ⟨h1, h2⟩ := planOk_of_parse h hp
  obtain ⟨p', h3, h4⟩ := planCanonical hA reg o ho hl p h1 (by
    intro x hx
    have := h2 x hx
    exact ⟨fun h => by rwa [this.producer.2], fun h => by rwa [this.gitHash.2]⟩)
  exact ⟨p', h3, by rw [h4], by rw [h4]⟩

/-- C58: it is written without an error, unless a nullability was left open or an interval is too
long. -/
theorem C58_no_errors [UTab] [FTab] (hA : AsciiPrintable) (reg : Registry ExtArgs (List Nat)) (o : Opts)
    (ho : Readable o) (text : Str) (p : Plan) (h : parsePlan reg text = .ok p) (hp : PlainPlan reg o p)
    (ht : TidyPlan reg o p) : (textPlan reg o p).errs = [] :=
  (textPlan_errs reg o p).2 (complete_of_tidy hA ho (planOk_of_parse h hp).1 ht)

/-- C46 with the conditions for a text without errors spelled out: a plan with a faithful text has one
without errors unless a nullability is left open or an interval is too long. -/
theorem C46_round_trip_tidy [UTab] [FTab] (hA : AsciiPrintable) (reg : Registry ExtArgs (List Nat)) (o : Opts)
    (ho : Readable o) (p : Plan) (h : PlanOk reg o p) (ht : TidyPlan reg o p) :
    (textPlan reg o p).errs = [] ∧ ∃ p', parsePlan reg (textPlan reg o p).text = .ok p' ∧ PlanEquiv reg p p' :=
  C46_plan_round_trip hA reg o ho p h (complete_of_tidy hA ho h ht)

/-! ## A text -/

namespace ReparseSample

/-- Not written as the formatter would: blank lines and spaces, no producer. -/
def text : Str := cs!"\n=== Version 0.63.1\n  producer:   me \n\n=== Extensions\nFunctions:\nURNs:\n  @  1: /f.yaml\nFunctions:\n  # 10 @  1: equal:any\n=== Plan\n\nRoot[x, \"my col\"]\n  Filter[equal($0 ,5):boolean? => $0,$0]\n    Read[db.t => a:i64, \"my col\":string?]\n"

/-- Its plan. -/
def plan : Plan where
  version := some ⟨0, 63, 1, [], cs!"me"⟩
  urns := [(1, cs!"/f.yaml")]
  decls := [some (.function, 1, 10, cs!"equal:any")]
  rels := [.root [cs!"x", cs!"my col"] (some (.node
    (.filter (some ⟨some (.emit [0, 0]), 0⟩)
      (some (.call 10 [.value (.selection (.field 0 none)), .value (.literal ⟨some (.int .i64 5), false, 0⟩)] []
        (some (.simple .boolean .nullable 0)))) none)
    [some (.node (.read (some ⟨some .direct, 0⟩) (some ⟨[cs!"a", cs!"my col"],
      some ⟨[.simple .i64 .required 0, .simple .string .nullable 0], 0, .required⟩⟩) none (.named [cs!"db", cs!"t"] 0) none 0) [])]))]

theorem read : letI := asciiTab; letI := halfTab; parsePlan sampleReg text = .ok plan := by
  unfold text plan
  cbv

theorem isPlain : letI := asciiTab; letI := halfTab; PlainPlan sampleReg .default plan := by
  letI := asciiTab; letI := halfTab
  have hs : ∀ n ∈ [cs!"x", cs!"my col", cs!"a", cs!"db", cs!"t"], Spellable n := by
    intro n hn
    simp only [List.mem_cons, List.not_mem_nil, or_false] at hn
    rcases hn with rfl | rfl | rfl | rfl | rfl <;> exact SamplePlan.spellable _ (by decide +kernel)
  intro r hr
  simp only [plan, List.mem_cons, List.not_mem_nil, or_false] at hr
  subst hr
  refine ⟨fun n hn => hs n (by revert hn; simp; grind), fun x hx => ?_⟩
  cases hx
  refine ⟨⟨?_, ⟨?_, ?_⟩, ?_⟩, ⟨⟨?_, ?_, ?_⟩, ?_⟩, ?_⟩
  · intro e he
    cases he
    refine ⟨⟨trivial, ?_, trivial⟩, ?_⟩
    · intro v hv; cases hv; trivial
    · intro x hx; cases hx; trivial
  · decide +kernel
  · intro i hi
    have : i = 0 := by simpa [shown, mapping] using hi
    subst this
    decide +kernel
  · intro x hx; cases hx
  · intro x hx
    cases hx
    refine ⟨fun n hn => hs n (by revert hn; simp; grind), ?_⟩
    intro y hy t ht
    cases hy
    simp only [List.mem_cons, List.not_mem_nil, or_false] at ht
    rcases ht with rfl | rfl <;> trivial
  · exact fun n hn => hs n (by revert hn; simp; grind)
  · intro x hx; cases hx
  · trivial
  · trivial

theorem tidy : TidyPlan sampleReg .default plan := by
  intro r hr
  simp only [plan, List.mem_cons, List.not_mem_nil, or_false] at hr
  subst hr
  refine ⟨⟨⟨⟨trivial, ?_, trivial⟩, ?_⟩, ?_⟩, ⟨⟨?_, trivial, ?_⟩, trivial⟩, trivial⟩
  · intro v hv; cases hv; trivial
  · intro x hx; cases hx; simp [TidyTy]
  · intro x hx; cases hx
  · intro x hx y hy t ht
    cases hx
    cases hy
    simp only [List.mem_cons, List.not_mem_nil, or_false] at ht
    rcases ht with rfl | rfl <;> simp [TidyTy]
  · intro x hx; cases hx

end ReparseSample

open ReparseSample in
example : letI := asciiTab; letI := halfTab
    ∃ p', parsePlan sampleReg (textPlan sampleReg .default plan).text = .ok p' ∧ PlanEquiv sampleReg plan p' :=
  letI := asciiTab; letI := halfTab
  C58_reparse asciiTab_printable sampleReg .default readable_default text plan read isPlain

open ReparseSample in
example : letI := asciiTab; letI := halfTab
    ∃ p', parsePlan sampleReg (textPlan sampleReg .default plan).text = .ok p' ∧
      (textPlan sampleReg .default p').text = (textPlan sampleReg .default plan).text ∧
      (textPlan sampleReg .default p').errs = (textPlan sampleReg .default plan).errs :=
  letI := asciiTab; letI := halfTab
  C58_settles asciiTab_printable sampleReg .default readable_default rfl text plan read isPlain

/-- It is not the text that was read, but nothing is lost. -/
theorem C58_sample_text : letI := asciiTab; letI := halfTab
    (textPlan sampleReg .default ReparseSample.plan).text = cs!"=== Version 0.63.1\n  producer: me\n=== Extensions\nURNs:\n  @  1: /f.yaml\nFunctions:\n  # 10 @  1: equal:any\n\n=== Plan\nRoot[x, \"my col\"]\n  Filter[equal($0, 5):boolean? => $0, $0]\n    Read[db.t => a:i64, \"my col\":string?]\n" := by
  decide +kernel

open ReparseSample in
example : letI := asciiTab; letI := halfTab; (textPlan sampleReg .default plan).errs = [] :=
  letI := asciiTab; letI := halfTab
  C58_no_errors asciiTab_printable sampleReg .default readable_default text plan read isPlain tidy

example : letI := asciiTab; letI := halfTab
    (textPlan sampleReg .default ReparseSample.plan).errs = [] ∧
      ∃ p', parsePlan sampleReg (textPlan sampleReg .default ReparseSample.plan).text = .ok p' ∧
        PlanEquiv sampleReg ReparseSample.plan p' :=
  letI := asciiTab; letI := halfTab
  C46_round_trip_tidy asciiTab_printable sampleReg .default readable_default _
    (planOk_of_parse ReparseSample.read ReparseSample.isPlain).1 ReparseSample.tidy

/-! ## Accepted texts that are not plain -/

/-- What a text is written as, how many errors are reported, and whether that is accepted. -/
def rewritten (text : Str) : letI := asciiTab; letI := halfTab; Option (Str × Nat × Bool) :=
  letI := asciiTab; letI := halfTab
  match parsePlan sampleReg text with
  | .ok p => some ((textPlan sampleReg .default p).text, (textPlan sampleReg .default p).errs.length,
      match parsePlan sampleReg (textPlan sampleReg .default p).text with
      | .ok _ => true
      | _ => false)
  | _ => none

/-- C58 fails without an error for a sort without fields: it is accepted, and written as text that is
not. -/
theorem C58_empty_sort_fails :
    rewritten cs!"=== Plan\nSort[ => $0]\n  Read[t => a:i64]\n" =
      some (cs!"=== Plan\nSort[_ => $0]\n  Read[t => a:i64]\n", 0, false) := by decide +kernel

/-- C58 fails without an error for a cast as the only grouping expression. -/
theorem C58_cast_group_fails :
    rewritten cs!"=== Plan\nAggregate[(($0)::i64) => ($0)::i64]\n  Read[t => a:i64]\n" =
      some (cs!"=== Plan\nAggregate[($0)::i64 => ($0)::i64]\n  Read[t => a:i64]\n", 0, false) := by decide +kernel

/-- C58 fails without an error for a semi-join that asks for the columns of both sides: it is written
as one that asks for the columns of the left. -/
theorem C58_semi_join_fails :
    rewritten cs!"=== Plan\nJoin[&LeftSemi, true => $0, $1]\n  Read[t => a:i64]\n  Read[t => a:i64]\n" =
      some (cs!"=== Plan\nJoin[&LeftSemi, true => $0]\n  Read[t => a:i64]\n  Read[t => a:i64]\n", 0, true) := by
  decide +kernel

/-- Accepted texts that are written with an error and not accepted again: a column that is not there,
and a leap second. -/
theorem C58_reported_fails :
    rewritten cs!"=== Plan\nFilter[true => $7]\n  Read[t => a:i64]\n" =
      some (cs!"=== Plan\nFilter[true => !{Emitted}]\n  Read[t => a:i64]\n", 1, false) ∧
    rewritten cs!"=== Plan\nRead:Virtual[('23:59:60':time) => a:time]\n" =
      some (cs!"=== Plan\nRead:Virtual[(!{LiteralType}:time) => a:time]\n", 1, false) := by decide +kernel

/-- What `TidyPlan` leaves out is reported, and yet written and accepted. -/
theorem C58_untidy_reported :
    rewritten cs!"=== Plan\nRead[t => a:i64⁉]\n" = some (cs!"=== Plan\nRead[t => a:i64⁉]\n", 1, true) ∧
    rewritten cs!"=== Plan\nRead:Virtual[('4000000d':interval_day<3>) => a:i64]\n" =
      some (cs!"=== Plan\nRead:Virtual[('4000000d':interval_day<3>) => a:i64]\n", 1, true) := by decide +kernel

end Verif
