import Verif.Proofs.TokensPlan
import Verif.Props.SamplePlan
/-!
# Property C38: failure tokens
-/

namespace Verif
open StoreSpec TextSpec TokenSpec PlanSpec

set_option autoImplicit false

/-- C38: each failure token in the text of a plan, whatever is missing or undeclared in it, has an
error of its own that is reported under the same name.  Asked of the plan is only that what it
contributes without quotes is not itself spelled like a token. -/
theorem C38_tokens_reported [UTab] [FTab] (hf : InertFloats) {reg : Registry ExtArgs (List Nat)}
    (hr : InertRegistry reg) (o : Opts) (hi : Inert o.indent) (p : Plan) (h : InertPlan p) (n : Str) :
    (tokens (textPlan reg o p).text).count n ≤ (textPlan reg o p).errs.count n :=
  (plan_tokens hf hr o hi p h).count_le n

/-- C38: when nothing is reported, there is no failure token in the text. -/
theorem C38_no_silent_tokens [UTab] [FTab] (hf : InertFloats) {reg : Registry ExtArgs (List Nat)}
    (hr : InertRegistry reg) (o : Opts) (hi : Inert o.indent) (p : Plan) (h : InertPlan p)
    (he : (textPlan reg o p).errs = []) : tokens (textPlan reg o p).text = [] :=
  List.sublist_nil.1 (he ▸ plan_tokens hf hr o hi p h)

/-! ### The hypotheses can be met -/

theorem halfTab_inert : @InertFloats halfTab := by
  letI := halfTab
  have h : ∀ b, Inert (dec b ++ cs!".5") := fun b => inert_of_dull fun c hc => by
    rcases List.mem_append.1 hc with hc | hc
    · exact dull_digit (dec_all_digits b c hc)
    · exact (by decide : ∀ c ∈ cs!".5", dull c = true) c hc
  exact fun b => ⟨h b, h b⟩

theorem sampleReg_inert : InertRegistry sampleReg := by
  intro ns d ws name a h
  have hu : ∀ n, hGet sampleReg.urls (ns, d.typeUrl) = some n → n = cs!"Note" := by
    intro n hn
    simp only [sampleReg, hGet] at hn
    repeat (split at hn; exact (Option.some.inj hn).symm)
    cases hn
  have hh : ∀ x, hGet sampleReg.handlers (ns, cs!"Note") = some x →
      ∃ cols, x = noteHandler cs!"t/Note" cols ∧ (cols = [] ∨ cols = [.named cs!"c" (.simple .i64 .required 0)]) := by
    intro x hx
    simp only [sampleReg, hGet] at hx
    repeat (split at hx; exact ⟨_, (Option.some.inj hx).symm, by simp⟩)
    cases hx
  unfold Registry.decode at h
  split at h
  · cases h
  · rename_i n hn
    obtain rfl := hu n hn
    split at h
    · cases h
    · rename_i x hx
      obtain ⟨cols, rfl, hc⟩ := hh x hx
      split at h
      · rename_i args ha
        cases h
        unfold noteHandler at ha
        dsimp only at ha
        split at ha
        · cases ha
          refine ⟨inert_of_dull (by decide), by simp [InertValues, InertValue], by simp, ?_⟩
          rcases hc with rfl | rfl <;> simp [InertTy]
        · cases ha
      · cases h

/-- A plan in which much is wrong: a filter without a condition, a call of an undeclared function, a
column that is not there, an unknown payload, a cast without a type; and strings and names that look
like tokens. -/
def brokenPlan : Plan where
  version := some ⟨0, 63, 1, [], cs!"a producer"⟩
  urns := [(2, cs!"/functions.yaml")]
  decls := [some (.function, 2, 10, cs!"equal")]
  rels := [.root [cs!"!{x}"] (some (.node (.filter none none (some ⟨some ⟨cs!"t/Other", []⟩, []⟩))
    [some (.node (.project (SamplePlan.emitOnly [0, 5, 2, 3])
        [.call 11 [.value (.literal ⟨some (.string cs!"!{it's}"), false, 0⟩)] [] (some (.simple .i64 .required 0)),
         .cast (some (.call 10 [] [] none)) none 2] none)
      [some (.node (.read none (some ⟨[cs!"a", cs!"b"], some ⟨[.simple .i64 .required 0], 0, .required⟩⟩) none
        (.named [cs!"t"] 0) none 0) [])])])), .missing]

theorem brokenPlan_inert : InertPlan brokenPlan where
  version v hv := by
    cases hv
    exact ⟨inert_of_dull (by decide), inert_of_dull (by decide)⟩
  urns a n h := by
    simp only [history, brokenPlan, planOps, List.map_cons, List.map_nil, List.cons_append, List.nil_append, firstUrn,
      List.findSome?_cons, List.findSome?_nil] at h
    split at h
    · rename_i x hx
      split at hx
      · cases hx; cases h
        exact inert_of_dull (by decide)
      · cases hx
    · cases h
  decls a k u n h := by
    simp only [history, brokenPlan, planOps, List.map_cons, List.map_nil, List.cons_append, List.nil_append, firstExt,
      List.findSome?_cons, List.findSome?_nil] at h
    split at h
    · rename_i x hx
      split at hx
      · rename_i hk
        obtain ⟨rfl, rfl⟩ := hk
        cases h
        obtain ⟨y, hy, he⟩ := Option.map_eq_some_iff.1 hx
        cases hy
        cases he
        exact ⟨inert_of_dull (by decide), inert_of_dull (by decide), by decide⟩
      · cases hx
    · cases h
  rels r hr := by
    simp only [brokenPlan, List.mem_cons, List.not_mem_nil, or_false] at hr
    rcases hr with rfl | rfl
    · simp [InertTop, InertRel, InertRels, InertOp, InertExprOpt, InertExpr, InertLit, InertArgs, InertTyOpt, InertTys,
        InertTy]
    · trivial

example : letI := asciiTab; letI := halfTab
    tokens (textPlan sampleReg .default brokenPlan).text =
      [cs!"FilterRel", cs!"extension", cs!"Emitted", cs!"function", cs!"OutputType", cs!"Type", cs!"Type",
        cs!"PlanRelType"] ∧
    (textPlan sampleReg .default brokenPlan).errs =
      [cs!"FilterRel", cs!"extension", cs!"Emitted", cs!"function", cs!"OutputType", cs!"Type", cs!"Type",
        cs!"PlanRelType"] := by
  decide +kernel

/-- A function whose declared name is spelled like a failure token. -/
def tokenNamed : Plan where
  version := none
  urns := [(2, cs!"/functions.yaml")]
  decls := [some (.function, 2, 10, cs!"!{Expression}")]
  rels := [.rel (.node (.filter none (some (.call 10 [] [] (some (.simple .boolean .required 0)))) none)
    [some (.node (.read none (some ⟨[], some ⟨[], 0, .required⟩⟩) none (.named [cs!"t"] 0) none 0) [])])]

/-- Without the condition on unquoted text it fails: declared names are written as they are, so a name
can stand in the text as a failure token although nothing is wrong and nothing is reported. -/
theorem C38_name_as_token : letI := asciiTab; letI := halfTab
    (textPlan sampleReg .default tokenNamed).errs = [] ∧
    tokens (textPlan sampleReg .default tokenNamed).text ≠ [] := by
  decide +kernel

end Verif
