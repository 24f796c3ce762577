import Verif.Proofs.RawLeast
import Verif.Props.SamplePlan
import Verif.Props.Literals

/-!
C67: the content of a plan does not change the lines of its text.
-/

set_option autoImplicit false
set_option synthInstance.maxSize 1000

namespace Verif

open RawSpec

/-! ## C67 -/

/-- C67: the text of a plan has as many lines as the shape of the plan requires, whatever its table and column names
and its literals contain.  Partial: the texts that are copied without escapes (`planRaw`), the indentation and the
spelling of floats must not contain line ends; see `C67_injected`. -/
theorem C67_lines_partial [UTab] [FTab]
    (hf : ∀ b, '\n' ∉ FTab.show32 b ∧ '\n' ∉ FTab.show64 b)
    (reg : Registry ExtArgs (List Nat)) (o : Opts) (hi : '\n' ∉ o.indent) (p : Plan)
    (h : ∀ s ∈ planRaw reg o p, '\n' ∉ s) :
    (textPlan reg o p).text.count '\n' = planLines o p :=
  nls_textPlan hf reg o hi p h

/-- C67: the same for one relation tree at any depth; there is no line end after its last line. -/
theorem C67_relation_lines_partial [UTab] [FTab]
    (hf : ∀ b, '\n' ∉ FTab.show32 b ∧ '\n' ∉ FTab.show64 b)
    (env : Env) (hi : '\n' ∉ env.o.indent) (ho : env.st.Ordered)
    (hn : (∀ u ∈ env.st.urns, '\n' ∉ u.2) ∧ ∀ e ∈ env.st.exts, '\n' ∉ e.2.2) (n : Nat) (r : Rel)
    (h : ∀ s ∈ relRaw env r, '\n' ∉ s) :
    (textRel env n r).text.count '\n' + 1 = relLines env.o r :=
  nls_textRel hf hi ⟨hn.1, hn.2⟩ ho n r h

/-- C67, the half that holds of every plan: nothing in a plan, not even a text that is copied, takes away a line that its
shape requires, whatever the options and the handlers. -/
theorem C67_no_line_taken [UTab] [FTab] (reg : Registry ExtArgs (List Nat)) (o : Opts) (p : Plan) :
    planLines o p ≤ (textPlan reg o p).text.count '\n' :=
  le_nls_textPlan reg o p

/-- C67: the same for one relation tree at any depth. -/
theorem C67_no_relation_line_taken [UTab] [FTab] (env : Env) (n : Nat) (r : Rel) :
    relLines env.o r ≤ (textRel env n r).text.count '\n' + 1 :=
  le_nls_textRel env n r

/-- C67, C51 (the default and the verbose options): a virtual table without filter and addenda is written on one
line if it has at most two rows, and otherwise on one line for each row and two more. -/
theorem C67_virtual_table_lines_partial [UTab] [FTab]
    (hf : ∀ b, '\n' ∉ FTab.show32 b ∧ '\n' ∉ FTab.show64 b)
    (env : Env) (hd : env.o = .default ∨ env.o = .verbose) (ho : env.st.Ordered)
    (hn : (∀ u ∈ env.st.urns, '\n' ∉ u.2) ∧ ∀ e ∈ env.st.exts, '\n' ∉ e.2.2) (n : Nat)
    (c : Option Common) (s : Option NamedStruct) (rows : List (List Expr)) (k m : Nat) (ins : List (Option Rel))
    (h : ∀ x ∈ relRaw env (.node (.read c s none (.virtual rows k) none m) ins), '\n' ∉ x) :
    (textRel env n (.node (.read c s none (.virtual rows k) none m) ins)).text.count '\n' =
      if rows.length ≤ 2 then 0 else rows.length + 1 := by
  have hi : '\n' ∉ env.o.indent := by rcases hd with h | h <;> rw [h] <;> decide
  have ht : env.o.vthreshold = 3 := by rcases hd with h | h <;> rw [h] <;> rfl
  have := C67_relation_lines_partial hf env hi ho hn n _ h
  simp only [relLines, ownLines, advLines, ht] at this
  have ha : (RelSpec.payloads (none : Option AdvExt)).1.toList.length + (RelSpec.payloads (none : Option AdvExt)).2.length = 0 := rfl
  rw [ha] at this
  simp only [Option.toList, List.length_nil] at this
  split at this <;> split <;> omega

theorem flatFloats_half : letI := halfTab; ∀ b, '\n' ∉ FTab.show32 b ∧ '\n' ∉ FTab.show64 b := by
  intro b
  have h : Flat (dec b ++ cs!".5") := (flat_append _ _).2 ⟨flat_dec b, by decide⟩
  exact ⟨h, h⟩

/-- The sample plan meets the hypotheses; it has names that are copied. -/
example : letI := asciiTab; letI := halfTab
    planRaw sampleReg .default samplePlan ≠ [] ∧
      (textPlan sampleReg .default samplePlan).text.count '\n' = 30 := by
  refine ⟨by decide +kernel, ?_⟩
  rw [@C67_lines_partial asciiTab halfTab flatFloats_half _ _ (by decide) _ (by decide +kernel)]
  decide +kernel

/-- Two rows on one line, three on five. -/
example : letI := asciiTab; letI := halfTab
    (∀ rows ∈ [[[Expr.missing], [.missing]], [[.missing], [.missing], [.missing]]],
      ∀ x ∈ relRaw ⟨StoreSpec.run [], .default, sampleReg⟩ (.node (.read none none none (.virtual rows 0) none 0) []), '\n' ∉ x) ∧
    (textRel ⟨StoreSpec.run [], .default, sampleReg⟩ 0 (.node (.read none none none (.virtual [[.missing], [.missing], [.missing]] 0)
      none 0) [])).text.count '\n' = 4 := by
  decide +kernel

namespace RawSample

/-- A read whose column type has a parameter with a line end in it. -/
def plan : Plan where
  version := none
  urns := [(1, cs!"u")]
  decls := [some (.type, 1, 7, cs!"T")]
  rels := [.rel (.node (.read none (some ⟨[cs!"a"], some ⟨[.user 7 [.str cs!"i64>]\nRead[other => b:T<i64"] .required 0],
    0, .required⟩⟩) none (.named [cs!"t"] 0) none 0) [])]

/-- The number of relations of a plan that was read. -/
def count (r : Res PlanErr Plan) : Option Nat :=
  match r with
  | .ok p => some p.rels.length
  | _ => none

end RawSample

/-- C67, the code violates the full claim: a plan with one relation is formatted without an error to a text with one
more line than its shape has, which is read as two relations. -/
theorem C67_injected :
    letI := asciiTab; letI := halfTab
    (textPlan sampleReg .default RawSample.plan).errs = [] ∧
      (textPlan sampleReg .default RawSample.plan).text.count '\n' = planLines .default RawSample.plan + 1 ∧
      RawSample.plan.rels.length = 1 ∧
      RawSample.count (parsePlan sampleReg (textPlan sampleReg .default RawSample.plan).text) = some 2 := by
  decide +kernel

end Verif
