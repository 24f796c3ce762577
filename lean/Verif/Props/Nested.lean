import Verif.Proofs.Nested
import Verif.Props.Unrelated

/-!
C64: a relation is written the same at every depth.
-/

set_option autoImplicit false
set_option synthInstance.maxSize 1000

namespace Verif

open NestSpec

/-! ## C64 -/

section
variable [UTab] [FTab]

/-- C64: there are lines and errors for every relation such that, at every depth, the relation is written as
these lines, that much further in, with these errors. The lines of a relation are its own, the first at
depth 0 and the others at depth 1, followed by the lines of its inputs in order, one step further in. Of the
inputs, its own lines depend only on how many columns each puts out. -/
theorem C64_written (env : Env) :
    ∃ (lines : Rel → List (Nat × Str)) (errs : Rel → List Str) (own : RelOp → List (Option Nat) → List (Nat × Str)),
      (∀ r n, textRel env n r = ⟨laid env.o.indent n (lines r), errs r⟩) ∧
      (∀ op ws, Own (own op ws)) ∧
      (∀ op ins, ¬ Leaf op → lines (.node op ins) =
        own op (ins.map (Option.map (relWidth env))) ++ (ins.filterMap id).flatMap fun r => deeper (lines r)) ∧
      ∀ op ins, Leaf op → lines (.node op ins) = own op (ins.map (Option.map (relWidth env))) := by
  have hw : ∀ ins, inputWidths env ins = ins.map (Option.map (relWidth env)) := by
    intro ins
    induction ins with
    | nil => rfl
    | cons x l ih => cases x <;> simp [inputWidths, ih]
  refine ⟨relLaid env, fun r => (textRel env 0 r).errs, fun op ws => ownLaid env (relHead env ws op), ?_, ?_, ?_, ?_⟩
  · intro r n
    show _ = Out.mk _ (textRel env 0 r).errs
    rw [← textRel_laid, textRel_sameErrs env 0 n]
  · exact fun op ws => ownLaid_own env _
  · intro op ins h
    rw [relLaid, hw, ← inputLaid_flatMap]
    have : op.keepsInputs = true := by
      cases op <;> first | rfl | exact absurd (.inl ⟨_, _, _, _, _, _, rfl⟩) h | exact absurd (.inr ⟨_, rfl⟩) h
    rw [if_pos this]
  · intro op ins h
    rw [relLaid, hw]
    have : op.keepsInputs = false := by
      rcases h with ⟨_, _, _, _, _, _, rfl⟩ | ⟨_, rfl⟩ <;> rfl
    rw [if_neg (by rw [this]; decide), List.append_nil]

/-- What stands below a root is the relation as it would stand alone, one step further in. -/
theorem C64_below_root (env : Env) (names : List Str) (r : Rel) :
    ∃ head lines, (∀ n, (textRel env n r).text = laid env.o.indent n lines) ∧
      textPlanRel env (.rel r) = ⟨laid env.o.indent 0 lines, (textRel env 0 r).errs⟩ ∧
      textPlanRel env (.root names none) = ⟨head, []⟩ ∧
      textPlanRel env (.root names (some r)) =
        ⟨laid env.o.indent 0 ((0, head) :: deeper lines), (textRel env 0 r).errs⟩ := by
  refine ⟨cs!"Root[" ++ joinS cs!", " (names.map showName) ++ cs!"]", relLaid env r, fun n => textRel_laid env n r, ?_, ?_, ?_⟩
  · rw [← textRel_laid]; rfl
  · show Out.mk _ _ = _
    simp
  · rw [laid_tailed, tailed_deeper]
    obtain ⟨l, ls, he⟩ := relLaid_ne env r
    rw [he, tailed_cons, ← he, ← textRel_laid, textRel_sameErrs env 0 1]
    show Out.mk _ _ = _
    simp [indentAt]

end

/-- The lines of a filter over a read, at depths 0 and 2. -/
example : letI := asciiTab; letI := halfTab
    ∀ r, UnrelSample.plan.rels = [.rel r] →
      textRel ⟨UnrelSample.plan.store, .default, sampleReg⟩ 0 r =
        ⟨laid cs!"  " 0 [(0, cs!"Filter[equal($0, 5):boolean? => $0]"), (1, cs!"Read[db.t => a:i64]")], []⟩ ∧
      textRel ⟨UnrelSample.plan.store, .default, sampleReg⟩ 2 r =
        ⟨laid cs!"  " 2 [(0, cs!"Filter[equal($0, 5):boolean? => $0]"), (1, cs!"Read[db.t => a:i64]")], []⟩ := by
  intro r hr
  cases hr
  decide +kernel

end Verif
