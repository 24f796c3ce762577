import Verif.Props.Sections
import Verif.Proofs.Layout
import Verif.Model.Plan
import Verif.Props.Literals
/-!
C50 for texts with continuation lines.
-/

set_option autoImplicit false

namespace Verif
open ChunkSpec SectionSpec

/-- C50: blank lines and white space at the ends of lines do not matter, errors included, except immediately
before a line that begins with a dash.  (There they do: `C50_blank_before_dash`, `C50_line_end_in_string`.) -/
theorem C50_layout_partial (L : Lang) (a b : Str) (h : Relaid (physLines a) (physLines b)) :
    parseSections L a = parseSections L b := by
  rw [PState.parseSections_eq, PState.parseSections_eq]
  exact PState.runLines_relaid h _

/-- C50 for whole plans. -/
theorem C50_plan_layout_partial [FTab] (reg : Registry ExtArgs (List Nat)) (a b : Str)
    (h : Relaid (physLines a) (physLines b)) : parsePlan reg a = parsePlan reg b := by
  unfold parsePlan
  rw [C50_layout_partial planLang a b h]

theorem Relaid_refl (ls : List Str) : Relaid ls ls := by
  induction ls with
  | nil => exact .nil
  | cons l ls ih => exact .same l ih

theorem Relaid_prefix {x y : Str} (a : Str) (h : Relaid (physLines x) (physLines y))
    (hl : ∀ l : Str, '\n' ∉ l → Relaid (physLines (l ++ '\n' :: x)) (physLines (l ++ '\n' :: y))) :
    Relaid (physLines (a ++ '\n' :: x)) (physLines (a ++ '\n' :: y)) := by
  induction a using text_lines_induction with
  | last a ha => exact hl a ha
  | step a a' ha ih =>
    rw [List.append_assoc, List.append_assoc, List.cons_append, List.cons_append, physLines_nl a _ ha, physLines_nl a _ ha]
    exact .same _ ih

/-- C50: a blank line may be put in front of any line that does not begin with a dash. -/
theorem C50_blank_line_anywhere_partial [FTab] (reg : Registry ExtArgs (List Nat)) (a ws b : Str)
    (hws : ∀ c ∈ ws, isWs c = true) (hnl : '\n' ∉ ws) (hd : NoDashNext (physLines b)) :
    parsePlan reg (a ++ '\n' :: (ws ++ '\n' :: b)) = parsePlan reg (a ++ '\n' :: b) := by
  have hb : Relaid (physLines (ws ++ '\n' :: b)) (physLines b) := by
    rw [physLines_nl ws b hnl]
    refine .more _ ?_ hd (Relaid_refl _)
    rw [trimEnd_eq_nil_iff]
    intro c hc
    rcases List.mem_append.1 hc with hc | hc
    · exact hws c hc
    · simp at hc; subst hc; decide
  refine C50_plan_layout_partial reg _ _ (Relaid_prefix a hb fun l hl => ?_)
  rw [physLines_nl l _ hl, physLines_nl l _ hl]
  exact .same _ hb

/-- C50: the end of any line that is not followed by a line that begins with a dash may have white space in
front of it, such as a carriage return. -/
theorem C50_line_end_anywhere_partial [FTab] (reg : Registry ExtArgs (List Nat)) (a ws b : Str)
    (hws : ∀ c ∈ ws, isWs c = true) (hnl : '\n' ∉ ws) (hd : NoDashNext (physLines b)) :
    parsePlan reg (a ++ (ws ++ '\n' :: b)) = parsePlan reg (a ++ '\n' :: b) := by
  refine C50_plan_layout_partial reg _ _ ?_
  induction a using text_lines_induction with
  | last a ha =>
    rw [← List.append_assoc, physLines_nl (a ++ ws) b (by simp [ha, hnl]), physLines_nl a b ha]
    refine .ending _ _ ?_ hd (Relaid_refl _)
    have hn : ∀ c ∈ ['\n'], isWs c = true := by intro c hc; simp at hc; subst hc; decide
    rw [trimEnd_append_ws _ _ hn, trimEnd_append_ws _ _ hn, trimEnd_append_ws _ _ hws]
  | step a a' ha ih =>
    rw [List.append_assoc, List.append_assoc, List.cons_append, List.cons_append, physLines_nl a _ ha, physLines_nl a _ ha]
    exact .same _ ih

/-- A text with continuation lines: between the two relations, and after the last continuation line. -/
example : letI := halfTab
    parsePlan {} cs!"=== Plan\nRead:Virtual[\n  - (1)\n  - => c:i64]\n \t\nRead[t => a:i64]\n" =
      parsePlan {} cs!"=== Plan\nRead:Virtual[\n  - (1)\n  - => c:i64]\nRead[t => a:i64]\n" := by
  letI := halfTab
  refine C50_blank_line_anywhere_partial {} cs!"=== Plan\nRead:Virtual[\n  - (1)\n  - => c:i64]" cs!" \t"
    cs!"Read[t => a:i64]\n" (by decide) (by decide) ?_
  intro l hl
  have : l = cs!"Read[t => a:i64]\n" := by
    simpa [physLines] using hl.symm
  subst this
  rintro ⟨n, r, hr⟩
  cases n with
  | zero => exact absurd (List.cons.inj hr).1 (by decide)
  | succ n => exact absurd (List.cons.inj hr).1 (by decide)

end Verif
