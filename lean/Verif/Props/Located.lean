import Verif.Proofs.LocatedAt
import Verif.Proofs.LocatedConv
import Verif.Props.SamplePlan
/-!
# C59: errors name the line they are about
-/

namespace Verif

set_option autoImplicit false

open LocSpec ChunkSpec Grammar TreeSpec

section
variable [FTab]

/-- **C59** (locations are an annotation).  The parser with contexts accepts the same texts with the same plans,
rejects the same texts with the same errors and panics on the same texts as `parsePlan`. -/
theorem C59_same_parser (reg : Registry ExtArgs (List Nat)) (text : Str) :
    (parsePlanAt reg text).mapErr (·.1) = parsePlan reg text :=
  parsePlanAt_bare reg text

/-- How an error of a line comes about. -/
theorem line_error {reg : Registry ExtArgs (List Nat)} {text : Str} {e : PErr} {c : Ctx}
    (h : parsePlanAt reg text = .err (.text e, c)) :
    PState.runLinesAt 1 PState.init (physLines text) = .err (e, c) := by
  simp only [parsePlanAt] at h
  rw [PState.parseLoopAt_eq _ _ _ _ (Nat.le_refl _)] at h
  rcases Res.bind_err_iff.1 h with h | ⟨st, -, h⟩
  · cases hr : PState.runLinesAt 1 PState.init (physLines text) with
    | ok _ => rw [hr] at h; cases h
    | panic => rw [hr] at h; cases h
    | err x =>
      rw [hr] at h
      obtain ⟨e', c'⟩ := x
      cases h
      rfl
  · exfalso
    simp only [buildPlanAt] at h
    rcases Res.bind_err_iff.1 h with h | ⟨x, -, h⟩
    · obtain ⟨x, -, h⟩ := mapErr_eq_err h
      cases h
    · cases h

/-- **C59** (errors of lines).  When a line cannot be read, the error shows a part of it and has its number;
everything before the line is accepted, and the text is still rejected, with the same error, when it ends
after the line.  So the line named is the first that is wrong.  What is missing: a line before the first
header (`C59_initial_line_number`). -/
theorem C59_line_error_partial {reg : Registry ExtArgs (List Nat)} {text : Str} {e : PErr} {c : Ctx}
    (h : parsePlanAt reg text = .err (.text e, c)) (he : e ≠ .initialLine) :
    ∃ before f run after, physLines text = before ++ (f :: run) ++ after ∧ At before f run c ∧
      (∃ st, parseSections planLang before.flatten = .ok st) ∧
      parseSections planLang (before ++ f :: run).flatten = .err e := by
  obtain ⟨before, f, run, after, st1, h1, h2, h3, h4, h5, h6⟩ := PState.runLinesAt_err (line_error h)
  obtain ⟨g1, g2, k, tail, g3⟩ := PState.parseLineAt_err h4 h5 he
  have hp1 : physLines before.flatten = before := physLines_prefix (suf := (f :: run) ++ after) (by rw [h1]; simp)
  have hp2 : physLines (before ++ f :: run).flatten = before ++ f :: run := physLines_prefix h1
  refine ⟨before, f, run, after, h1, ⟨by omega, fun l hl => PState.continues_dash (h3 l hl), ?_, g2⟩, ⟨st1.bare, ?_⟩, ?_⟩
  · obtain ⟨t, ht⟩ := trimNl_split (f :: run).flatten
    refine ⟨k, tail ++ t, ?_⟩
    rw [ht, g3]
    simp
  · rw [PState.parseSections_eq, hp1]; exact h2
  · rw [PState.parseSections_eq, hp2]; exact h6

/-- **C59** (lines before the first header).  Such a line is shown, but the number reported is half its
indentation: it has nothing to do with where the line stands. -/
theorem C59_initial_line_number {reg : Registry ExtArgs (List Nat)} {text : Str} {c : Ctx}
    (h : parsePlanAt reg text = .err (.text .initialLine, c)) :
    ∃ before f after, physLines text = before ++ f :: after ∧ (∀ l ∈ before, trimEnd l = []) ∧ trimEnd f ≠ [] ∧
      c.no = depthOf f ∧ trimEnd f = List.replicate (2 * c.no) ' ' ++ c.line := by
  obtain ⟨before, f, run, after, st1, h1, h2, h3, h4, h5, h6⟩ := PState.runLinesAt_err (line_error h)
  obtain ⟨g1, g2⟩ := PState.parseLineAt_initial h5
  have hrun : run = [] := by
    cases run with
    | nil => rfl
    | cons l run =>
      have := h3 l (by simp)
      rw [g1] at this
      cases this
  subst hrun
  have hfl : [f].flatten = f := by simp
  rw [hfl] at h4 g2
  rw [indentedLine_trimNl] at g2
  rw [trimEnd_trimNl] at h4
  refine ⟨before, f, after, by rw [h1]; simp, PState.initial_blank h2 g1, h4, ?_, ?_⟩
  · rw [g2]; rfl
  · rw [g2]; exact indentedLine_cut f

/-- **C59** (errors of relations).  When every line can be read but a relation cannot be converted, the trees that
were read have contexts which name lines of the text, show their spelling, and are numbered in the order of the
lines (`From`).  The trees before some tree convert.  In this tree there is a relation whose inputs convert and
which itself does not; the error has the context of its line or of one of its addenda, the kind of the error
decides which, and a name that is not registered is the one on the line (`Blames`).  Or the tree is a root
that has addenda, or not exactly one input. -/
theorem C59_relation_error {reg : Registry ExtArgs (List Nat)} {text : Str} {e : RErr} {c : Ctx}
    (h : parsePlanAt reg text = .err (.rel e, c)) :
    ∃ st pre t post rs, parseSections planLang text = .ok st ∧
      TreeBuilder.finish (ρ := SLine) (α := SAddendum) st.tree = (pre ++ t :: post).map forget ∧
      From text (pre ++ t :: post) ∧
      convPlanRels (st.ext : ExtState).store reg (pre.map forget) = .ok rs ∧
      convPlanRel (st.ext : ExtState).store reg (forget t) = .err e ∧
      BlamesTop (st.ext : ExtState).store reg t e c ∧ Names text c := by
  simp only [parsePlanAt] at h
  rw [PState.parseLoopAt_eq _ _ _ _ (Nat.le_refl _)] at h
  rcases Res.bind_err_iff.1 h with h | ⟨st, hst, h⟩
  · exfalso
    cases hr : PState.runLinesAt 1 PState.init (physLines text) <;> rw [hr] at h <;> cases h
  · have hok : PState.runLinesAt 1 PState.init (physLines text) = .ok st := by
      cases hr : PState.runLinesAt 1 PState.init (physLines text) <;> rw [hr] at hst <;> cases hst
      rfl
    obtain ⟨m, hs⟩ := PState.runLinesAt_ok (all := physLines text) hok [] rfl rfl
      ⟨(by intro x hx; cases hx), List.Pairwise.nil⟩
    simp only [buildPlanAt] at h
    rcases Res.bind_err_iff.1 h with h | ⟨x, -, h⟩
    · obtain ⟨x, hz, h⟩ := mapErr_eq_err h
      obtain ⟨e', c'⟩ := x
      cases h
      obtain ⟨pre, t, post, rs, h1, h2, h3, h4⟩ := convPlanRelsAt_err hz
      have hfrom : From text (pre ++ t :: post) := by
        rw [← h1]
        exact ⟨fun x hx => ⟨(hs.names x hx).1, (hs.names x hx).2.1⟩, hs.increasing⟩
      refine ⟨st.bare, pre, t, post, rs, ?_, ?_, hfrom, h2, h3, h4, ?_⟩
      · rw [PState.parseSections_eq]
        have := PState.runLinesAt_bare 1 PState.init (physLines text)
        rw [hok] at this
        exact this.symm
      · rw [← h1]; exact finish_bare st.tree
      · obtain ⟨x, hx, rfl⟩ := blamesTop_listed h4 0
        exact (hfrom.names x (listings_mem (by simp) x hx)).1
    · cases h

end

/-! ## Cases -/

/-- The number and the text an error shows. -/
def shownAt (r : Res (PlanErr × Ctx) Plan) : Option (Bool × Ctx) :=
  match r with
  | .err (.text _, c) => some (false, c)
  | .err (.rel _, c) => some (true, c)
  | _ => none

/-- The error of a line. -/
def lineErr (r : Res (PlanErr × Ctx) Plan) : Option (PErr × Ctx) :=
  match r with
  | .err (.text e, c) => some (e, c)
  | _ => none

theorem of_lineErr {r : Res (PlanErr × Ctx) Plan} {e : PErr} {c : Ctx} (h : lineErr r = some (e, c)) :
    r = .err (.text e, c) := by
  unfold lineErr at h
  split at h <;> cases h
  rfl

section
local instance : FTab := halfTab

/-- A line of the plan section that is no relation. -/
theorem C59_line_sample :
    parsePlanAt sampleReg cs!"=== Plan\nRoot[a]\n\n  Bogus[$0]\n    Read[t => a:i64]\n" =
      .err (.text .relationSyntax, ⟨4, cs!"Bogus[$0]"⟩) :=
  of_lineErr (by decide +kernel)

/-- A type that was not declared, in the innermost relation; nothing is shown of what follows the relation. -/
theorem C59_relation_sample :
    shownAt (parsePlanAt sampleReg cs!"=== Plan\nRoot[a]\n\n  Project[$0]\n    Read[t => a:foo] x\n") =
      some (true, ⟨5, cs!"Read[t => a:foo]"⟩) := by decide +kernel

/-- An addendum that is not allowed under its relation. -/
theorem C59_addendum_sample :
    shownAt (parsePlanAt sampleReg
      cs!"=== Plan\nRoot[a]\n  Project[$0]\n    + Ext:T[]\n    Read[t => a:i64]\n") =
      some (true, ⟨4, cs!"+ Ext:T[]"⟩) := by decide +kernel

/-- **C59 fails** for a line before the first header: the error for this text, whose third line is wrong, names
the second. -/
theorem C59_initial_line_fails : ∃ text c, parsePlanAt sampleReg text = .err (.text .initialLine, c) ∧ ¬ Names text c := by
  refine ⟨cs!"\n\n    foo\n", ⟨2, cs!"foo"⟩, of_lineErr (by decide +kernel), ?_⟩
  rintro ⟨before, f, run, after, h, hno, -, ⟨k, tail, hs⟩, -⟩
  have hp : physLines cs!"\n\n    foo\n" = [cs!"\n", cs!"\n", cs!"    foo\n"] := by decide +kernel
  rw [hp] at h
  have hlen : before.length = 1 := by simp only at hno; omega
  match before, hlen with
  | [b], _ =>
    simp only [List.cons_append, List.nil_append, List.cons.injEq] at h
    obtain ⟨-, rfl, -⟩ := h
    cases k with
    | zero => simp at hs
    | succ k => simp [List.replicate_succ] at hs

end
end Verif
