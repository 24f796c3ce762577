import Verif.Proofs.Image
import Verif.Props.Silent
import Verif.Props.Reparse

/-!
C71: what the parser can ever build.
-/

set_option autoImplicit false

namespace Verif

open ImageSpec SilentSpec StoreSpec TextSpec RelSpec PlanSpec

/-! ## C71 -/

section
variable [FTab]

/-- C71: every plan that was read is complete: nothing is missing, unknown, deprecated or undeclared in it. -/
theorem C71_image (reg : Registry ExtArgs (List Nat)) (text : Str) (p : Plan) (h : parsePlan reg text = .ok p) :
    PlanImage reg p := plan_image h

omit [FTab] in
theorem opExprList_image {st : Store} {reg : Registry ExtArgs (List Nat)} {ws : List Nat} {w : Nat} {op : RelOp}
    (h : OpImage st reg ws w op) : ∀ e ∈ opExprList op, ExprImage st e := by
  intro e he
  cases op with
  | read c s f t a rest =>
    obtain ⟨-, -, -, n, -, h⟩ := h
    cases t with
    | named names rest => obtain ⟨-, -, rfl, -⟩ := h; cases he
    | virtual rows rest =>
      obtain ⟨-, h1, h2, -⟩ := h
      rcases List.mem_append.1 he with he | he
      · exact h1 e (by simpa using he)
      · obtain ⟨r, hr, he⟩ := List.mem_flatten.1 he
        exact h2 r hr e he
    | extension d => obtain ⟨rfl, -⟩ := h; cases he
    | other => exact h.elim
  | filter c x a =>
    obtain ⟨-, -, -, -, y, rfl, hy⟩ := h
    simp only [opExprList, Option.toList_some, List.mem_singleton] at he
    subst he; exact hy
  | project c es a => exact h.2.2.2.1 e he
  | aggregate c g gs ms a =>
    obtain ⟨-, -, -, ⟨-, h1, h2, -⟩, h3, -⟩ := h
    simp only [opExprList, List.mem_append] at he
    rcases he with (he | he) | he
    · exact h1 e he
    · obtain ⟨x, hx, he⟩ := List.mem_flatMap.1 he
      rw [(h2 x hx).1] at he; cases he
    · obtain ⟨m, hm, he⟩ := List.mem_filterMap.1 he
      obtain ⟨f, args, t, rfl, hi⟩ := h3 m hm
      cases he; exact hi
  | sort c fs a =>
    obtain ⟨f, hf, he⟩ := List.mem_filterMap.1 he
    obtain ⟨x, d, rfl, hx, -⟩ := h.2.2.2.2 f hf
    cases he; exact hx
  | fetch c l o a =>
    obtain ⟨-, -, -, -, h1, h2⟩ := h
    obtain ⟨x, hx, he⟩ := List.mem_filterMap.1 he
    have : ∃ y, x = .expr y ∧ ExprImage st y := by
      rcases List.mem_append.1 hx with hx | hx
      · exact h1 x (by simpa using hx)
      · exact h2 x (by simpa using hx)
    obtain ⟨y, rfl, hy⟩ := this
    cases he; exact hy
  | join c t x p a =>
    obtain ⟨-, -, -, -, -, ⟨y, rfl, hy⟩, hp⟩ := h
    rcases List.mem_append.1 he with he | he
    · simp only [Option.toList_some, List.mem_singleton] at he
      subst he; exact hy
    · exact hp e (by simpa using he)
  | set | cross | ext | other => cases he

omit [FTab] in
theorem relImage_below {st : Store} {reg : Registry ExtArgs (List Nat)} (path : List Nat) : ∀ {r : Rel} {w : Nat} {q : Rel},
    RelImage st reg r w → below path r = some q → ∃ w, RelImage st reg q w := by
  induction path with
  | nil => intro r w q h hq; cases hq; exact ⟨w, h⟩
  | cons i path ih =>
    intro r w q h hq
    cases h with
    | node op kids w hk hop =>
      simp only [below] at hq
      split at hq
      · next r' hr' =>
        rw [List.getElem?_map, Option.map_eq_some_iff] at hr'
        obtain ⟨k, hk', he⟩ := hr'
        cases he
        exact ih (hk k (List.mem_of_getElem? hk')) hq
      · cases hq

/-- C71 by position: at every place of a plan that was read there is a relation that the parser builds, with all
its inputs, and its expressions refer to functions and types that the plan declares. -/
theorem C71_everywhere (reg : Registry ExtArgs (List Nat)) (text : Str) (p : Plan) (h : parsePlan reg text = .ok p)
    (k : Nat) (path : List Nat) (op : RelOp) (ins : List (Option Rel)) (hr : relAt p k path = some (.node op ins)) :
    (∀ x ∈ ins, x ≠ none) ∧ (∃ ws w, OpImage (run (history p)) reg ws w op) ∧
    ∀ e ∈ opExprList op, ExprImage (run (history p)) e := by
  have himg : ∃ w, RelImage (run (history p)) reg (.node op ins) w := by
    have himg := (plan_image h).rels
    unfold relAt at hr
    split at hr
    · next r hk =>
      obtain ⟨w, hw⟩ := himg _ (List.mem_of_getElem? hk)
      exact relImage_below path hw hr
    · next names r hk =>
      obtain ⟨w, hw⟩ := himg _ (List.mem_of_getElem? hk)
      exact relImage_below path hw hr
    · cases hr
  obtain ⟨w, himg⟩ := himg
  cases himg with
  | node _ kids _ hk hop =>
    refine ⟨?_, ⟨_, _, hop⟩, opExprList_image hop⟩
    intro x hx
    obtain ⟨k, -, rfl⟩ := List.mem_map.1 hx
    simp

/-- C65 for plans that were read: formatting leaves nothing out of them silently. -/
theorem C65_read_kept (reg : Registry ExtArgs (List Nat)) (text : Str) (p : Plan) (h : parsePlan reg text = .ok p) :
    kept p = p := kept_image (plan_image h)

end

/-! ### Examples -/

example : letI := asciiTab; letI := halfTab; PlanImage sampleReg ReparseSample.plan :=
  letI := asciiTab; letI := halfTab
  C71_image sampleReg _ _ ReparseSample.read

/-- The call of its filter refers to a declared function. -/
example : letI := asciiTab; letI := halfTab
    ∃ n, Declared (run (history ReparseSample.plan)) .function 10 n := by
  letI := asciiTab; letI := halfTab
  have h := (C71_everywhere sampleReg _ _ ReparseSample.read 0 [] _ _ rfl).2.2 _ (List.mem_singleton.2 rfl)
  rw [ExprImage] at h
  exact h.1

/-- A plan with content that formatting leaves out is never read. -/
example (reg : Registry ExtArgs (List Nat)) (text : Str) : letI := asciiTab; letI := halfTab
    parsePlan reg text ≠ .ok ⟨none, [], [], [.rel (.node (.cross (some ⟨some .direct, 1⟩) none) [])]⟩ := by
  letI := asciiTab; letI := halfTab
  intro h
  have := congrArg Plan.rels (C65_read_kept _ _ _ h)
  simp [kept, keptTop, keptRel, keptOp, keptCommon] at this

/-- Nor is one with a deprecated limit. -/
example (reg : Registry ExtArgs (List Nat)) (text : Str) (r : Rel) (i : Int) : letI := asciiTab; letI := halfTab
    parsePlan reg text ≠ .ok ⟨none, [], [], [.rel (.node (.fetch (some ⟨some .direct, 0⟩) (some (.deprecated i)) none none) [some r])]⟩ := by
  letI := asciiTab; letI := halfTab
  intro h
  obtain ⟨-, ⟨ws, w, -, -, -, -, h, -⟩, -⟩ := C71_everywhere _ _ _ h 0 [] _ _ rfl
  obtain ⟨e, he, -⟩ := h _ rfl
  cases he

end Verif
