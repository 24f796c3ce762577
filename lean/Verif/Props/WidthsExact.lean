import Verif.Proofs.WidthsExact
import Verif.Props.RelConv
/-!
# C26: exactly when parser and formatter count the same columns
-/

namespace Verif
open StoreSpec RelSpec

set_option autoImplicit false

/-- C26.  For every tree the parser converts, parser and formatter count the same columns at every node exactly if every join
without an output mapping puts out as many columns as its inputs have together. -/
theorem C26_widths_agree_iff [UTab] [FTab] (st : Store) (env : Env) (hr : StableWidths env.reg) (t : RNode SLine SAddendum) (r : Rel)
    (w : Nat) (h : convNode st env.reg t = .ok (r, w)) : WidthsAgree st env t ↔ JoinsPutOutBoth env r :=
  widths_agree_iff env hr t r w h

/-- C26: in particular a join that keeps the left side only is counted alike exactly if the right side has no columns, over
inputs that are counted alike. -/
theorem C26_semi_join_iff [UTab] [FTab] (st : Store) (env : Env) (hr : StableWidths env.reg) (line : SLine) (as : List SAddendum)
    (kids : List (RNode SLine SAddendum)) (l r : Rel) (e : Option Expr) (p : Option Expr) (a : Option AdvExt) (w : Nat) (c : Option Common)
    (hc : c.bind (·.emit) = some .direct)
    (h : convNode st env.reg (.mk line as kids) = .ok (.node (.join c (.known .leftSemi) e p a) [some l, some r], w))
    (hk : WidthsAgreeAll st env kids) :
    relWidth env (.node (.join c (.known .leftSemi) e p a) [some l, some r]) = w ↔ relWidth env r = 0 := by
  have h1 := C26_widths_agree_iff st env hr _ _ _ h
  rw [WidthsAgree] at h1
  constructor
  · intro h2
    have := h1.1 ⟨fun r' w' h3 => by rw [h] at h3; cases h3; exact h2, hk⟩
    cases this with
    | node _ _ h3 _ => exact h3 _ _ _ _ _ l r rfl hc rfl
  · intro h2
    have h4 : ∀ x ∈ [l, r], JoinsPutOutBoth env x := by
      have h0 := h
      simp only [convNode, Res.bind_ok_iff] at h0
      obtain ⟨ks, hks, as', _, hl⟩ := h0
      obtain ⟨op, hx, _, _⟩ := (convLine_ok hl).shape
      have h5 := ((widths_agree_all_iff env hr kids ks hks).1 hk).2
      simp only [Rel.node.injEq] at hx
      intro x hx'
      have h6 : some x ∈ (ks.map (·.1)).map some := by
        rw [← hx.2]
        simpa using hx'
      obtain ⟨y, h7, h8⟩ := List.mem_map.1 h6
      cases h8
      obtain ⟨k, h9, rfl⟩ := List.mem_map.1 h7
      exact h5 k h9
    have := h1.2 (.node _ _ (fun c t e p a l' r' h3 _ h5 => by cases h3; cases h5; exact h2) (fun x hx => h4 x (by simpa using hx)))
    exact this.1 _ _ h

/-- The condition of `C26_widths_agree_partial` is the simpler one of the two. -/
theorem fullJoins_putOut [UTab] [FTab] {env : Env} {r : Rel} (h : FullJoins r) : JoinsPutOutBoth env r := by
  induction h with
  | node op ins h1 _ ih =>
    refine .node op ins ?_ ih
    intro c t e p a l r ho hc hi
    have := h1 _ _ _ _ _ ho hc
    cases t <;> simp_all [FullJoin, PutsOutBoth]

/-- The hypotheses are met: the tree of an inner join, whose widths agree, and that of a semi join, whose do not. -/
example : letI := asciiTab; letI := halfTab
    StableWidths {} ∧ (∃ r w, convNode .empty {} (joinTree cs!"Inner") = .ok (r, w) ∧ JoinsPutOutBoth ⟨.empty, .default, {}⟩ r) ∧
    (∃ r w, convNode .empty {} (joinTree cs!"LeftSemi") = .ok (r, w) ∧ ¬ JoinsPutOutBoth ⟨.empty, .default, {}⟩ r) := by
  letI := asciiTab; letI := halfTab
  have hs : StableWidths ({} : Registry ExtArgs (List Nat)) := fun n a d ws h => by simp [Registry.parse, hGet] at h
  refine ⟨hs, ?_, ?_⟩
  · have h : onOk (convNode .empty {} (joinTree cs!"Inner")) (fun x => isFull x.1) = true := by decide +kernel
    obtain ⟨x, h1, h2⟩ := onOk_true h
    exact ⟨x.1, x.2, h1, fullJoins_putOut (isFull_sound _ h2)⟩
  · obtain ⟨x, h1, h2⟩ := onOk_true C26_semi_join_widths_differ
    refine ⟨x.1, x.2, h1, fun h3 => ?_⟩
    have := (C26_widths_agree_iff .empty ⟨.empty, .default, {}⟩ hs _ _ _ h1).2 h3
    simp only [joinTree, WidthsAgree] at this
    have h4 := this.1 _ _ h1
    simp only [Bool.and_eq_true, beq_iff_eq] at h2
    rw [h2.1, h2.2] at h4
    cases h4

end Verif
