import Verif.Spec.WidthsExact
import Verif.Proofs.RelConv
/-!
# When parser and formatter count the same columns
-/

namespace Verif
open RelSpec

set_option autoImplicit false

theorem joinWidth_iff (t : JoinType) (l r : Nat) : joinWidth t l r = l + r ↔ PutsOutBoth t l r := by
  cases t <;> simp only [joinWidth, PutsOutBoth, iff_true] <;> omega

theorem makeEmit_direct_length {m : List Int} {n : Nat} (h : makeEmit m n = .direct) : m.length = n := by
  unfold makeEmit at h
  split at h
  · next h1 => exact h1.1
  · cases h

/-- One node, over inputs whose widths agree. -/
theorem LineOk.width_iff [UTab] [FTab] {st : Store} {as : List Addendum}
    {kids : List (Rel × Nat)} {line : SLine} {op : RelOp} {ins : List (Option Rel)} {w : Nat} (env : Env)
    (hreg : StableWidths env.reg) (h : LineOk st env.reg as kids line (.node op ins, w))
    (hk : ∀ k ∈ kids, relWidth env k.1 = k.2) :
    (relHead env ((kids.map (·.2)).map some) op).emitted = w ↔
      ∀ c t e p a l r, op = .join c (.known t) e p a → c.bind (·.emit) = some .direct → ins = [some l, some r] →
        PutsOutBoth t (relWidth env l) (relWidth env r) := by
  by_cases hjd : ∃ c t e p a, op = .join c t e p a ∧ c.bind (·.emit) = some .direct
  · obtain ⟨c, t, e, p, a, rfl, hd⟩ := hjd
    cases h with
    | body _ adv _ _ hb =>
      generalize hks : kids.map (·.1) = ks at hb
      cases hb with
      | join ty cond post refs l0 r0 t e p m h1 h2 h3 h4 =>
        match kids, hks, hk with
        | [(l, x), (r, y)], hks, hk =>
          cases hks
          have hx : relWidth env l = x := hk (l, x) (by simp)
          have hy : relWidth env r = y := hk (r, y) (by simp)
          have hm : makeEmit m (List.map (·.2) [(l, x), (r, y)]).sum = .direct := by simpa [mkCommon] using hd
          have hlen := makeEmit_direct_length hm
          have he : (relHead env ((List.map (·.2) [(l, x), (r, y)]).map some)
              (.join (mkCommon (makeEmit m (List.map (·.2) [(l, x), (r, y)]).sum)) (.known t) (some e) p a)).emitted = joinWidth t x y := by
            rw [hm]
            simp [relHead, Head.emitted, getEmit, mkCommon, length_references, EnumVal.joinType, widthAt]
          rw [he, hlen]
          simp only [List.map_cons, List.map_nil, List.sum_cons, List.sum_nil, Nat.add_zero]
          rw [joinWidth_iff]
          constructor
          · intro h5 c' t' e' p' a' l' r' h6 h7 h8
            cases h6
            cases h8
            rw [hx, hy]
            exact h5
          · intro h5
            have := h5 _ _ _ _ _ l r rfl hd rfl
            rwa [hx, hy] at this
  · constructor
    · intro _ c t e p a l r h1 h2
      exact absurd ⟨c, _, e, p, a, h1, h2⟩ hjd
    · intro _
      exact h.width env hreg fun c t e p a h1 h2 => absurd ⟨c, t, e, p, a, h1, h2⟩ hjd

mutual
theorem widths_agree_iff [UTab] [FTab] {st : Store} (env : Env) (hreg : StableWidths env.reg) :
    ∀ (t : RNode SLine SAddendum) (r : Rel) (w : Nat), convNode st env.reg t = .ok (r, w) →
      (WidthsAgree st env t ↔ JoinsPutOutBoth env r)
  | .mk line as kids, r, w, h => by
    have h0 := h
    simp only [convNode, Res.bind_ok_iff] at h
    obtain ⟨ks, hks, as', _, hl⟩ := h
    have hl := convLine_ok hl
    obtain ⟨op, hx, _, _⟩ := hl.shape
    simp only at hx
    subst hx
    have ih := widths_agree_all_iff env hreg kids ks hks
    rw [WidthsAgree, ih]
    constructor
    · rintro ⟨h1, h2, h3⟩
      refine .node _ _ ?_ ?_
      · refine (hl.width_iff env hreg h2).1 ?_
        have := h1 _ _ h0
        simpa only [relWidth, inputWidths_some env ks h2] using this
      · intro r hr
        obtain ⟨x, hx, hxr⟩ := List.mem_map.1 hr
        cases hxr
        obtain ⟨k, hk, rfl⟩ := List.mem_map.1 hx
        exact h3 k hk
    · intro h1
      cases h1 with
      | node _ _ h1 h2 =>
        have h3 : ∀ k ∈ ks, JoinsPutOutBoth env k.1 := fun k hk => h2 k.1 (List.mem_map_of_mem (List.mem_map_of_mem hk))
        have h4 := widths_of_joins env hreg kids ks hks h3
        refine ⟨?_, h4, h3⟩
        intro r' w' h5
        rw [h0] at h5
        cases h5
        simp only [relWidth, inputWidths_some env ks h4]
        exact (hl.width_iff env hreg h4).2 h1
theorem widths_agree_all_iff [UTab] [FTab] {st : Store} (env : Env) (hreg : StableWidths env.reg) :
    ∀ (l : List (RNode SLine SAddendum)) (m : List (Rel × Nat)), convKids st env.reg l = .ok m →
      (WidthsAgreeAll st env l ↔ (∀ k ∈ m, relWidth env k.1 = k.2) ∧ ∀ k ∈ m, JoinsPutOutBoth env k.1)
  | [], m, h => by cases h; simp [WidthsAgreeAll]
  | k :: l, m, h => by
    simp only [convKids, Res.bind_ok_iff] at h
    obtain ⟨⟨r, w⟩, hx, m', hm, hh⟩ := h
    cases hh
    have h1 := widths_agree_iff env hreg k r w hx
    have h2 := widths_agree_all_iff env hreg l m' hm
    simp only [WidthsAgreeAll, List.mem_cons, forall_eq_or_imp, h1, h2]
    constructor
    · rintro ⟨a, b, c⟩
      have : relWidth env r = w := by
        have := h1.2 a
        cases k
        rw [WidthsAgree] at this
        exact this.1 _ _ hx
      exact ⟨⟨this, b⟩, a, c⟩
    · rintro ⟨⟨-, b⟩, a, c⟩
      exact ⟨a, b, c⟩
theorem widths_of_joins [UTab] [FTab] {st : Store} (env : Env) (hreg : StableWidths env.reg) :
    ∀ (l : List (RNode SLine SAddendum)) (m : List (Rel × Nat)), convKids st env.reg l = .ok m →
      (∀ k ∈ m, JoinsPutOutBoth env k.1) → ∀ k ∈ m, relWidth env k.1 = k.2
  | [], m, h, _ => by cases h; simp
  | k :: l, m, h, hj => by
    simp only [convKids, Res.bind_ok_iff] at h
    obtain ⟨⟨r, w⟩, hx, m', hm, hh⟩ := h
    cases hh
    simp only [List.mem_cons, forall_eq_or_imp] at hj ⊢
    refine ⟨?_, widths_of_joins env hreg l m' hm hj.2⟩
    have := (widths_agree_iff env hreg k r w hx).2 hj.1
    cases k
    rw [WidthsAgree] at this
    exact this.1 _ _ hx
end

end Verif
