import Verif.Spec.Parts
import Verif.Proofs.PlanExact
/-!
# Parts of trees that survive
-/

namespace Verif
open StoreSpec TextSpec RelSpec RawSpec

set_option autoImplicit false

section
variable [UTab] [FTab] {env : Env}

theorem survives_node {op : RelOp} {ins : List (Option Rel)} (h : SurvivesTree env (.node op ins)) :
    ∃ inputs : List Rel, ins = inputs.map some ∧ SurvivesLine env.st env.o (inputs.map (width env.reg)) op ∧
      ∀ r ∈ inputs, SurvivesTree env r := by
  generalize hx : Rel.node op ins = x at h
  cases h with
  | node op2 inputs h1 h2 =>
    simp only [Rel.node.injEq] at hx
    obtain ⟨rfl, rfl⟩ := hx
    exact ⟨inputs, rfl, h1, h2⟩

theorem survives_part {s r : Rel} (hp : PartOf s r) (h : SurvivesTree env r) : SurvivesTree env s := by
  induction hp with
  | here => exact h
  | inside op ins r hm _ ih =>
    obtain ⟨inputs, rfl, -, h2⟩ := survives_node h
    obtain ⟨x, hx, he⟩ := List.mem_map.1 hm
    cases he
    exact ih (h2 _ hx)

theorem survivesTop_part {s : Rel} {r : PlanRel} (hp : PartOfTop s r) (h : SurvivesTop env r) : SurvivesTop env (.rel s) := by
  cases r with
  | rel r => exact survives_part hp h
  | root names r =>
    cases r with
    | none => exact hp.elim
    | some r => exact survives_part hp h.2
  | missing => exact hp.elim

theorem survives_swap {s s' r r' : Rel} (hw : width env.reg s' = width env.reg s) (hs : SurvivesTree env s') (hp : Swapped s s' r r')
    (h : SurvivesTree env r) : SurvivesTree env r' ∧ width env.reg r' = width env.reg r := by
  induction hp with
  | here => exact ⟨hs, hw⟩
  | inside op before after r r' _ ih =>
    obtain ⟨inputs, he, h1, h2⟩ := survives_node h
    obtain ⟨l1, l2, rfl, rfl, h3⟩ := List.map_eq_append_iff.1 he.symm
    obtain ⟨a, l3, rfl, ha, rfl⟩ := List.map_eq_cons_iff.1 h3
    cases ha
    obtain ⟨h4, h5⟩ := ih (h2 _ (by simp))
    have hl : (l1 ++ r' :: l3).map (width env.reg) = (l1 ++ r :: l3).map (width env.reg) := by
      simp [h5]
    have hm : ∀ l : List Rel, widths env.reg (l.map some) = l.map (width env.reg) := by
      intro l
      induction l with
      | nil => rfl
      | cons a l ih => simp [widths, ih]
    have key : SurvivesTree env (.node op ((l1 ++ r' :: l3).map some)) := by
      refine .node _ _ (by rw [hl]; exact h1) ?_
      intro x hx
      rcases List.mem_append.1 hx with hx | hx
      · exact h2 x (by simp [hx])
      · rcases List.mem_cons.1 hx with rfl | hx
        · exact h4
        · exact h2 x (by simp [hx])
    refine ⟨by simpa using key, ?_⟩
    have e1 : ∀ x, l1.map some ++ some x :: l3.map some = (l1 ++ x :: l3).map some := by simp
    rw [e1, e1, width, width, hm, hm, hl]

theorem survivesTop_swap {s s' : Rel} {r r' : PlanRel} (hw : width env.reg s' = width env.reg s) (hs : SurvivesTree env s')
    (hp : SwappedTop s s' r r') (h : SurvivesTop env r) : SurvivesTop env r' := by
  cases hp with
  | rel r r' hp => exact (survives_swap hw hs hp h).1
  | root names r r' hp => exact ⟨h.1, (survives_swap hw hs hp h.2).1⟩

end

theorem partOf_swapped {s s' r r' : Rel} (hp : Swapped s s' r r') : PartOf s' r' := by
  induction hp with
  | here => exact .here
  | inside op before after r r' _ ih => exact .inside _ _ r' (by simp) ih

theorem partOfTop_swapped {s s' : Rel} {r r' : PlanRel} (hp : SwappedTop s s' r r') : PartOfTop s' r' := by
  cases hp with
  | rel r r' hp => exact partOf_swapped hp
  | root names r r' hp => exact partOf_swapped hp

theorem described_part {reg : Registry ExtArgs (List Nat)} {s r : Rel} (hp : PartOf s r) (h : DescribedTree reg r) :
    DescribedTree reg s := by
  induction hp with
  | here => exact h
  | inside op ins r hm _ ih =>
    cases h with
    | node _ _ _ _ h => exact ih (h _ hm)

theorem describedTop_part {reg : Registry ExtArgs (List Nat)} {s : Rel} {r : PlanRel} (hp : PartOfTop s r) (h : DescribedTop reg r) :
    DescribedTree reg s := by
  cases r with
  | rel r => exact described_part hp h
  | root names r =>
    cases r with
    | none => exact hp.elim
    | some r => exact described_part hp h
  | missing => exact hp.elim

theorem relRaw_part [UTab] [FTab] {env : Env} {s r : Rel} (hp : PartOf s r) : ∀ x ∈ relRaw env s, x ∈ relRaw env r := by
  induction hp with
  | here => exact fun _ h => h
  | inside op ins r hm _ ih =>
    intro x hx
    rw [relRaw]
    exact List.mem_append_right _ (relsRaw_mem env hm x (ih x hx))

theorem topRaw_part [UTab] [FTab] {env : Env} {s : Rel} {r : PlanRel} (hp : PartOfTop s r) : ∀ x ∈ relRaw env s, x ∈ topRaw env r := by
  cases r with
  | rel r => exact relRaw_part hp
  | root names r =>
    cases r with
    | none => exact hp.elim
    | some r => exact relRaw_part hp
  | missing => exact hp.elim

theorem planRaw_part [UTab] [FTab] {reg : Registry ExtArgs (List Nat)} {o : Opts} {p : Plan} {r : PlanRel} (hm : r ∈ p.rels) {s : Rel}
    (hp : PartOfTop s r) : ∀ x ∈ planRaw reg o { p with rels := [.rel s] }, x ∈ planRaw reg o p := by
  intro x h
  unfold planRaw at h ⊢
  simp only [List.mem_append, List.flatMap_cons, List.flatMap_nil, List.append_nil] at h ⊢
  rcases h with h | h
  · exact Or.inl h
  · exact Or.inr (List.mem_flatMap.2 ⟨r, hm, topRaw_part hp x h⟩)

end Verif
