import Verif.Proofs.Tree
/-!
# Properties C33, C34: indentation and addenda
-/

namespace Verif
open TreeSpec
variable {ρ α : Type}

/-! ## C33: the lines determine the forest -/

/-- C33.  The tree builder accepts a list of lines and answers with forest `f` exactly when the
lines are the indented listing of `f`: nothing is lost, added or reordered, and every other list
of lines is refused. -/
theorem C33_build_iff_listing (lines : List (Nat × LineNode ρ α)) (f : List (RNode ρ α)) :
    TreeBuilder.build lines = .ok f ↔ lines = listings 0 f := by
  constructor
  · intro h
    simp only [TreeBuilder.build] at h
    split at h
    · cases h
    · rename_i t ht
      cases h
      have := TreeBuilder.addLines_listing lines _ t ht
      rw [this]
      rfl
  · intro h
    subst h
    suffices ∀ (f : List (RNode ρ α)) (t : TreeBuilder ρ α),
        ∃ t', t.addLines (listings 0 f) = .ok t' ∧ t'.finish = t.finish ++ f by
      obtain ⟨t', h1, h2⟩ := this f TreeBuilder.empty
      simp only [TreeBuilder.build, h1, h2]
      rfl
    intro f
    induction f with
    | nil => intro t; exact ⟨t, rfl, by simp⟩
    | cons n f ih =>
      intro t
      cases n with
      | mk r as cs =>
        -- first line opens a new tree, then the addenda and the children follow
        have hstep : ∃ c', (TreeBuilder.mk (some (.mk r [] [])) t.finish).addLines
            (as.map (fun a => (1, .addendum a)) ++ listings 1 cs) = .ok ⟨some c', t.finish⟩ ∧
            c' = .mk r as cs := by
          have key : ∀ (as done : List α), (TreeBuilder.mk (some (.mk r done [])) t.finish).addLines
              (as.map (fun a => (1, .addendum a))) = .ok ⟨some (.mk r (done ++ as) []), t.finish⟩ := by
            intro as
            induction as with
            | nil => intro done; simp [TreeBuilder.addLines]
            | cons a as ih =>
              intro done
              have := ih (done ++ [a])
              simp only [List.map_cons, TreeBuilder.addLines, TreeBuilder.addLine]
              simp only [Nat.one_ne_zero, if_false, Option.bind_some, Nat.sub_self,
                TreeBuilder.updateAt, TreeBuilder.pushAddendum, RNode.children, RNode.rel, RNode.addenda,
                List.isEmpty_nil, if_true]
              rw [this]
              simp
          have key2 : ∀ (cs done : List (RNode ρ α)),
              (TreeBuilder.mk (some (.mk r as done)) t.finish).addLines (listings 1 cs) =
              .ok ⟨some (.mk r as (done ++ cs)), t.finish⟩ := by
            intro cs
            induction cs with
            | nil => intro done; simp [TreeBuilder.addLines, listings]
            | cons c cs ih =>
              intro done
              have h1 := TreeBuilder.addLines_listing_child c 0 (.mk r as done)
                (.mk r as (done ++ [c])) t.finish rfl
              rw [listings, TreeBuilder.addLines_append _ _ _ _ h1, ih]
              simp
          refine ⟨_, ?_, rfl⟩
          rw [TreeBuilder.addLines_append _ _ _ _ (key as [])]
          simpa using key2 cs []
        obtain ⟨c', h1, rfl⟩ := hstep
        obtain ⟨t', h2, h3⟩ := ih ⟨some (.mk r as cs), t.finish⟩
        refine ⟨t', ?_, ?_⟩
        · rw [listings, listing]
          simp only [List.cons_append, TreeBuilder.addLines, TreeBuilder.addLine, if_true]
          have : (t.completed ++ t.current.toList) = t.finish := rfl
          rw [this, Nat.zero_add, TreeBuilder.addLines_append _ _ _ _ h1]
          exact h2
        · rw [h3]
          simp [TreeBuilder.finish]

/-- C33.  Two different forests never have the same listing. -/
theorem C33_listing_injective (f g : List (RNode ρ α)) (h : listings 0 f = listings 0 g) : f = g := by
  have h1 := (C33_build_iff_listing (listings 0 f) f).2 rfl
  have h2 := (C33_build_iff_listing (listings 0 f) g).2 h
  rw [h1] at h2
  simpa using h2

/-- C33/C34.  After any accepted lines, one more line is accepted exactly when it is a top-level
relation, a relation at most one level deeper than the last relation, or an addendum one level
deeper than the last relation.  (So a relation that skips a level, an addendum at top level, an
addendum without parent and an addendum after a child are all refused.) -/
theorem C34_accepts_iff_may_follow (lines : List (Nat × LineNode ρ α)) (f : List (RNode ρ α))
    (h : TreeBuilder.build lines = .ok f) (l : Nat × LineNode ρ α) :
    (∃ g, TreeBuilder.build (lines ++ [l]) = .ok g) ↔ MayFollow lines l := by
  simp only [TreeBuilder.build] at h
  split at h
  · cases h
  rename_i t ht
  cases h
  have hlist := TreeBuilder.addLines_listing lines _ t ht
  have hlast : lastRel lines = t.current.map TreeBuilder.spine ∨ t.current = none := by
    cases hc : t.current with
    | none => right; rfl
    | some c =>
      left
      simp only [TreeBuilder.finish, hc, Option.toList, listings_append, listings, List.append_nil,
        TreeBuilder.empty, List.nil_append] at hlist
      rw [← hlist, lastRel_append, lastRel_listing]
      simp
  have hnone : t.current = none → lines = [] := by
    intro hc
    -- the first accepted line opens a tree and the builder never closes the current one
    have hkeep : ∀ (ls : List (Nat × LineNode ρ α)) (t t' : TreeBuilder ρ α), t.addLines ls = .ok t' →
        t'.current = none → ls = [] := by
      intro ls
      induction ls with
      | nil => intros; rfl
      | cons l ls ih =>
        intro t t' h hn
        obtain ⟨d, n⟩ := l
        simp only [TreeBuilder.addLines] at h
        split at h
        · cases h
        · rename_i t1 h1
          have hls := ih t1 t' h hn
          subst hls
          cases h
          exfalso
          cases n with
          | relation r =>
            simp only [TreeBuilder.addLine] at h1
            split at h1
            · cases h1; simp at hn
            · split at h1
              · cases h1
              · cases h1
              · cases h1; simp at hn
          | addendum a =>
            simp only [TreeBuilder.addLine] at h1
            split at h1
            · cases h1
            · split at h1
              · cases h1
              · cases h1
              · cases h1; simp at hn
    exact hkeep lines _ t ht hc
  have hbuild : (∃ g, TreeBuilder.build (lines ++ [l]) = .ok g) ↔ ∃ t', t.addLine l.1 l.2 = .ok t' := by
    simp only [TreeBuilder.build, TreeBuilder.addLines_append _ _ _ _ ht, TreeBuilder.addLines]
    cases t.addLine l.1 l.2 with
    | error e => simp
    | ok t' => simp
  rw [hbuild]
  obtain ⟨d, n⟩ := l
  cases n with
  | relation r =>
    simp only [TreeBuilder.addLine, MayFollow]
    by_cases hd : d = 0
    · simp [hd]
    · simp only [hd, if_false, false_or]
      cases hc : t.current with
      | none =>
        have := hnone hc
        subst this
        simp [lastRel]
      | some c =>
        have hl : lastRel lines = some (TreeBuilder.spine c) := by
          rcases hlast with h | h
          · rw [h, hc]; rfl
          · rw [h] at hc; cases hc
        simp only [hl, Option.bind_some, Option.some.injEq, exists_eq_left']
        have := TreeBuilder.updateAt_ok (d - 1) (.mk r [] []) c
        rw [show (d ≤ TreeBuilder.spine c + 1 ↔ d - 1 ≤ TreeBuilder.spine c) by omega, ← this]
        split <;> rename_i hx <;> simp [hx]
  | addendum a =>
    simp only [TreeBuilder.addLine, MayFollow]
    cases hc : t.current with
    | none =>
      have := hnone hc
      subst this
      by_cases hd : d = 0 <;> simp [lastRel, hd]
    | some c =>
      have hl : lastRel lines = some (TreeBuilder.spine c) := by
        rcases hlast with h | h
        · rw [h, hc]; rfl
        · rw [h] at hc; cases hc
      simp only [hl, Option.bind_some, Option.some.injEq, exists_eq_left']
      by_cases hd : d = 0
      · simp [hd]
      · simp only [hd, if_false]
        have := TreeBuilder.updateAt_addendum (d - 1) a c
        rw [show (d = TreeBuilder.spine c + 1 ↔ d - 1 = TreeBuilder.spine c) by omega, ← this]
        split <;> rename_i hx <;> simp [hx]

/-- C34.  Where an accepted addendum goes: it becomes the last addendum of the node that the last
relation line opened, i.e. the lines up to it are the listing of the new forest. -/
theorem C34_addendum_in_place (lines : List (Nat × LineNode ρ α)) (d : Nat) (a : α)
    (g : List (RNode ρ α)) (h : TreeBuilder.build (lines ++ [(d, .addendum a)]) = .ok g) :
    listings 0 g = lines ++ [(d, .addendum a)] :=
  ((C33_build_iff_listing _ _).1 h).symm

-- an accepted listing with two levels, an addendum, and two trees
example : TreeBuilder.build [(0, .relation 1), (1, .addendum 'a'), (1, .relation 2), (2, .relation 3),
    (1, .relation 4), (0, .relation 5)] =
    .ok [.mk 1 ['a'] [.mk 2 [] [.mk 3 [] []], .mk 4 [] []], .mk 5 [] []] :=
  (C33_build_iff_listing _ _).2 (by simp [listings, listing])

-- skipping a level, a top-level addendum and an addendum after a child are refused
example : ¬ MayFollow [(0, (LineNode.relation 1 : LineNode Nat Char))] (2, .relation 2) := by
  simp [MayFollow, lastRel]
example : ¬ MayFollow [(0, (LineNode.relation 1 : LineNode Nat Char))] (0, .addendum 'a') := by
  simp [MayFollow, lastRel]
example : ¬ MayFollow [(0, (LineNode.relation 1 : LineNode Nat Char)), (1, .relation 2)] (1, .addendum 'a') := by
  simp [MayFollow, lastRel]
example : MayFollow [(0, (LineNode.relation 1 : LineNode Nat Char)), (1, .relation 2)] (2, .addendum 'a') := by
  simp [MayFollow, lastRel]

end Verif
