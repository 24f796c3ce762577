import Verif.Spec.Tree

namespace Verif
open TreeSpec
variable {ρ α : Type}

namespace TreeSpec

theorem listings_append (d : Nat) (a b : List (RNode ρ α)) :
    listings d (a ++ b) = listings d a ++ listings d b := by
  induction a with
  | nil => rfl
  | cons n ns ih => simp only [List.cons_append, listings, ih, List.append_assoc]

end TreeSpec

namespace TreeBuilder

/-- Updating a node on the right spine so that its listing grows by one line at the end makes the
whole listing grow by that line at the end. -/
theorem updateAt_listing (n : LineNode ρ α) (f : RNode ρ α → Except TreeError (RNode ρ α))
    (hf : ∀ p p', f p = .ok p' → ∀ e, listing e p' = listing e p ++ [(e + 1, n)])
    (k : Nat) (t t' : RNode ρ α) (h : updateAt k f t = some (.ok t')) (e : Nat) :
    listing e t' = listing e t ++ [(e + k + 1, n)] := by
  induction k generalizing t t' e with
  | zero =>
    cases t with
    | mk r as cs =>
      simp only [updateAt, Option.some.injEq] at h
      exact hf _ _ h e
  | succ k ih =>
    cases t with
    | mk r as cs =>
      simp only [updateAt] at h
      split at h
      · cases h
      · rename_i last hlast
        split at h
        · cases h
        · cases h
        · rename_i last' hupd
          simp only [Option.some.injEq, Except.ok.injEq] at h
          subst h
          have := ih last last' hupd (e + 1)
          have hcs : cs = cs.dropLast ++ [last] := by
            have hne : cs ≠ [] := by intro hh; rw [hh] at hlast; cases hlast
            have := List.dropLast_concat_getLast hne
            rw [List.getLast?_eq_some_getLast hne] at hlast
            simp only [Option.some.injEq] at hlast
            rw [hlast] at this; exact this.symm
          simp only [listing, listings_append, listings, List.append_nil, this]
          conv => rhs; rw [hcs]
          simp only [listings_append, listings, List.append_nil, List.append_assoc]
          have he : e + 1 + k + 1 = e + (k + 1) + 1 := by omega
          rw [he]

theorem addLine_listing (t t' : TreeBuilder ρ α) (d : Nat) (n : LineNode ρ α)
    (h : t.addLine d n = .ok t') :
    listings 0 t'.finish = listings 0 t.finish ++ [(d, n)] := by
  cases n with
  | relation r =>
    simp only [addLine] at h
    split at h
    · rename_i hd
      subst hd
      cases h
      simp [finish, listings_append, listings, listing]
    · rename_i hd
      split at h
      · cases h
      · cases h
      · rename_i c hc
        cases h
        cases hcur : t.current with
        | none => rw [hcur] at hc; cases hc
        | some cur =>
          rw [hcur] at hc
          have := updateAt_listing (.relation r) _ (by
            intro p p' hp e
            cases hp
            cases p
            simp [listing, listings_append, listings, RNode.rel, RNode.addenda, RNode.children])
            (d - 1) cur c hc 0
          simp only [finish, hcur, Option.toList, listings_append, listings, this, List.append_nil]
          have : 0 + (d - 1) + 1 = d := by omega
          rw [this]; simp
  | addendum a =>
    simp only [addLine] at h
    split at h
    · cases h
    · rename_i hd
      split at h
      · cases h
      · cases h
      · rename_i c hc
        cases h
        cases hcur : t.current with
        | none => rw [hcur] at hc; cases hc
        | some cur =>
          rw [hcur] at hc
          have := updateAt_listing (.addendum a) _ (by
            intro p p' hp e
            cases p with
            | mk r as cs =>
              cases cs with
              | nil => cases hp; simp [listing, listings, RNode.rel, RNode.addenda, RNode.children]
              | cons c cs => cases hp)
            (d - 1) cur c hc 0
          simp only [finish, hcur, Option.toList, listings_append, listings, this, List.append_nil]
          have : 0 + (d - 1) + 1 = d := by omega
          rw [this]; simp

theorem addLines_listing (lines : List (Nat × LineNode ρ α)) (t t' : TreeBuilder ρ α)
    (h : t.addLines lines = .ok t') :
    listings 0 t'.finish = listings 0 t.finish ++ lines := by
  induction lines generalizing t with
  | nil => simp only [addLines] at h; cases h; simp
  | cons l lines ih =>
    obtain ⟨d, n⟩ := l
    simp only [addLines] at h
    split at h
    · cases h
    · rename_i t1 h1
      rw [ih t1 h, addLine_listing t t1 d n h1]
      simp

/-! ### Every listing is accepted -/

theorem updateAt_push_push (k : Nat) (g : RNode ρ α → Except TreeError (RNode ρ α)) (c c' : RNode ρ α)
    (hg : g c = .ok c') (t t1 : RNode ρ α)
    (h1 : updateAt k (pushChild c) t = some (.ok t1)) :
    ∃ t2, updateAt (k + 1) g t1 = some (.ok t2) ∧ updateAt k (pushChild c') t = some (.ok t2) := by
  induction k generalizing t t1 with
  | zero =>
    cases t with
    | mk r as cs =>
      simp only [updateAt, pushChild, Option.some.injEq, Except.ok.injEq, RNode.rel, RNode.addenda,
        RNode.children] at h1
      subst h1
      refine ⟨.mk r as (cs ++ [c']), ?_, rfl⟩
      cases c
      simp [updateAt, hg]
  | succ k ih =>
    cases t with
    | mk r as cs =>
      simp only [updateAt] at h1
      split at h1
      · cases h1
      · rename_i last hlast
        split at h1
        · cases h1
        · cases h1
        · rename_i last1 hl1
          simp only [Option.some.injEq, Except.ok.injEq] at h1
          subst h1
          obtain ⟨l2, ha, hb⟩ := ih last last1 hl1
          refine ⟨.mk r as (cs.dropLast ++ [l2]), ?_, ?_⟩
          · rw [updateAt]
            simp [ha]
          · rw [updateAt]
            simp [hlast, hb]

theorem addLines_append (a b : List (Nat × LineNode ρ α)) (t t' : TreeBuilder ρ α)
    (h : t.addLines a = .ok t') : t.addLines (a ++ b) = t'.addLines b := by
  induction a generalizing t with
  | nil => cases h; rfl
  | cons l a ih =>
    obtain ⟨d, n⟩ := l
    simp only [addLines, List.cons_append] at h ⊢
    split at h
    · cases h
    · rename_i t1 h1
      exact ih t1 h

theorem addLines_addenda (k : Nat) (r : ρ) (as done : List α) (base cur : RNode ρ α)
    (comp : List (RNode ρ α))
    (h : updateAt k (pushChild (.mk r done [])) base = some (.ok cur)) :
    ∃ cur', (TreeBuilder.mk (some cur) comp).addLines (as.map (fun a => (k + 2, .addendum a))) =
      .ok ⟨some cur', comp⟩ ∧ updateAt k (pushChild (.mk r (done ++ as) [])) base = some (.ok cur') := by
  induction as generalizing done cur with
  | nil => exact ⟨cur, rfl, by simpa using h⟩
  | cons a as ih =>
    obtain ⟨c2, h2, h3⟩ := updateAt_push_push k
      (pushAddendum a)
      (.mk r done []) (.mk r (done ++ [a]) []) rfl base cur h
    obtain ⟨c3, h4, h5⟩ := ih (done ++ [a]) c2 h3
    refine ⟨c3, ?_, by simpa using h5⟩
    simp only [List.map_cons, addLines, addLine]
    rw [if_neg (by omega)]
    simp only [Option.bind_some, show k + 2 - 1 = k + 1 by omega, h2, h4]

theorem pushable (k : Nat) (c c' : RNode ρ α) (t t' : RNode ρ α)
    (h : updateAt k (pushChild c) t = some (.ok t')) :
    ∃ t2, updateAt k (pushChild c') t = some (.ok t2) := by
  obtain ⟨t2, _, h2⟩ := updateAt_push_push k (fun _ => .ok c') c c' rfl t t' h
  exact ⟨t2, h2⟩

mutual
theorem addLines_listing_child (c : RNode ρ α) (k : Nat) (cur cur' : RNode ρ α)
    (comp : List (RNode ρ α)) (h : updateAt k (pushChild c) cur = some (.ok cur')) :
    (TreeBuilder.mk (some cur) comp).addLines (listing (k + 1) c) = .ok ⟨some cur', comp⟩ := by
  match c with
  | .mk r as cs =>
    have hex : ∃ c1, updateAt k (pushChild (.mk r [] [])) cur = some (.ok c1) :=
      pushable k _ _ cur cur' h
    obtain ⟨c1, h1⟩ := hex
    obtain ⟨c2, h2, h3⟩ := addLines_addenda k r as [] cur c1 comp h1
    simp only [List.nil_append] at h3
    have h4 := addLines_listing_children cs k r as [] cur c2 cur' comp h3 (by simpa using h)
    simp only [listing, List.cons_append, addLines, addLine]
    rw [if_neg (by omega)]
    have : k + 1 - 1 = k := by omega
    rw [this]
    rw [Option.bind_some]
    rw [h1]
    simp only
    rw [addLines_append _ _ _ _ h2]
    exact h4
  termination_by (sizeOf c, 0)
theorem addLines_listing_children (cs : List (RNode ρ α)) (k : Nat) (r : ρ) (as : List α)
    (done : List (RNode ρ α)) (base cur cur' : RNode ρ α) (comp : List (RNode ρ α))
    (h : updateAt k (pushChild (.mk r as done)) base = some (.ok cur))
    (h' : updateAt k (pushChild (.mk r as (done ++ cs))) base = some (.ok cur')) :
    (TreeBuilder.mk (some cur) comp).addLines (listings (k + 2) cs) = .ok ⟨some cur', comp⟩ := by
  match cs with
  | [] =>
    simp only [List.append_nil] at h'
    rw [h] at h'
    cases h'
    rfl
  | c :: cs =>
    obtain ⟨c2, h2, h3⟩ := updateAt_push_push k (pushChild c) (.mk r as done) (.mk r as (done ++ [c])) rfl
      base cur h
    have h4 := addLines_listing_child c (k + 1) cur c2 comp h2
    have h5 := addLines_listing_children cs k r as (done ++ [c]) base c2 cur' comp h3 (by simpa using h')
    rw [listings, addLines_append _ _ _ _ h4]
    exact h5
  termination_by (sizeOf cs, 1)
end

end TreeBuilder
end Verif

namespace Verif
open TreeSpec
variable {ρ α : Type}
namespace TreeBuilder

/-- Depth of the right spine. -/
def spine : RNode ρ α → Nat
  | .mk _ _ [] => 0
  | .mk _ _ (c :: cs) => 1 + spine ((c :: cs).getLast (by simp))
  termination_by n => sizeOf n
  decreasing_by
    have := List.sizeOf_lt_of_mem (List.getLast_mem (l := c :: cs) (by simp))
    simp_wf; simp at this; omega

theorem spine_snoc (r : ρ) (as : List α) (cs : List (RNode ρ α)) (c : RNode ρ α) :
    spine (.mk r as (cs ++ [c])) = 1 + spine c := by
  cases h : cs ++ [c] with
  | nil => simp at h
  | cons x xs =>
    rw [spine]
    have : (x :: xs).getLast (by simp) = c := by
      have h2 : (x :: xs).getLast? = some c := by rw [← h]; simp
      rw [List.getLast?_eq_some_getLast (by simp)] at h2
      simpa using h2
    rw [this]

/-- `updateAt` reaches a node exactly when the spine is long enough. -/
theorem updateAt_isSome (k : Nat) (f : RNode ρ α → Except TreeError (RNode ρ α)) (t : RNode ρ α) :
    updateAt k f t = none ↔ spine t < k := by
  induction k generalizing t with
  | zero => cases t; simp [updateAt]
  | succ k ih =>
    cases t with
    | mk r as cs =>
      rcases List.eq_nil_or_concat cs with h | ⟨cs', c, h⟩
      · subst h; simp [updateAt, spine]
      · subst h
        rw [List.concat_eq_append, spine_snoc]
        simp only [updateAt, List.getLast?_append, List.getLast?_singleton]
        have hi := ih c
        simp only [Option.some_or]
        split
        · rename_i hn; simp only [true_iff]; have := hi.1 hn; omega
        · rename_i hn; simp only [reduceCtorEq, false_iff]
          have : ¬ (updateAt k f c = none) := by rw [hn]; simp
          rw [hi] at this; omega
        · rename_i hn; simp only [reduceCtorEq, false_iff]
          have : ¬ (updateAt k f c = none) := by rw [hn]; simp
          rw [hi] at this; omega

/-- The addendum update succeeds exactly at the end of the spine. -/
theorem updateAt_addendum (k : Nat) (a : α) (t : RNode ρ α) :
    (∃ t', updateAt k (pushAddendum a) t = some (.ok t')) ↔ k = spine t := by
  induction k generalizing t with
  | zero =>
    cases t with
    | mk r as cs =>
      cases cs with
      | nil => simp [updateAt, spine, RNode.children, pushAddendum]
      | cons c cs => simp [updateAt, spine, RNode.children, pushAddendum]; omega
  | succ k ih =>
    cases t with
    | mk r as cs =>
      rcases List.eq_nil_or_concat cs with h | ⟨cs', c, h⟩
      · subst h; simp [updateAt, spine]
      · subst h
        rw [List.concat_eq_append, spine_snoc]
        have hi := ih c
        rw [show (k + 1 = 1 + spine c ↔ k = spine c) by omega, ← hi]
        simp only [updateAt, List.getLast?_append, List.getLast?_singleton, Option.some_or]
        split
        · rename_i hn; simp [hn]
        · rename_i hn; simp [hn]
        · rename_i hn; simp [hn]

theorem updateAt_ok (k : Nat) (n : RNode ρ α) (t : RNode ρ α) :
    (∃ t', updateAt k (pushChild n) t = some (.ok t')) ↔ k ≤ spine t := by
  induction k generalizing t with
  | zero => cases t; simp [updateAt, pushChild]
  | succ k ih =>
    cases t with
    | mk r as cs =>
      rcases List.eq_nil_or_concat cs with h | ⟨cs', c, h⟩
      · subst h; simp [updateAt, spine]
      · subst h
        rw [List.concat_eq_append, spine_snoc]
        have hi := ih c
        rw [show (k + 1 ≤ 1 + spine c ↔ k ≤ spine c) by omega, ← hi]
        simp only [updateAt, List.getLast?_append, List.getLast?_singleton, Option.some_or]
        split
        · rename_i hn; simp [hn]
        · rename_i hn; simp [hn]
        · rename_i hn; simp [hn]

end TreeBuilder

namespace TreeSpec

theorem lastRel_append (a b : List (Nat × LineNode ρ α)) :
    lastRel (a ++ b) = (lastRel b).or (lastRel a) := by
  simp only [lastRel, List.filterMap_append, List.getLast?_append]

theorem lastRel_addenda (d : Nat) (as : List α) :
    lastRel (as.map (fun a => ((d, .addendum a) : Nat × LineNode ρ α))) = none := by
  induction as with
  | nil => rfl
  | cons a as ih => simp [lastRel]

/-- The last relation line of a listing is at the end of the right spine. -/
theorem lastRel_listing (d : Nat) (t : RNode ρ α) :
    lastRel (listing d t) = some (d + TreeBuilder.spine t) := by
  fun_induction TreeBuilder.spine t generalizing d with
  | case1 r as =>
    have : listing d (RNode.mk r as []) = [(d, .relation r)] ++ as.map (fun a => (d + 1, .addendum a)) := by
      simp [listing, listings]
    rw [this, lastRel_append, lastRel_addenda]
    simp [lastRel]
  | case2 r as c cs ih =>
    have hcs : c :: cs = (c :: cs).dropLast ++ [(c :: cs).getLast (by simp)] :=
      (List.dropLast_concat_getLast (by simp)).symm
    have : listings (d + 1) (c :: cs) = listings (d + 1) (c :: cs).dropLast ++
        listing (d + 1) ((c :: cs).getLast (by simp)) := by
      conv => lhs; rw [hcs]
      rw [listings_append]
      simp [listings]
    rw [listing, this]
    simp only [lastRel_append]
    rw [ih]
    simp; omega

end TreeSpec
end Verif
