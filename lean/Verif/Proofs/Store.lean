import Verif.Spec.Store
import Verif.Proofs.OMap

namespace Verif
open StoreSpec

namespace Store

theorem normName_eq_legal (k : Kind) (n : Str) : normName k n = legalName k n := by
  have h : ∀ n : Str, hasUBang n = cs!"u!".isPrefixOf n := by
    intro n
    unfold hasUBang
    split
    · simp [List.isPrefixOf]
    · rename_i h
      rcases n with _ | ⟨a, _ | ⟨b, n⟩⟩ <;> simp [List.isPrefixOf]
      intro ha hb; subst ha; subst hb; exact h n rfl
  have h2 : ∀ n : Str, stripUBang n = if cs!"u!".isPrefixOf n then n.drop 2 else n := by
    intro n
    unfold stripUBang
    split
    · simp [List.isPrefixOf]
    · rename_i h
      rcases n with _ | ⟨a, _ | ⟨b, n⟩⟩ <;> simp [List.isPrefixOf]
      intro ha hb; subst ha; subst hb; exact absurd rfl (h n)
  cases k
  · simp [normName, legalName, h]
  · simp [normName, legalName, h2]
  · simp [normName, legalName, h]

/-- Both maps are in key order. -/
def Ordered (s : Store) : Prop := OMap.Sorted s.urns ∧ OMap.Sorted s.exts

theorem ordered_empty : Ordered empty := by simp [Ordered, empty, OMap.Sorted]

theorem ordered_addUrn {s : Store} (h : s.Ordered) (n : Str) (a : Nat) :
    (s.addUrn n a).1.Ordered := by
  unfold addUrn
  split
  · exact h
  · exact ⟨OMap.sorted_insertNew h.1, h.2⟩

theorem ordered_addExt {s : Store} (h : s.Ordered) (k : Kind) (u a : Nat) (n : Str) :
    (s.addExt k u a n).1.Ordered := by
  unfold addExt
  split
  · exact h
  · dsimp only
    split
    · exact h
    · exact ⟨h.1, OMap.sorted_insertNew h.2⟩

theorem ordered_exec {s : Store} (h : s.Ordered) (op : Op) : (exec s op).1.Ordered := by
  cases op with
  | urn n a => exact ordered_addUrn h n a
  | ext k u a n => exact ordered_addExt h k u a n
  | unmapped => exact h

theorem run_snoc (h : List Op) (op : Op) : run (h ++ [op]) = (exec (run h) op).1 := by
  simp [run, List.foldl_append]

theorem ordered_run (h : List Op) : (run h).Ordered := by
  unfold run
  suffices ∀ s : Store, s.Ordered → (h.foldl (fun s op => (exec s op).1) s).Ordered from
    this _ ordered_empty
  induction h with
  | nil => intro s hs; exact hs
  | cons op h ih => intro s hs; exact ih _ (ordered_exec hs op)

theorem rank_pair_eq {a b : Nat} {k l : Kind} :
    Key.rank (a, k) = Key.rank (b, l) ↔ a = b ∧ k = l := by
  constructor
  · intro h; have := Key.inj _ _ h; exact Prod.mk.inj this
  · rintro ⟨rfl, rfl⟩; rfl

theorem rank_nat (a : Nat) : Key.rank a = a := rfl

/-- Replay from the front agrees with the specification, for a store that agrees with a past. -/
theorem run_spec (h : List Op) :
    (∀ a, (run h).urns.find? a = firstUrn h a) ∧
    (∀ a k, (run h).exts.find? (a, k) = firstExt h a k) := by
  induction hl : h.length generalizing h with
  | zero =>
    have : h = [] := List.eq_nil_of_length_eq_zero hl
    subst this
    exact ⟨fun _ => rfl, fun _ _ => rfl⟩
  | succ n ih =>
    obtain ⟨h', op, rfl⟩ : ∃ h' op, h = h' ++ [op] := by
      refine ⟨h.dropLast, h.getLast (by intro hn; subst hn; simp at hl), ?_⟩
      exact (List.dropLast_concat_getLast _).symm
    have hl' : h'.length = n := by simpa using hl
    obtain ⟨ihu, ihe⟩ := ih h' hl'
    have hord := ordered_run h'
    rw [run_snoc]
    have hfu : ∀ a, firstUrn (h' ++ [op]) a = (firstUrn h' a).or
        (firstUrn [op] a) := by
      intro a; simp only [firstUrn, List.findSome?_append]
    have hfe : ∀ a k, firstExt (h' ++ [op]) a k = (firstExt h' a k).or
        (firstExt [op] a k) := by
      intro a k; simp only [firstExt, List.findSome?_append]
    cases op with
    | unmapped =>
      constructor
      · intro a; rw [hfu]; simp [exec, ihu, firstUrn]
      · intro a k; rw [hfe]; simp [exec, ihe, firstExt]
    | urn nm b =>
      constructor
      · intro a
        rw [hfu]
        simp only [exec, addUrn]
        have hu : firstUrn [Op.urn nm b] a = if b = a then some nm else none := by
          by_cases h : b = a <;> simp [firstUrn, h]
        rw [hu, ← ihu a]
        cases hb : (run h').urns.find? b with
        | some prev =>
          dsimp only
          by_cases hba : b = a
          · subst hba; rw [hb]; rfl
          · cases (run h').urns.find? a <;> simp [hba]
        | none =>
          dsimp only
          rw [OMap.find?_insertNew hord.1]
          simp only [rank_nat]
          cases (run h').urns.find? a <;> rfl
      · intro a k
        rw [hfe]
        have hu : firstExt [Op.urn nm b] a k = none := by simp [firstExt]
        rw [hu]
        simp only [exec, addUrn]
        cases hb : (run h').urns.find? b <;> simp [ihe]
    | ext k' u b nm =>
      constructor
      · intro a
        rw [hfu]
        have hu : firstUrn [Op.ext k' u b nm] a = none := by simp [firstUrn]
        rw [hu]
        simp only [exec, addExt]
        split
        · simp [ihu]
        · split <;> simp [ihu]
      · intro a k
        rw [hfe]
        have hu : firstExt [Op.ext k' u b nm] a k =
            if b = a ∧ k' = k then (legalName k nm).map (u, ·) else none := by
          by_cases h : b = a ∧ k' = k <;> simp [firstExt, h]
        rw [hu, ← ihe a k]
        simp only [exec, addExt, normName_eq_legal]
        cases hl : legalName k' nm with
        | none =>
          by_cases hba : b = a ∧ k' = k
          · obtain ⟨rfl, rfl⟩ := hba
            rw [hl]; cases OMap.find? (run h').exts (b, k') <;> simp
          · cases OMap.find? (run h').exts (a, k) <;> simp [hba]
        | some nm' =>
          dsimp only
          cases hb : OMap.find? (run h').exts (b, k') with
          | some p =>
            obtain ⟨pu, prev⟩ := p
            dsimp only
            by_cases hba : b = a ∧ k' = k
            · obtain ⟨rfl, rfl⟩ := hba; rw [hb]; rfl
            · cases OMap.find? (run h').exts (a, k) <;> simp [hba]
          | none =>
            dsimp only
            rw [OMap.find?_insertNew hord.2]
            simp only [rank_pair_eq]
            cases OMap.find? (run h').exts (a, k) with
            | some _ => rfl
            | none =>
              by_cases hba : b = a ∧ k' = k
              · obtain ⟨rfl, rfl⟩ := hba; simp [hl]
              · simp [hba]

theorem exec_answer (h : List Op) (op : Op) : (exec (run h) op).2 = answer h op := by
  obtain ⟨hu, he⟩ := run_spec h
  cases op with
  | unmapped => rfl
  | urn n a =>
    simp only [exec, addUrn, answer, ← hu a]
    cases OMap.find? (run h).urns a <;> rfl
  | ext k u a n =>
    simp only [exec, addExt, answer, normName_eq_legal]
    cases hl : legalName k n with
    | none => rfl
    | some n' =>
      dsimp only
      rw [← he a k, ← hu u]
      cases OMap.find? (run h).exts (a, k) <;> cases OMap.find? (run h).urns u <;> rfl

theorem loadUrns_spec (past : List Op) (us : List (Nat × Str)) :
    loadUrns (run past) us =
      (run (past ++ us.map fun p => Op.urn p.2 p.1), answers past (us.map fun p => Op.urn p.2 p.1)) := by
  induction us generalizing past with
  | nil => simp [loadUrns, answers]
  | cons p us ih =>
    obtain ⟨a, u⟩ := p
    have h1 : (run past).addUrn u a = exec (run past) (.urn u a) := rfl
    simp only [loadUrns, h1, ← run_snoc, exec_answer, ih, List.map_cons, answers]
    simp

/-- How a declaration is executed. -/
def declOp : Decl → Op
  | none => .unmapped
  | some (k, u, a, n) => .ext k u a n

theorem loadDecls_spec (past : List Op) (ds : List Decl) :
    loadDecls (run past) ds = (run (past ++ ds.map declOp), answers past (ds.map declOp)) := by
  induction ds generalizing past with
  | nil => simp [loadDecls, answers]
  | cons d ds ih =>
    match d with
    | none =>
      have h1 : run past = run (past ++ [Op.unmapped]) := by rw [run_snoc]; rfl
      simp only [loadDecls, List.map_cons, answers, declOp, answer]
      have h2 := ih (past ++ [Op.unmapped])
      rw [← h1] at h2
      rw [h2]
      simp
    | some (k, u, a, n) =>
      have h1 : (run past).addExt k u a n = exec (run past) (.ext k u a n) := rfl
      simp only [loadDecls, h1, ← run_snoc, exec_answer, ih, List.map_cons, answers, declOp]
      simp

theorem answers_append (past l l' : List Op) :
    answers past (l ++ l') = answers past l ++ answers (past ++ l) l' := by
  induction l generalizing past with
  | nil => simp [answers]
  | cons op l ih => simp [answers, ih, List.append_assoc]

theorem planOps_eq (us : List (Nat × Str)) (ds : List Decl) :
    planOps us ds = us.map (fun p => Op.urn p.2 p.1) ++ ds.map declOp := by
  unfold planOps
  congr 1

theorem fromExtensions_spec (us : List (Nat × Str)) (ds : List Decl) :
    fromExtensions us ds = (run (planOps us ds), answers [] (planOps us ds)) := by
  have h0 : empty = run [] := rfl
  simp only [fromExtensions, h0, loadUrns_spec, loadDecls_spec, planOps_eq, answers_append,
    List.nil_append]

end Store
end Verif
