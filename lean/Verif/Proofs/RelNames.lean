import Verif.Proofs.RelConv
import Verif.Proofs.LiteralsMore
/-!
# Keywords in relation lines
-/

namespace Verif

set_option autoImplicit false

/-- Two words differ before one of them ends, or the first is the second followed by a letter. -/
def clash : Str → Str → Bool
  | [], _ => false
  | c :: _, [] => c.isAlpha
  | c :: n, d :: x => c != d || clash n x

theorem lit_clash {n x rest : Str} (h : clash n x = true) (hr : NextNot Char.isAlpha rest) :
    lit n (x ++ rest) = none := by
  induction n generalizing x with
  | nil => cases h
  | cons c n ih =>
    cases x with
    | nil => exact lit_none_of_next hr h
    | cons d x =>
      by_cases hc : c = d
      · subst hc
        have h' : clash n x = true := by simpa [clash] using h
        simpa [lit] using ih h'
      · exact lit_ne hc

/-- The place of a word in a list of keywords, all earlier ones clashing with it. -/
def firstOf (x : Str) : List Str → Bool
  | [] => false
  | k :: ks => decide (k = x) || (clash k x && firstOf x ks)

theorem pFirst_firstOf {ks : List Str} {x rest : Str} (h : firstOf x ks = true) (hr : NextNot Char.isAlpha rest) :
    pFirst ks (x ++ rest) = some (x, rest) := by
  induction ks with
  | nil => cases h
  | cons k ks ih =>
    simp only [firstOf, Bool.or_eq_true, decide_eq_true_eq, Bool.and_eq_true] at h
    unfold pFirst
    rcases h with rfl | ⟨hc, hf⟩
    · rw [lit_append]
    · rw [lit_clash hc hr]
      exact ih hf

theorem pStarN_mem {α : Type} {sep : Str → Option Str} {p : Str → Option (α × Str)} :
    ∀ (n : Nat) (s : Str) (a : α), a ∈ (pStarN sep p n s).1 → ∃ s' r, p s' = some (a, r)
  | 0, s, a, h => by simp [pStarN] at h
  | n + 1, s, a, h => by
    unfold pStarN at h
    split at h
    · simp at h
    · split at h
      · simp at h
      · rename_i b s2 hp
        rcases List.mem_cons.mp h with rfl | h
        · exact ⟨_, _, hp⟩
        · exact pStarN_mem n _ a h

theorem pSep1_mem {α : Type} {sep : Str → Option Str} {p : Str → Option (α × Str)} {s : Str} {l : List α}
    {r : Str} (h : pSep1 sep p s = some (l, r)) (a : α) (ha : a ∈ l) : ∃ s' r', p s' = some (a, r') := by
  unfold pSep1 at h
  split at h
  · cases h
  · rename_i b s2 hp
    cases h
    rcases List.mem_cons.mp ha with rfl | h
    · exact ⟨_, _, hp⟩
    · exact pStarN_mem _ _ a h

theorem pFetchArg_names {s r : Str} {a : Str × SFetch} (h : pFetchArg s = some (a, r)) :
    a.1 = cs!"limit" ∨ a.1 = cs!"offset" := by
  simp only [pFetchArg, Option.bind_eq_bind, Option.bind_eq_some_iff] at h
  obtain ⟨⟨n, s1⟩, h1, s2, h2, ⟨v, s3⟩, h3, hh⟩ := h
  cases hh
  have := (pFirst_some h1).1
  simpa using this

theorem pFetch_names {s r : Str} {l : SLine} (h : pFetch s = some (l, r)) :
    ∃ args refs, l = .fetch args refs ∧ ∀ a ∈ args, a.1 = cs!"limit" ∨ a.1 = cs!"offset" := by
  simp only [pFetch, Option.bind_eq_bind, Option.bind_eq_some_iff] at h
  obtain ⟨s1, h1, ⟨args, s2⟩, h2, s3, h3, ⟨refs, s4⟩, h4, hh⟩ := h
  cases hh
  refine ⟨args, refs, rfl, ?_⟩
  intro a ha
  simp only [pFetchArgs, Option.or_eq_some_iff, Option.map_eq_some_iff] at h2
  rcases h2 with h2 | ⟨_, _, _, h2⟩
  · obtain ⟨s', r', hp⟩ := pSep1_mem h2 a ha
    exact pFetchArg_names hp
  · cases h2; cases ha

/-- What the alternatives of `planNode` return. -/
theorem pRelLine_cases {s r : Str} {l : SLine} (h : pRelLine s = some (l, r)) :
    pReadExt s = some (l, r) ∨ pReadVirtual s = some (l, r) ∨ pRead s = some (l, r) ∨ pFilter s = some (l, r) ∨
    pProject s = some (l, r) ∨ pAggregate s = some (l, r) ∨ pSort s = some (l, r) ∨ pFetch s = some (l, r) ∨
    pJoin s = some (l, r) ∨ pSet s = some (l, r) ∨ pCross s = some (l, r) ∨ pExtRel s = some (l, r) := by
  simp only [pRelLine, Option.or_eq_some_iff] at h
  rcases h with ((((((((((h | ⟨_, h⟩) | ⟨_, h⟩) | ⟨_, h⟩) | ⟨_, h⟩) | ⟨_, h⟩) | ⟨_, h⟩) | ⟨_, h⟩) | ⟨_, h⟩) | ⟨_, h⟩) | ⟨_, h⟩) | ⟨_, h⟩ <;>
    simp [h]

/-- Which line comes from which rule. -/
theorem pRelLine_kind {s r : Str} {l : SLine} (h : pRelLine s = some (l, r)) :
    (∀ ns, l ≠ .root ns) ∧ (∀ args refs, l = .fetch args refs → pFetch s = some (l, r)) := by
  rcases pRelLine_cases h with h | h | h | h | h | h | h | h | h | h | h | h
  · simp only [pReadExt, Option.bind_eq_bind, Option.bind_eq_some_iff] at h
    obtain ⟨_, _, _, _, hh⟩ := h; cases hh; simp
  · simp only [pReadVirtual, Option.bind_eq_bind, Option.bind_eq_some_iff] at h
    obtain ⟨_, _, _, _, _, _, _, _, _, _, _, _, hh⟩ := h; cases hh; simp
  · simp only [pRead, Option.bind_eq_bind, Option.bind_eq_some_iff] at h
    obtain ⟨_, _, _, _, _, _, _, _, hh⟩ := h; cases hh; simp
  · simp only [pFilter, Option.bind_eq_bind, Option.bind_eq_some_iff] at h
    obtain ⟨_, _, _, _, _, _, _, _, hh⟩ := h; cases hh; simp
  · simp only [pProject, Option.bind_eq_bind, Option.bind_eq_some_iff] at h
    obtain ⟨_, _, _, _, hh⟩ := h; cases hh; simp
  · simp only [pAggregate, Option.bind_eq_bind, Option.bind_eq_some_iff] at h
    obtain ⟨_, _, _, _, _, _, _, _, hh⟩ := h; cases hh; simp
  · simp only [pSort, Option.bind_eq_bind, Option.bind_eq_some_iff] at h
    obtain ⟨_, _, _, _, _, _, hh⟩ := h; cases hh; simp
  · obtain ⟨args, refs, hl, _⟩ := pFetch_names h
    subst hl
    exact ⟨by simp, fun _ _ _ => h⟩
  · simp only [pJoin, Option.bind_eq_bind, Option.bind_eq_some_iff] at h
    obtain ⟨_, _, _, _, _, _, _, _, _, _, _, _, hh⟩ := h; cases hh; simp
  · simp only [pSet, Option.bind_eq_bind, Option.bind_eq_some_iff] at h
    obtain ⟨_, _, _, _, _, _, _, _, hh⟩ := h; cases hh; simp
  · simp only [pCross, Option.bind_eq_bind, Option.bind_eq_some_iff] at h
    obtain ⟨_, _, _, _, hh⟩ := h; cases hh; simp
  · simp only [pExtRel, Option.bind_eq_bind, Option.bind_eq_some_iff] at h
    obtain ⟨_, _, _, _, _, _, _, _, _, _, hh⟩ := h; cases hh; simp

theorem nodeLine_relation {s : Str} {l : SLine} (h : nodeLine s = some (.relation l)) :
    ∃ r, pRelLine s = some (l, r) := by
  unfold nodeLine at h
  split at h
  · rename_i x hx
    cases h
    exact ⟨_, hx⟩
  · simp at h

theorem topLine_relation {s : Str} {l : SLine} (h : topLine s = some (.relation l)) :
    (∃ r, pRoot s = some (l, r)) ∨ (∃ r, pRelLine s = some (l, r)) := by
  unfold topLine at h
  split at h
  · rename_i x hx
    cases h
    exact .inl ⟨_, hx⟩
  · exact .inr (nodeLine_relation h)

theorem pRoot_root {s r : Str} {l : SLine} (h : pRoot s = some (l, r)) : ∃ ns, l = .root ns := by
  simp only [pRoot, Option.bind_eq_bind, Option.bind_eq_some_iff] at h
  obtain ⟨_, _, _, _, hh⟩ := h; cases hh; exact ⟨_, rfl⟩

end Verif
