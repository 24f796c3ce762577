import Verif.Proofs.PlanText
/-!
# Lines that may not be read

Like `Blocks`, but without the assumption that the lines are read.
-/

namespace Verif
open ChunkSpec SectionSpec TreeSpec

set_option autoImplicit false

/-- A line at depth `d`. -/
abbrev lineAt (d : Nat) (b : Str) : Str := List.replicate (2 * d) ' ' ++ b

/-- What a plan line at depth `d` looks like without its indentation; the lines below it, if any, continue it. -/
structure LineBody (d : Nat) (b : Str) : Prop where
  lines : ∃ (c : Char) (s : Str) (more : List Str), lineAt d b = joinNl ((List.replicate (2 * d) ' ' ++ c :: s) :: more) ∧
    isWs c = false ∧ c ≠ '-' ∧ c ≠ '=' ∧ Flat (c :: s) ∧ (∀ l ∈ more, Flat l ∧ DashUnder d l)
  clean : ∃ s c, b = s ++ [c] ∧ isWs c = false

theorem LineBody.block {L : Lang} {d : Nat} {b : Str} (h : LineBody d b) (he : ∃ s, b = s ++ [']']) {n : LineNode L.Rel L.Add}
    (hn : (if d = 0 then L.top b else L.node b) = some n) : IsBlock L d n (lineAt d b) := by
  obtain ⟨s', hs'⟩ := he
  refine ⟨h.lines, ⟨List.replicate (2 * d) ' ' ++ s', ?_⟩, _, rfl, hn⟩
  rw [lineAt, hs', List.append_assoc]

theorem LineBody.noDash {d : Nat} {b : Str} (h : LineBody d b) (r : Str) : NoDash (lineAt d b ++ r) := by
  obtain ⟨⟨c, s, more, ht, h1, h2, -⟩, -⟩ := h
  have : ∃ x, lineAt d b = List.replicate (2 * d) ' ' ++ c :: x := by
    rw [ht]
    cases more with
    | nil => exact ⟨s, rfl⟩
    | cons y l => exact ⟨s ++ '\n' :: joinNl (y :: l), by rw [joinNl_cons _ _ (by simp)]; simp⟩
  obtain ⟨x, hx⟩ := this
  rw [hx, List.append_assoc, List.cons_append]
  exact noDash_spaces _ _ (by rintro rfl; exact absurd h1 (by decide)) h2

/-- Such a line is parsed on its own. -/
theorem LineBody.run {L : Lang} {d : Nat} {b : Str} (h : LineBody d b)
    {rest : Str} (hr : NoDash rest) {st : PState L} (hs : st.sec = .plan) :
    PState.runLines st (physLines (lineAt d b ++ '\n' :: rest)) =
      match st.planLine ⟨d, b⟩ with
      | .err e => .err e
      | .panic => .panic
      | .ok st' => PState.runLines st' (physLines rest) := by
  obtain ⟨⟨c, s, more, ht, hc, -, he, hf, hm⟩, s0, z, hs0, hz⟩ := h
  have hs' : lineAt d b = (List.replicate (2 * d) ' ' ++ s0) ++ [z] := by rw [lineAt, hs0, List.append_assoc]
  generalize hs1 : List.replicate (2 * d) ' ' ++ s0 = s' at hs'
  have hb : lineAt d b = List.replicate (2 * d) ' ' ++ b := rfl
  generalize lineAt d b = t at *
  generalize hbb : b = body at *
  have hflat : Flat (List.replicate (2 * d) ' ' ++ c :: s) := by
    rw [flat_append]
    refine ⟨?_, hf⟩
    intro hx
    exact absurd (List.mem_replicate.1 hx).2 (by decide)
  have hdepth : depthOf (List.replicate (2 * d) ' ' ++ c :: s ++ ['\n']) = d := by
    have := congrArg Indented.depth (indentedLine_at d (s ++ ['\n']) hc)
    simpa [indentedLine, depthOf] using this
  have hcont : ∀ x ∈ more.map (· ++ ['\n']), PState.continues st.sec (List.replicate (2 * d) ' ' ++ c :: s ++ ['\n']) x = true := by
    intro x hx
    obtain ⟨l, hl, rfl⟩ := List.mem_map.1 hx
    rw [hs, PState.continues_iff, hdepth]
    exact dashUnder_nl (hm l hl).2
  have hsplit := takeWhile_append_stop (PState.continues st.sec (List.replicate (2 * d) ' ' ++ c :: s ++ ['\n']))
    (more.map (· ++ ['\n'])) (physLines rest) hcont (PState.not_continues _ _ hr)
  have hbody : body = c :: (t.drop (2 * d + 1)) := by
    have h1 : ∃ r, t = List.replicate (2 * d) ' ' ++ c :: r := by
      rw [ht]
      cases more with
      | nil => exact ⟨s, rfl⟩
      | cons b l => exact ⟨s ++ '\n' :: joinNl (b :: l), by rw [joinNl_cons _ _ (by simp)]; simp⟩
    obtain ⟨r, hr'⟩ := h1
    have h2 : body = c :: r := List.append_cancel_left (hb.symm.trans hr')
    rw [h2, hr', ← List.drop_drop, List.drop_append_of_le_length (by simp)]
    simp
  have hclean : trimEnd t = t := by
    apply trimEnd_clean
    intro x hx
    rw [hs'] at hx
    simp at hx
    subst hx
    exact hz
  have hind : indentedLine (t ++ ['\n']) = ⟨d, body⟩ := by
    rw [← indentedLine_trimEnd, trimEnd_append_ws _ _ (by intro x hx; simp at hx; subst hx; decide), hclean]
    have := indentedLine_at d (t.drop (2 * d + 1)) hc
    rw [← hbody, ← hb] at this
    rw [this]
    congr 1
    by_cases hne : trimEnd body = []
    · exfalso
      rw [trimEnd_eq_nil_iff] at hne
      rw [hne c (by rw [hbody]; simp)] at hc
      cases hc
    · have h3 := trimEnd_append_ne (List.replicate (2 * d) ' ') body hne
      rw [← hb, hclean] at h3
      exact List.append_cancel_left (h3.symm.trans hb)
  rw [ht, physLines_joinNl _ _ _ hflat fun x hx => (hm x hx).1, List.map_cons, List.cons_append, PState.runLines, hsplit.1,
    hsplit.2]
  have hjoin : trimNl ((List.replicate (2 * d) ' ' ++ c :: s ++ ['\n']) :: more.map (· ++ ['\n'])).flatten =
      trimNl (t ++ ['\n']) := by
    rw [ht]
    have := flatten_nl (List.replicate (2 * d) ' ' ++ c :: s) more
    rw [List.map_cons] at this
    rw [this]
  simp only [hjoin]
  rw [if_neg, PState.parseLine_trimNl]
  · have hp : st.parseLine (t ++ ['\n']) = st.planLine ⟨d, body⟩ := by
      unfold PState.parseLine
      rw [hind]
      simp only
      rw [if_neg, hs]
      rintro ⟨-, h4⟩
      rw [hbody] at h4
      simp [stripPrefix, Ne.symm he] at h4
    rw [hp]
    cases st.planLine ⟨d, body⟩ <;> rfl
  · rw [trim_isEmpty_iff, trimEnd_trimNl, trimEnd_append_ws _ _ (by intro x hx; simp at hx; subst hx; decide), hclean,
      hs']
    simp

/-- Lines one below the other, possibly with empty lines between them. -/
inductive Listed : Str → List (Nat × Str) → Prop where
  | one {d : Nat} {b : Str} : LineBody d b → Listed (lineAt d b) [(d, b)]
  | cons {d : Nat} {b s : Str} {es : List (Nat × Str)} : LineBody d b → Listed s es →
      Listed (lineAt d b ++ '\n' :: s) ((d, b) :: es)
  | skip {s : Str} {es : List (Nat × Str)} : Listed s es → Listed ('\n' :: s) es

namespace Listed

theorem to {s s' : Str} {es es' : List (Nat × Str)} (h : Listed s es) (hs : s = s') (he : es = es') : Listed s' es' := by
  subst hs he
  exact h

theorem append {s s' : Str} {es es' : List (Nat × Str)} (h : Listed s es) (h' : Listed s' es') :
    Listed (s ++ '\n' :: s') (es ++ es') := by
  induction h with
  | one h => exact .cons h h'
  | cons h _ ih => rw [List.append_assoc]; exact .cons h ih
  | skip _ ih => exact .skip ih

theorem noDash {s : Str} {es : List (Nat × Str)} (h : Listed s es) (r : Str) : NoDash (s ++ r) := by
  cases h with
  | one h => exact h.noDash _
  | cons h _ => rw [List.append_assoc]; exact h.noDash _
  | skip _ => exact noDash_nl _

/-- If the parser gets through the lines, every one of them is read. -/
theorem read {L : Lang} {s : Str} {es : List (Nat × Str)} (h : Listed s es) {rest : Str} (hr : NoDash rest) {st : PState L}
    (hs : st.sec = .plan) {st' : PState L} (ho : PState.runLines st (physLines (s ++ '\n' :: rest)) = .ok st') :
    ∀ e ∈ es, (if e.1 = 0 then L.top e.2 else L.node e.2) ≠ none := by
  induction h generalizing st with
  | @one d b h =>
    intro e he hn
    rw [List.mem_singleton] at he
    subst he
    rw [h.run hr hs, PState.planLine] at ho
    simp only at hn
    simp only [hn] at ho
    cases ho
  | @cons d b s es h h2 ih =>
    rw [List.append_assoc, List.cons_append] at ho
    cases hn : (if d = 0 then L.top b else L.node b) with
    | none =>
      rw [h.run (h2.noDash _) hs, PState.planLine] at ho
      simp only [hn] at ho
      cases ho
    | some n =>
      rw [h.run (h2.noDash _) hs, PState.planLine] at ho
      simp only [hn] at ho
      cases ht : st.tree.addLine d n with
      | error e => rw [ht] at ho; cases ho
      | ok t =>
        rw [ht] at ho
        intro e he
        rcases List.mem_cons.1 he with rfl | he
        · simp only
          rw [hn]
          exact fun hx => nomatch hx
        · exact ih (st := { st with tree := t }) hs ho e he
  | skip h2 ih =>
    rw [List.cons_append, PState.runLines_empty (h2.noDash _)] at ho
    exact ih hs ho

end Listed

end Verif
