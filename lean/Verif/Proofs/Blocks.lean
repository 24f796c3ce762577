import Verif.Proofs.NoNewline
import Verif.Proofs.Tree
/-!
# Reading the lines of a printed relation

A block is the text of one plan line together with the continuation lines merged into it.
-/

namespace Verif
open ChunkSpec SectionSpec TreeSpec

set_option autoImplicit false

/-- Lines with line breaks between them. -/
abbrev joinNl (l : List Str) : Str := joinS cs!"\n" l

/-- The text does not begin with a continuation line. -/
def NoDash (t : Str) : Prop := NextNot (· == '-') (t.dropWhile (· == ' '))

theorem noDash_nil : NoDash [] := NextNot.nil _

theorem noDash_nl (t : Str) : NoDash ('\n' :: t) := by
  unfold NoDash
  rw [List.dropWhile_cons_of_neg (by decide)]
  exact (nextNot_cons _ _ _).2 (by decide)

theorem noDash_spaces (n : Nat) {c : Char} (s : Str) (h1 : c ≠ ' ') (h2 : c ≠ '-') :
    NoDash (List.replicate n ' ' ++ c :: s) := by
  unfold NoDash
  have : (List.replicate n ' ' ++ c :: s).dropWhile (· == ' ') = c :: s := by
    induction n with
    | zero => rw [List.replicate_zero, List.nil_append, List.dropWhile_cons_of_neg (by simpa using h1)]
    | succ n ih => rw [List.replicate_succ, List.cons_append, List.dropWhile_cons_of_pos (by decide), ih]
  rw [this]
  exact (nextNot_cons _ _ _).2 (by simpa using h2)

namespace PState
variable {L : Lang}

theorem continues_iff (f l : Str) : continues .plan f l = true ↔ DashUnder (depthOf f) l := by
  unfold continues
  rw [indentedLine_content, indentedLine_content, Bool.and_eq_true]
  simp only [decide_true, true_and]
  exact dash_iff f l

theorem not_continues (sec : Sec) (f : Str) {t : Str} (h : NoDash t) : (physLines t).takeWhile (continues sec f) = [] := by
  cases hp : physLines t with
  | nil => rfl
  | cons l ls =>
    rw [List.takeWhile_cons_of_neg]
    intro hc
    obtain ⟨-, -, n, r, hr⟩ := continues_not_header sec f l hc
    have ht := physLines_flatten t
    rw [hp, List.flatten_cons] at ht
    obtain ⟨w, hw, -⟩ := dropEnd_eq isWs l
    have hw' : l = trimEnd l ++ w := hw
    rw [hr] at hw'
    rw [hw'] at ht
    simp only [List.append_assoc, List.cons_append] at ht
    unfold NoDash at h
    have hd : ∀ n (s : Str), (List.replicate n ' ' ++ '-' :: s).dropWhile (· == ' ') = '-' :: s := by
      intro n s
      induction n with
      | zero => rfl
      | succ n ih => rw [List.replicate_succ, List.cons_append, List.dropWhile_cons_of_pos (by decide), ih]
    rw [← ht, hd, nextNot_cons] at h
    exact absurd h (by decide)

end PState

theorem indentedLine_at (d : Nat) {c : Char} (s : Str) (h : isWs c = false) :
    indentedLine (List.replicate (2 * d) ' ' ++ c :: s) = ⟨d, trimEnd (c :: s)⟩ := by
  have hne : trimEnd (c :: s) ≠ [] := by
    intro hn
    rw [trimEnd_eq_nil_iff] at hn
    rw [hn c (by simp)] at h
    cases h
  have hhead : ∃ t, trimEnd (c :: s) = c :: t := by
    obtain ⟨w, hw, -⟩ := dropEnd_eq isWs (c :: s)
    have hw' : c :: s = trimEnd (c :: s) ++ w := hw
    cases ht : trimEnd (c :: s) with
    | nil => exact absurd ht hne
    | cons x t =>
      rw [ht] at hw'
      simp only [List.cons_append, List.cons.injEq] at hw'
      exact ⟨t, by rw [hw'.1]⟩
  obtain ⟨t, ht⟩ := hhead
  have hc : c ≠ ' ' := by rintro rfl; exact absurd h (by decide)
  unfold indentedLine
  rw [trimEnd_append_ne _ _ hne, ht]
  dsimp only
  rw [takeWhile_replicate_append _ _ ((nextNot_cons _ _ _).2 (by simpa using hc)), List.length_replicate]
  have h2 : 2 * d / 2 = d := by omega
  rw [h2, Nat.mul_comm d 2, List.drop_append_of_le_length (by simp)]
  simp

/-- The text of one plan line at depth `d` which reads as `n`. -/
structure IsBlock (L : Lang) (d : Nat) (n : LineNode L.Rel L.Add) (t : Str) : Prop where
  lines : ∃ (c : Char) (s : Str) (more : List Str), t = joinNl ((List.replicate (2 * d) ' ' ++ c :: s) :: more) ∧
    isWs c = false ∧ c ≠ '-' ∧ c ≠ '=' ∧ Flat (c :: s) ∧ (∀ l ∈ more, Flat l ∧ DashUnder d l)
  clean : ∃ s, t = s ++ [']']
  reads : ∃ body, t = List.replicate (2 * d) ' ' ++ body ∧ (if d = 0 then L.top body else L.node body) = some n

theorem joinNl_cons (a : Str) (l : List Str) (h : l ≠ []) : joinNl (a :: l) = a ++ '\n' :: joinNl l := by
  cases l with
  | nil => contradiction
  | cons b l => simp [joinNl, joinS]

theorem physLines_joinNl (a : Str) (l : List Str) (t : Str) (ha : Flat a) (h : ∀ x ∈ l, Flat x) :
    physLines (joinNl (a :: l) ++ '\n' :: t) = ((a :: l).map (· ++ ['\n'])) ++ physLines t := by
  induction l generalizing a with
  | nil =>
    show physLines (a ++ '\n' :: t) = _
    rw [physLines_nl _ _ ha]
    rfl
  | cons b l ih =>
    rw [joinNl_cons _ _ (by simp), List.append_assoc, List.cons_append, physLines_nl _ _ ha,
      ih b (h b (by simp)) fun x hx => h x (by simp [hx])]
    simp

theorem dashUnder_nl {d : Nat} {l : Str} (h : DashUnder d l) : DashUnder d (l ++ ['\n']) := by
  obtain ⟨body, rfl, c, hc, hw⟩ := h
  exact ⟨body ++ ['\n'], by simp, c, by simp [hc], hw⟩

theorem takeWhile_append_stop {α : Type} (p : α → Bool) (a b : List α) (ha : ∀ x ∈ a, p x = true)
    (hb : b.takeWhile p = []) : (a ++ b).takeWhile p = a ∧ (a ++ b).dropWhile p = b := by
  have hd : b.dropWhile p = b := by
    have := List.takeWhile_append_dropWhile (p := p) (l := b)
    rw [hb] at this
    exact this
  induction a with
  | nil => exact ⟨hb, hd⟩
  | cons x a ih =>
    have hx := ha x (by simp)
    have := ih fun y hy => ha y (by simp [hy])
    simp [List.takeWhile_cons, List.dropWhile_cons, hx, this]

theorem flatten_nl (a : Str) (l : List Str) : ((a :: l).map (· ++ ['\n'])).flatten = joinNl (a :: l) ++ ['\n'] := by
  induction l generalizing a with
  | nil => simp [joinNl, joinS]
  | cons b l ih =>
    rw [joinNl_cons _ _ (by simp), List.map_cons, List.flatten_cons, ih b]
    simp

namespace PState
variable {L : Lang}

/-- Reading a block. -/
theorem runLines_block {d : Nat} {n : LineNode L.Rel L.Add} {t : Str} (h : IsBlock L d n t) {rest : Str}
    (hr : NoDash rest) {st : PState L} (hs : st.sec = .plan) :
    runLines st (physLines (t ++ '\n' :: rest)) =
      match st.tree.addLine d n with
      | .error e => .err (.tree e)
      | .ok tree => runLines { st with tree := tree } (physLines rest) := by
  obtain ⟨⟨c, s, more, ht, hc, -, he, hf, hm⟩, ⟨s', hs'⟩, body, hb, hread⟩ := h
  have hflat : Flat (List.replicate (2 * d) ' ' ++ c :: s) := by
    rw [flat_append]
    refine ⟨?_, hf⟩
    intro hx
    exact absurd (List.mem_replicate.1 hx).2 (by decide)
  have hdepth : depthOf (List.replicate (2 * d) ' ' ++ c :: s ++ ['\n']) = d := by
    have := congrArg Indented.depth (indentedLine_at d (s ++ ['\n']) hc)
    simpa [indentedLine, depthOf] using this
  have hcont : ∀ x ∈ more.map (· ++ ['\n']), continues st.sec (List.replicate (2 * d) ' ' ++ c :: s ++ ['\n']) x = true := by
    intro x hx
    obtain ⟨l, hl, rfl⟩ := List.mem_map.1 hx
    rw [hs, continues_iff, hdepth]
    exact dashUnder_nl (hm l hl).2
  have hsplit := takeWhile_append_stop (continues st.sec (List.replicate (2 * d) ' ' ++ c :: s ++ ['\n']))
    (more.map (· ++ ['\n'])) (physLines rest) hcont (not_continues _ _ hr)
  have hbody : body = c :: (t.drop (2 * d + 1)) := by
    have h1 : ∃ r, t = List.replicate (2 * d) ' ' ++ c :: r := by
      rw [ht]
      cases more with
      | nil => exact ⟨s, rfl⟩
      | cons b l => exact ⟨s ++ '\n' :: joinNl (b :: l), by rw [joinNl_cons _ _ (by simp)]; simp⟩
    obtain ⟨r, hr'⟩ := h1
    have h2 : body = c :: r := List.append_cancel_left (hb.symm.trans hr')
    rw [h2, hr', ← List.drop_drop, List.drop_append_of_le_length (by simp)]
    simp
  have hclean : trimEnd t = t := by
    apply trimEnd_clean
    intro x hx
    rw [hs'] at hx
    simp at hx
    subst hx
    decide
  have hind : indentedLine (t ++ ['\n']) = ⟨d, body⟩ := by
    rw [← indentedLine_trimEnd, trimEnd_append_ws _ _ (by intro x hx; simp at hx; subst hx; decide), hclean]
    have := indentedLine_at d (t.drop (2 * d + 1)) hc
    rw [← hbody, ← hb] at this
    rw [this]
    congr 1
    by_cases hne : trimEnd body = []
    · exfalso
      rw [trimEnd_eq_nil_iff] at hne
      rw [hne c (by rw [hbody]; simp)] at hc
      cases hc
    · have h3 := trimEnd_append_ne (List.replicate (2 * d) ' ') body hne
      rw [← hb, hclean] at h3
      exact List.append_cancel_left (h3.symm.trans hb)
  rw [ht, physLines_joinNl _ _ _ hflat fun x hx => (hm x hx).1, List.map_cons, List.cons_append, runLines, hsplit.1,
    hsplit.2]
  have hjoin : trimNl ((List.replicate (2 * d) ' ' ++ c :: s ++ ['\n']) :: more.map (· ++ ['\n'])).flatten =
      trimNl (t ++ ['\n']) := by
    rw [ht]
    have := flatten_nl (List.replicate (2 * d) ' ' ++ c :: s) more
    rw [List.map_cons] at this
    rw [this]
  simp only [hjoin]
  rw [if_neg, parseLine_trimNl]
  · have hp : st.parseLine (t ++ ['\n']) = st.planLine ⟨d, body⟩ := by
      unfold parseLine
      rw [hind]
      simp only
      rw [if_neg, hs]
      rintro ⟨-, h4⟩
      rw [hbody] at h4
      simp [stripPrefix, Ne.symm he] at h4
    rw [hp]
    simp only [planLine, hread]
    cases st.tree.addLine d n <;> rfl
  · rw [trim_isEmpty_iff, trimEnd_trimNl, trimEnd_append_ws _ _ (by intro x hx; simp at hx; subst hx; decide), hclean,
      hs']
    simp

/-- Skipping an empty line. -/
theorem runLines_empty {rest : Str} (hr : NoDash rest) (st : PState L) :
    runLines st (physLines ('\n' :: rest)) = runLines st (physLines rest) := by
  have : physLines ('\n' :: rest) = ['\n'] :: physLines rest := by simp [physLines]
  rw [this]
  exact runLines_blank st _ _ (not_continues _ _ hr) (by decide)

end PState

/-- Blocks one below the other, possibly with empty lines between them. -/
inductive Blocks (L : Lang) : Str → List (Nat × LineNode L.Rel L.Add) → Prop where
  | one {d : Nat} {n : LineNode L.Rel L.Add} {t : Str} : IsBlock L d n t → Blocks L t [(d, n)]
  | cons {d : Nat} {n : LineNode L.Rel L.Add} {t s : Str} {es : List (Nat × LineNode L.Rel L.Add)} :
      IsBlock L d n t → Blocks L s es → Blocks L (t ++ '\n' :: s) ((d, n) :: es)
  | skip {s : Str} {es : List (Nat × LineNode L.Rel L.Add)} : Blocks L s es → Blocks L ('\n' :: s) es

namespace Blocks
variable {L : Lang}

theorem append {s s' : Str} {es es' : List (Nat × LineNode L.Rel L.Add)} (h : Blocks L s es) (h' : Blocks L s' es') :
    Blocks L (s ++ '\n' :: s') (es ++ es') := by
  induction h with
  | one h => exact .cons h h'
  | cons h _ ih => rw [List.append_assoc]; exact .cons h ih
  | skip _ ih => exact .skip ih

theorem noDash {s : Str} {es : List (Nat × LineNode L.Rel L.Add)} (h : Blocks L s es) (r : Str) : NoDash (s ++ r) := by
  have hb : ∀ {d : Nat} {n : LineNode L.Rel L.Add} {t : Str}, IsBlock L d n t → ∀ r, NoDash (t ++ r) := by
    intro d n t h r
    obtain ⟨⟨c, s, more, ht, hc, hd, -⟩, -⟩ := h
    have h1 : ∃ r, t = List.replicate (2 * d) ' ' ++ c :: r := by
      rw [ht]
      cases more with
      | nil => exact ⟨s, rfl⟩
      | cons b l => exact ⟨s ++ '\n' :: joinNl (b :: l), by rw [joinNl_cons _ _ (by simp)]; simp⟩
    obtain ⟨x, hx⟩ := h1
    rw [hx, List.append_assoc, List.cons_append]
    exact noDash_spaces _ _ (by rintro rfl; exact absurd hc (by decide)) hd
  cases h with
  | one h => exact hb h _
  | cons h _ => rw [List.append_assoc]; exact hb h _
  | skip _ => exact noDash_nl _

/-- Reading blocks adds their lines to the tree. -/
theorem run {s : Str} {es : List (Nat × LineNode L.Rel L.Add)} (h : Blocks L s es) {rest : Str} (hr : NoDash rest)
    {st : PState L} (hs : st.sec = .plan) {tree : TreeBuilder L.Rel L.Add} (ht : st.tree.addLines es = .ok tree) :
    PState.runLines st (physLines (s ++ '\n' :: rest)) =
      PState.runLines { st with tree := tree } (physLines rest) := by
  induction h generalizing st with
  | one h =>
    rw [PState.runLines_block h hr hs]
    simp only [TreeBuilder.addLines] at ht
    split at ht
    · cases ht
    · rename_i t' h'
      cases ht
      rw [h']
  | cons h h2 ih =>
    rw [List.append_assoc, List.cons_append, PState.runLines_block h (h2.noDash _) hs]
    simp only [TreeBuilder.addLines] at ht
    split at ht
    · cases ht
    · rename_i t' h'
      rw [h']
      exact ih (st := { st with tree := t' }) hs ht
  | skip h2 ih =>
    rw [List.cons_append, PState.runLines_empty (h2.noDash _)]
    exact ih hs ht

end Blocks

end Verif
