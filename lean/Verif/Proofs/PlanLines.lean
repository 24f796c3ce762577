import Verif.Spec.PlanLines
import Verif.Proofs.GrammarRel
import Verif.Proofs.SectionRun
import Verif.Proofs.Tree
import Verif.Model.Plan
/-!
# The plan section of an accepted text
-/

namespace Verif

set_option autoImplicit false

open ChunkSpec SectionSpec Grammar TreeSpec

theorem indentedLine_cut (l : Str) :
    trimEnd l = List.replicate (2 * (indentedLine l).depth) ' ' ++ (indentedLine l).body := by
  simp only [indentedLine]
  generalize trimEnd l = t
  have hle : (t.takeWhile (· = ' ')).length / 2 * 2 ≤ (t.takeWhile (· = ' ')).length := Nat.div_mul_le_self _ _
  have hall := List.all_takeWhile (p := fun c : Char => decide (c = ' ')) (l := t)
  have hrep : t.takeWhile (fun c => decide (c = ' ')) =
      List.replicate (t.takeWhile (fun c => decide (c = ' '))).length ' ' := by
    rw [List.eq_replicate_iff]
    refine ⟨rfl, ?_⟩
    intro c hc
    rw [List.all_eq_true] at hall
    simpa using hall c hc
  have htake : t.take ((t.takeWhile (fun c => decide (c = ' '))).length / 2 * 2) =
      List.replicate (2 * ((t.takeWhile (fun c => decide (c = ' '))).length / 2)) ' ' := by
    rw [Nat.mul_comm 2]
    generalize hn : (t.takeWhile (fun c => decide (c = ' '))).length / 2 * 2 = n at hle
    have ht : t = t.takeWhile (fun c => decide (c = ' ')) ++ t.dropWhile (fun c => decide (c = ' ')) :=
      (List.takeWhile_append_dropWhile ..).symm
    conv => lhs; rw [ht]
    rw [List.take_append_of_le_length hle, hrep, List.take_replicate, Nat.min_eq_left hle]
  rw [← htake, List.take_append_drop]

/-- What is left of the indentation is less than a step. -/
theorem indentedLine_lead (l t : Str) : (indentedLine l).body ≠ ' ' :: ' ' :: t := by
  intro h
  simp only [indentedLine] at h
  revert h
  generalize trimEnd l = s
  have hs : s = s.takeWhile (fun c => decide (c = ' ')) ++ s.dropWhile (fun c => decide (c = ' ')) :=
    (List.takeWhile_append_dropWhile ..).symm
  have hd : ∀ r, s.dropWhile (fun c => decide (c = ' ')) ≠ ' ' :: r := by
    intro r hr
    have := List.head?_dropWhile_not (fun c : Char => decide (c = ' ')) s
    rw [hr] at this
    simp at this
  generalize hn : (s.takeWhile (fun c => decide (c = ' '))).length = n
  have hrep : s.takeWhile (fun c => decide (c = ' ')) = List.replicate n ' ' := by
    rw [List.eq_replicate_iff]
    refine ⟨hn, ?_⟩
    have hall := List.all_takeWhile (p := fun c : Char => decide (c = ' ')) (l := s)
    rw [List.all_eq_true] at hall
    intro c hc
    simpa using hall c hc
  rw [hrep] at hs
  generalize s.dropWhile (fun c => decide (c = ' ')) = r at hs hd
  rw [hs, List.drop_append_of_le_length (by simp; omega), List.drop_replicate]
  intro h
  have hle : n - n / 2 * 2 = 0 ∨ n - n / 2 * 2 = 1 := by omega
  rcases hle with e | e
  · rw [e] at h; exact hd _ h
  · rw [e] at h
    simp only [List.replicate_one, List.cons_append, List.nil_append, List.cons.injEq, true_and] at h
    exact hd _ h

/-- A line from its indentation and its text. -/
theorem indentedLine_of_cut {l b : Str} {d : Nat} (h : trimEnd l = List.replicate (2 * d) ' ' ++ b)
    (hb : ∀ t, b ≠ ' ' :: ' ' :: t) : indentedLine l = ⟨d, b⟩ := by
  have hlen : (b.takeWhile (fun c => decide (c = ' '))).length ≤ 1 := by
    match b, hb with
    | [], _ => simp
    | [c], _ => by_cases hc : c = ' ' <;> simp [hc]
    | c :: e :: r, hb =>
      by_cases hc : c = ' '
      · by_cases he : e = ' '
        · subst hc; subst he; exact absurd rfl (hb r)
        · simp [hc, he]
      · simp [hc]
  have htw : (List.replicate (2 * d) ' ' ++ b).takeWhile (fun c => decide (c = ' ')) =
      List.replicate (2 * d) ' ' ++ b.takeWhile (fun c => decide (c = ' ')) := by
    apply List.takeWhile_append_of_pos
    intro c hc
    simp [(List.mem_replicate.1 hc).2]
  have hdiv : ((List.replicate (2 * d) ' ' ++ b).takeWhile (fun c => decide (c = ' '))).length / 2 = d := by
    rw [htw, List.length_append, List.length_replicate]
    omega
  unfold indentedLine
  rw [h]
  dsimp only
  rw [hdiv, Nat.mul_comm, List.drop_append_of_le_length (by simp)]
  simp

/-- A blank group is a single blank line. -/
theorem blank_group {sec : Sec} {f : Str} {ls : List Str}
    (h : (trim (trimNl (f :: ls.takeWhile (PState.continues sec f)).flatten)).isEmpty = true) :
    ls.takeWhile (PState.continues sec f) = [] ∧ trimEnd f = [] := by
  rw [trim_isEmpty_iff, trimEnd_trimNl, trimEnd_eq_nil_iff] at h
  constructor
  · cases htw : ls.takeWhile (PState.continues sec f) with
    | nil => rfl
    | cons l t =>
      exfalso
      have hl : PState.continues sec f l = true := by
        have := List.all_takeWhile (p := PState.continues sec f) (l := ls)
        rw [htw, List.all_eq_true] at this
        exact this l (by simp)
      apply (PState.continues_not_header sec f l hl).2.1
      rw [trimEnd_eq_nil_iff]
      intro c hc
      exact h c (by rw [htw]; simp [hc])
  · rw [trimEnd_eq_nil_iff]
    intro c hc
    exact h c (by simp [hc])

theorem pRelLine_root (y : Str) : pRelLine (cs!"Root[" ++ y) = none := by
  simp [pRelLine, pReadExt, pReadVirtual, pRead, pFilter, pProject, pAggregate, pSort, pFetch, pJoin, pSet, pCross,
    pExtRel, pExtKind]

theorem nodeLine_depth {s : Str} {n : LineNode SLine SAddendum} (h : nodeLine s = some n) (d : Nat) : DepthOk d n := by
  unfold nodeLine at h
  split at h
  · next r h1 =>
    cases h
    obtain ⟨l, r⟩ := r
    cases l with
    | root names =>
      exfalso
      obtain ⟨x, e, hx⟩ := reads_relLine _ _ _ h1
      cases hx
      rw [e, List.append_assoc, pRelLine_root] at h1
      cases h1
    | _ => trivial
  · obtain ⟨⟨a, r⟩, h1, h2⟩ := Option.map_eq_some_iff.1 h
    cases h2
    trivial

/-- One line of the plan section. -/
theorem planLine_spelled {st st' : PState planLang} {l : Indented} (h : st.planLine l = .ok st') :
    ∃ (n : LineNode SLine SAddendum) (x tail : Str), l.body = x ++ tail ∧ NodeText n x ∧ DepthOk l.depth n ∧ TailOk n tail ∧
      TreeBuilder.addLine (ρ := planLang.Rel) (α := planLang.Add) st.tree l.depth n = .ok st'.tree ∧
      st'.sec = st.sec ∧ st'.ext = st.ext ∧ st'.version = st.version := by
  unfold PState.planLine at h
  split at h
  · cases h
  next n hn =>
  split at h
  · cases h
  next t ht =>
  cases h
  have hg : ∃ x tail, l.body = x ++ tail ∧ NodeText n x ∧ TailOk n tail := by
    split at hn
    · exact topLine_grammar hn
    · exact nodeLine_grammar hn
  obtain ⟨x, tail, e, hx, htl⟩ := hg
  refine ⟨n, x, tail, e, hx, ?_, htl, ht, rfl, rfl, rfl⟩
  split at hn
  · next hd =>
    rw [hd]
    cases n with
    | relation r => cases r <;> trivial
    | addendum a => trivial
  · exact nodeLine_depth hn _

/-- In the plan section every group of lines adds the node it spells. -/
theorem runLines_spelled (ls : List Str) (st st' : PState planLang) (hs : st.sec = .plan)
    (h : PState.runLines st ls = .ok st') :
    ∃ groups lines tails, ls = groups.flatten ∧ Spelled groups lines tails ∧
      TreeBuilder.addLines (ρ := planLang.Rel) (α := planLang.Add) st.tree lines = .ok st'.tree ∧
      st'.sec = .plan ∧ st'.ext = st.ext ∧ st'.version = st.version := by
  fun_induction PState.runLines st ls with
  | case1 st => cases h; exact ⟨[], [], [], rfl, .nil, rfl, hs, rfl, rfl⟩
  | case2 st f ls chunk hempty ih =>
    obtain ⟨gs, lines, tails, h1, h2, h3⟩ := ih hs h
    obtain ⟨hb1, hb2⟩ := blank_group hempty
    have hdrop : ls.dropWhile (PState.continues st.sec f) = ls := by
      have := List.takeWhile_append_dropWhile (p := PState.continues st.sec f) (l := ls)
      rw [hb1] at this; exact this
    rw [hdrop] at h1
    exact ⟨[f] :: gs, lines, tails, by rw [h1]; rfl, .blank hb2 h2, h3⟩
  | case3 => cases h
  | case4 => cases h
  | case5 st f ls chunk hempty st1 hpl ih =>
    have hind : indentedLine chunk = indentedLine (f :: ls.takeWhile (PState.continues st.sec f)).flatten :=
      indentedLine_trimNl _
    have hpl' : st.planLine (indentedLine chunk) = .ok st1 := by
      simp only [PState.parseLine] at hpl
      split at hpl
      · split at hpl
        · cases hpl
        · next st2 next hsec =>
          split at hpl
          · cases hpl
          · next hrank =>
            rw [hs] at hrank
            cases next <;> simp [Sec.rank] at hrank
      · rw [hs] at hpl
        exact hpl
    obtain ⟨n, x, tail, e, hx, hd, htl, ht, h6, h7, h8⟩ := planLine_spelled hpl'
    obtain ⟨gs, lines, tails, h1, h2, h3, h4, h5, h9⟩ := ih (by rw [h6, hs]) h
    refine ⟨(f :: ls.takeWhile (PState.continues st.sec f)) :: gs, (_, n) :: lines, tail :: tails, ?_,
      .node ?_ (x := x) ?_ hx hd htl h2, ?_, h4, by rw [h5, h7], by rw [h9, h8]⟩
    · rw [List.flatten_cons, ← h1, List.cons_append, List.takeWhile_append_dropWhile]
    · intro l hl
      have := List.all_takeWhile (p := PState.continues st.sec f) (l := ls)
      rw [List.all_eq_true] at this
      have hc := this l hl
      unfold PState.continues at hc
      rw [Bool.and_eq_true] at hc
      exact (dash_iff (content f) (content l)).1 hc.2
    · rw [indentedLine_cut, ← hind, e]
    · show TreeBuilder.addLines (ρ := planLang.Rel) (α := planLang.Add) st.tree ((_, n) :: lines) = _
      unfold TreeBuilder.addLines
      rw [ht]
      exact h3

/-- The whole text: what precedes the plan section adds nothing to the tree. -/
theorem runLines_plan (ls : List Str) (st st' : PState planLang) (hs : st.sec ≠ .plan)
    (h : PState.runLines st ls = .ok st') :
    (st'.sec ≠ .plan ∧ st'.tree = st.tree) ∨
    ∃ before header groups lines tails, ls = before ++ header :: groups.flatten ∧
      trimEnd header = cs!"=== Plan" ∧ Spelled groups lines tails ∧
      TreeBuilder.addLines (ρ := planLang.Rel) (α := planLang.Add) st.tree lines = .ok st'.tree := by
  fun_induction PState.runLines st ls with
  | case1 st => cases h; exact .inl ⟨hs, rfl⟩
  | case2 st f ls chunk hempty ih =>
    have hdrop : ls.dropWhile (PState.continues st.sec f) = ls := by
      have := List.takeWhile_append_dropWhile (p := PState.continues st.sec f) (l := ls)
      rw [PState.takeWhile_not_plan _ hs] at this; exact this
    rw [hdrop] at ih
    rcases ih hs (by rw [← hdrop]; exact h) with ih | ⟨before, header, gs, lines, tails, h1, h2⟩
    · exact .inl ih
    · exact .inr ⟨f :: before, header, gs, lines, tails, by rw [h1]; rfl, h2⟩
  | case3 => cases h
  | case4 => cases h
  | case5 st f ls chunk hempty st1 hpl ih =>
    have htw := PState.takeWhile_not_plan _ hs f ls
    have hdrop : ls.dropWhile (PState.continues st.sec f) = ls := by
      have := List.takeWhile_append_dropWhile (p := PState.continues st.sec f) (l := ls)
      rw [htw] at this; exact this
    have hch : chunk = trimNl f := by simp only [chunk, htw]; simp
    rw [hch, PState.parseLine_trimNl] at hpl
    rw [hdrop] at ih h
    have step : st1.tree = st.tree ∧ (st1.sec = .plan → trimEnd f = cs!"=== Plan") := by
      clear ih h
      simp only [PState.parseLine] at hpl
      split at hpl
      · next hhead =>
        split at hpl
        · cases hpl
        next st2 nx hsec =>
        split at hpl
        · cases hpl
        cases hpl
        have hbody : (indentedLine f).body = trimEnd f := by
          have := indentedLine_cut f
          rw [hhead.1] at this
          exact this.symm
        unfold PState.sectionHeader at hsec
        split at hsec
        · cases hsec; exact ⟨rfl, by intro hh; cases hh⟩
        · split at hsec
          · next hp =>
            cases hsec
            exact ⟨rfl, fun _ => by rw [← hbody, hp]; rfl⟩
          · split at hsec
            · split at hsec
              · split at hsec
                · cases hsec
                · cases hsec; exact ⟨rfl, by intro hh; cases hh⟩
              · cases hsec
            · cases hsec
      · split at hpl
        · split at hpl
          · cases hpl; exact ⟨rfl, fun hh => absurd hh hs⟩
          · cases hpl
        · next hv =>
          unfold PState.versionLine at hpl
          split at hpl
          · cases hpl; exact ⟨rfl, fun hh => absurd hh hs⟩
          · split at hpl
            · unfold PState.versionDetail at hpl
              split at hpl
              · cases hpl
              · split at hpl
                · cases hpl
                · split at hpl
                  · cases hpl; exact ⟨rfl, fun hh => absurd hh hs⟩
                  · split at hpl
                    · cases hpl; exact ⟨rfl, fun hh => absurd hh hs⟩
                    · cases hpl
            · cases hpl
        · split at hpl
          · cases hpl
          · cases hpl
          · cases hpl; exact ⟨rfl, fun hh => absurd hh hs⟩
        · next hp => exact absurd hp hs
    by_cases hp : st1.sec = .plan
    · obtain ⟨gs, lines, tails, h1, h2, h3, -⟩ := runLines_spelled _ _ _ hp h
      exact .inr ⟨[], f, gs, lines, tails, by rw [← h1]; rfl, step.2 hp, h2, by rw [← step.1]; exact h3⟩
    · rcases ih hp h with ih | ⟨before, header, gs, lines, tails, h1, h2, h3, h4⟩
      · exact .inl ⟨ih.1, by rw [ih.2, step.1]⟩
      · exact .inr ⟨f :: before, header, gs, lines, tails, by rw [h1]; rfl, h2, h3, by rw [← step.1]; exact h4⟩

end Verif
