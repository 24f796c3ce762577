import Verif.Proofs.Chunks

namespace Verif
open ChunkSpec

theorem physLines_nil : physLines [] = [] := rfl

theorem physLines_flatten (s : Str) : (physLines s).flatten = s := by
  induction s with
  | nil => rfl
  | cons c s ih =>
    unfold physLines
    split
    · simp [ih]
    · split
      · rename_i h; rw [h] at ih; simp at ih; simp [← ih]
      · rename_i l ls h; rw [h] at ih; simp at ih; simp [← ih]

theorem physLines_nl (a b : Str) (ha : '\n' ∉ a) :
    physLines (a ++ '\n' :: b) = (a ++ ['\n']) :: physLines b := by
  induction a with
  | nil => simp [physLines]
  | cons c a ih =>
    simp only [List.mem_cons, not_or] at ha
    simp only [List.cons_append]
    rw [physLines, if_neg (Ne.symm ha.1), ih ha.2]

theorem physLines_last (a : Str) (ha : '\n' ∉ a) (hne : a ≠ []) : physLines a = [a] := by
  induction a with
  | nil => exact absurd rfl hne
  | cons c a ih =>
    simp only [List.mem_cons, not_or] at ha
    rw [physLines, if_neg (Ne.symm ha.1)]
    cases a with
    | nil => rfl
    | cons d a => rw [ih ha.2 (by simp)]

theorem physLines_ne_nil {s : Str} (h : s ≠ []) : physLines s ≠ [] := by
  intro hh
  have := physLines_flatten s
  rw [hh] at this
  exact h this.symm

/-- First physical line and the rest, in terms of the text. -/
theorem physLines_cons {s l : Str} {ls : List Str} (h : physLines s = l :: ls) :
    s = l ++ ls.flatten ∧ physLines ls.flatten = ls ∧
    ((∃ a, l = a ++ ['\n'] ∧ '\n' ∉ a) ∨ (l ≠ [] ∧ '\n' ∉ l ∧ ls = [])) := by
  have hf := physLines_flatten s
  cases hn : findNewline s with
  | none =>
    have hnm := findNewline_none hn
    have hne : s ≠ [] := by rintro rfl; simp [physLines] at h
    rw [physLines_last s hnm hne] at h
    cases h
    exact ⟨by simp, by simp [physLines], Or.inr ⟨hne, hnm, rfl⟩⟩
  | some n =>
    obtain ⟨a, b, hs, ha, _⟩ := findNewline_some hn
    subst hs
    rw [physLines_nl a b ha] at h
    cases h
    rw [physLines_flatten]
    exact ⟨by simp, rfl, Or.inl ⟨a, rfl, ha⟩⟩

/-- Peeking a line is looking at the first physical line of what is left. -/
theorem peekLine_phys (c : Cursor) (l : Str) (ls : List Str)
    (hle : c.currentEnd ≤ c.text.length)
    (h : physLines (c.text.drop c.currentEnd) = l :: ls) :
    c.peekLine = some ⟨content l, c.currentEnd + l.length⟩ := by
  obtain ⟨h1, h2, h3⟩ := physLines_cons h
  have hlt : ¬ c.currentEnd ≥ c.text.length := by
    intro hge
    have : c.text.drop c.currentEnd = [] := by rw [List.drop_eq_nil_iff]; omega
    rw [this] at h; simp [physLines] at h
  unfold Cursor.peekLine
  rw [if_neg hlt]
  simp only
  rcases h3 with ⟨a, rfl, ha⟩ | ⟨hne, hnl, rfl⟩
  · have : findNewline (c.text.drop c.currentEnd) = some a.length := by
      rw [h1]
      have : a ++ ['\n'] ++ ls.flatten = a ++ '\n' :: ls.flatten := by simp
      rw [this, findNewline_append ha]
    rw [this]
    simp only [Option.some.injEq, Line.mk.injEq]
    refine ⟨?_, by simp; omega⟩
    rw [h1]
    simp [content, stripCr]
  · have hd : c.text.drop c.currentEnd = l := by rw [h1]; simp
    rw [hd, findNewline_not_mem hnl]
    simp only [Option.some.injEq, Line.mk.injEq]
    constructor
    · unfold content
      rw [if_neg]
      intro hh
      exact hnl (List.mem_of_getLast? hh)
    · have := congrArg List.length hd
      rw [List.length_drop] at this
      omega

theorem physLines_drop_eq_nil {c : Cursor} (h : physLines (c.text.drop c.currentEnd) = []) :
    c.text.drop c.currentEnd = [] := by
  have := physLines_flatten (c.text.drop c.currentEnd)
  rw [h] at this; exact this.symm

/-- Merging under a policy that only looks at the line takes the longest accepted run. -/
theorem mergeWhile_phys (p : Str → Bool) (fuel : Nat) (c : Cursor) (ls : List Str)
    (hle : c.currentEnd ≤ c.text.length)
    (h : physLines (c.text.drop c.currentEnd) = ls) (hf : ls.length ≤ fuel) :
    (Cursor.mergeWhile (fun _ l => p l.line) fuel c).currentEnd =
      c.currentEnd + (ls.takeWhile (fun l => p (content l))).flatten.length ∧
    (Cursor.mergeWhile (fun _ l => p l.line) fuel c).nextLineNo =
      c.nextLineNo + (ls.takeWhile (fun l => p (content l))).length := by
  induction fuel generalizing c ls with
  | zero =>
    have : ls = [] := List.length_eq_zero_iff.1 (by omega)
    subst this
    exact ⟨by simp [Cursor.mergeWhile], by simp [Cursor.mergeWhile]⟩
  | succ fuel ih =>
    cases ls with
    | nil =>
      have hd := physLines_drop_eq_nil h
      have : c.peekLine = none := by
        rw [Cursor.peekLine_eq_none hle]
        rw [List.drop_eq_nil_iff] at hd; omega
      simp [Cursor.mergeWhile, this]
    | cons l ls =>
      have hp := peekLine_phys c l ls hle h
      have hc := physLines_cons h
      simp only [Cursor.mergeWhile, hp]
      by_cases hpl : p (content l) = true
      · simp only [hpl, if_true]
        have hlen : c.currentEnd + l.length ≤ c.text.length := by
          have := congrArg List.length hc.1
          rw [List.length_drop, List.length_append] at this
          omega
        have hd : physLines ((c.merge ⟨content l, c.currentEnd + l.length⟩).text.drop
            (c.merge ⟨content l, c.currentEnd + l.length⟩).currentEnd) = ls := by
          simp only [Cursor.merge]
          rw [← List.drop_drop, hc.1]
          simp [hc.2.1]
        have := ih (c.merge ⟨content l, c.currentEnd + l.length⟩) ls hlen hd (by simp at hf; omega)
        rw [this.1, this.2]
        simp only [Cursor.merge, List.takeWhile_cons, hpl, if_true, List.flatten_cons,
          List.length_append, List.length_cons]
        exact ⟨by omega, by omega⟩
      · simp only [Bool.not_eq_true] at hpl
        simp [hpl]

theorem physLines_length_le (s : Str) : (physLines s).length ≤ s.length := by
  induction s with
  | nil => simp [physLines]
  | cons c s ih =>
    unfold physLines
    split
    · simp; omega
    · split
      · simp
      · rename_i h; rw [h] at ih; simp at ih ⊢; omega

theorem physLines_append_suffix {s : Str} {pre suf : List Str} (h : physLines s = pre ++ suf) :
    physLines suf.flatten = suf := by
  induction pre generalizing s with
  | nil => simp only [List.nil_append] at h; rw [← h, physLines_flatten]
  | cons l pre ih => exact ih (physLines_cons h).2.1

/-- One chunk, in terms of physical lines. -/
theorem takeChunk_phys (p : Str → Str → Bool) (text : Str) (n : Nat) (f : Str) (ls : List Str)
    (h : physLines text = f :: ls) :
    Cursor.takeChunk (fun first _ l => p first.line l.line) ⟨text, 0, n, n⟩ =
      some ((f :: ls.takeWhile (fun l => p (content f) (content l))).flatten, n,
        Cursor.new (ls.dropWhile (fun l => p (content f) (content l))).flatten
          (n + 1 + (ls.takeWhile (fun l => p (content f) (content l))).length)) := by
  have hp := peekLine_phys ⟨text, 0, n, n⟩ f ls (by simp) (by simpa using h)
  have hc := physLines_cons h
  unfold Cursor.takeChunk
  rw [hp]
  simp only [Option.some.injEq]
  have hlen : f.length ≤ text.length := by rw [hc.1]; simp
  have hd : physLines (((Cursor.mk text 0 n n).merge ⟨content f, 0 + f.length⟩).text.drop
      ((Cursor.mk text 0 n n).merge ⟨content f, 0 + f.length⟩).currentEnd) = ls := by
    simp only [Cursor.merge, Nat.zero_add]
    conv => lhs; rw [hc.1]
    simp [hc.2.1]
  have hll : ls.length ≤ text.length := by
    have := physLines_length_le text
    rw [h] at this; simp at this; omega
  have hm := mergeWhile_phys (fun l => p (content f) l) text.length
    ((Cursor.mk text 0 n n).merge ⟨content f, 0 + f.length⟩) ls (by simp [Cursor.merge]; exact hlen) hd hll
  have ht := Cursor.mergeWhile_text (fun _ l => p (content f) l.line) text.length
    ((Cursor.mk text 0 n n).merge ⟨content f, 0 + f.length⟩)
  generalize hmw : Cursor.mergeWhile (fun _ l => p (content f) l.line) text.length
    ((Cursor.mk text 0 n n).merge ⟨content f, 0 + f.length⟩) = d at *
  simp only [Cursor.merge, Nat.zero_add] at hm ht
  have hsplit : text = (f :: ls.takeWhile (fun l => p (content f) (content l))).flatten ++
      (ls.dropWhile (fun l => p (content f) (content l))).flatten := by
    rw [List.flatten_cons, List.append_assoc, ← List.flatten_append, List.takeWhile_append_dropWhile]
    exact hc.1
  have hend : d.currentEnd = ((f :: ls.takeWhile (fun l => p (content f) (content l))).flatten).length := by
    rw [hm.1]; simp
  simp only [Cursor.next, ht.1, ht.2, hend, hm.2]
  generalize (f :: ls.takeWhile (fun l => p (content f) (content l))).flatten = A at *
  generalize (ls.dropWhile (fun l => p (content f) (content l))).flatten = B at *
  rw [hsplit]
  simp [Cursor.new]

/-! ### Depth and dashes -/

theorem dropEnd_eq (p : Char → Bool) (s : Str) : ∃ t, s = dropEnd p s ++ t ∧ ∀ c ∈ t, p c = true := by
  refine ⟨(s.reverse.takeWhile p).reverse, ?_, ?_⟩
  · unfold dropEnd
    rw [← List.reverse_append, List.takeWhile_append_dropWhile, List.reverse_reverse]
  · intro c hc
    rw [List.mem_reverse] at hc
    have := List.all_takeWhile (p := p) (l := s.reverse)
    rw [List.all_eq_true] at this
    exact this c hc

theorem dropEnd_append_of_not (p : Char → Bool) (a b : Str) (hb : ∃ c ∈ b, p c = false) :
    dropEnd p (a ++ b) = a ++ dropEnd p b := by
  unfold dropEnd
  rw [List.reverse_append]
  have : (b.reverse ++ a.reverse).dropWhile p = b.reverse.dropWhile p ++ a.reverse := by
    obtain ⟨c, hc, hpc⟩ := hb
    generalize hbr : b.reverse = br
    have hc' : c ∈ br := by rw [← hbr]; simpa using hc
    clear hbr
    induction br with
    | nil => cases hc'
    | cons d br ih =>
      by_cases hd : p d = true
      · simp only [List.cons_append, List.dropWhile_cons, hd, if_true]
        apply ih
        simp only [List.mem_cons] at hc'
        rcases hc' with rfl | h
        · rw [hpc] at hd; cases hd
        · exact h
      · simp only [Bool.not_eq_true] at hd
        simp [hd]
  rw [this]
  simp

theorem dashPolicy_line (first l : Line) (c : Cursor) :
    dashPolicy first c l = dashPolicy ⟨first.line, 0⟩ ⟨[], 0, 0, 0⟩ ⟨l.line, 0⟩ := rfl

theorem takeWhile_replicate_append (n : Nat) (s : Str) (hs : NextNot (fun c => decide (c = ' ')) s) :
    (List.replicate n ' ' ++ s).takeWhile (fun c => decide (c = ' ')) = List.replicate n ' ' := by
  exact (takeWhile_append_of_all (p := fun c => decide (c = ' ')) (a := List.replicate n ' ')
    (by intro c hc; rw [List.mem_replicate] at hc; simp [hc.2]) hs).1

theorem dash_iff (first l : Str) :
    (((indentedLine l).depth == (indentedLine first).depth + 1 &&
      startsDash (indentedLine l).body) = true) ↔ DashUnder (depthOf first) l := by
  simp only [indentedLine, Bool.and_eq_true, beq_iff_eq, depthOf]
  generalize hd : ((trimEnd first).takeWhile (fun c => decide (c = ' '))).length / 2 = d
  constructor
  · rintro ⟨h1, h2⟩
    -- the trimmed line is spaces, then "- " and something
    obtain ⟨ws, hws, hall⟩ := dropEnd_eq isWs l
    have hsp : ∃ k, (trimEnd l).takeWhile (fun c => decide (c = ' ')) = List.replicate k ' ' := by
      refine ⟨((trimEnd l).takeWhile (fun c => decide (c = ' '))).length, ?_⟩
      rw [List.eq_replicate_iff]
      refine ⟨rfl, ?_⟩
      intro b hb
      have := List.all_takeWhile (p := fun c => decide (c = ' ')) (l := trimEnd l)
      rw [List.all_eq_true] at this
      simpa using this b hb
    obtain ⟨k, hk⟩ := hsp
    have hsplit := List.takeWhile_append_dropWhile (p := fun c => decide (c = ' ')) (l := trimEnd l)
    rw [hk] at hsplit h1
    rw [List.length_replicate] at h1
    have hk2 : k = 2 * (d + 1) ∨ k = 2 * (d + 1) + 1 := by omega
    have hbody : (trimEnd l).drop (k / 2 * 2) =
        List.replicate (k - k / 2 * 2) ' ' ++ (trimEnd l).dropWhile (fun c => decide (c = ' ')) := by
      conv => lhs; rw [← hsplit]
      rw [List.drop_append, List.drop_replicate, List.length_replicate]
      have : k / 2 * 2 - k = 0 := by omega
      rw [this, List.drop_zero]
    rw [hk, List.length_replicate, hbody] at h2
    rcases hk2 with hk2 | hk2
    · have hz : k - k / 2 * 2 = 0 := by omega
      rw [hz] at h2
      simp only [List.replicate_zero, List.nil_append] at h2
      unfold startsDash at h2
      split at h2
      · rename_i body heq
        rw [heq] at hsplit
        refine ⟨body ++ ws, ?_, ?_⟩
        · rw [← hk2]
          conv => lhs; rw [hws]
          have : trimEnd l = dropEnd isWs l := rfl
          rw [← this, ← hsplit]; simp
        · -- the trimmed line does not end in white space, so `body` is not empty
          have hne : body ≠ [] := by
            rintro rfl
            have hlast : (dropEnd isWs l).getLast? = some ' ' := by
              have : trimEnd l = dropEnd isWs l := rfl
              rw [← this, ← hsplit]; simp
            unfold dropEnd at hlast
            rw [List.getLast?_reverse] at hlast
            have := List.head?_dropWhile_not (p := isWs) (l := l.reverse)
            rw [hlast] at this
            simp [isWs] at this
          -- its last character is not white space
          have hlast : ∃ c, body.getLast? = some c := by
            cases body with
            | nil => exact absurd rfl hne
            | cons x xs => exact ⟨_, List.getLast?_eq_some_getLast (by simp)⟩
          obtain ⟨c, hc⟩ := hlast
          refine ⟨c, by simp [List.mem_of_getLast? hc], ?_⟩
          have hlast2 : (dropEnd isWs l).getLast? = some c := by
            have : trimEnd l = dropEnd isWs l := rfl
            rw [← this, ← hsplit]
            have : List.replicate k ' ' ++ '-' :: ' ' :: body = (List.replicate k ' ' ++ ['-', ' ']) ++ body := by simp
            rw [this, List.getLast?_append, hc]; rfl
          unfold dropEnd at hlast2
          rw [List.getLast?_reverse] at hlast2
          have := List.head?_dropWhile_not (p := isWs) (l := l.reverse)
          rw [hlast2] at this
          simpa using this
      · cases h2
    · have hz : k - k / 2 * 2 = 1 := by omega
      rw [hz] at h2
      simp [startsDash] at h2
  · rintro ⟨body, rfl, hb⟩
    have htrim : trimEnd (List.replicate (2 * (d + 1)) ' ' ++ '-' :: ' ' :: body) =
        List.replicate (2 * (d + 1)) ' ' ++ '-' :: ' ' :: dropEnd isWs body := by
      unfold trimEnd
      have : List.replicate (2 * (d + 1)) ' ' ++ '-' :: ' ' :: body =
          (List.replicate (2 * (d + 1)) ' ' ++ ['-', ' ']) ++ body := by simp
      rw [this, dropEnd_append_of_not isWs _ body hb]
      simp
    rw [htrim, takeWhile_replicate_append _ _ (by simp [NextNot])]
    simp only [List.length_replicate]
    have : 2 * (d + 1) / 2 = d + 1 := by omega
    rw [this]
    refine ⟨rfl, ?_⟩
    have h2 : (d + 1) * 2 = 2 * (d + 1) := by omega
    rw [h2]
    have h3 : List.drop (2 * (d + 1)) (List.replicate (2 * (d + 1)) ' ' ++ '-' :: ' ' :: dropEnd isWs body) =
        '-' :: ' ' :: dropEnd isWs body := by
      rw [List.drop_append_of_le_length (by simp)]
      simp
    rw [h3]
    rfl

end Verif
