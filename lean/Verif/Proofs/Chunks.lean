import Verif.Spec.Chunks
import Verif.Proofs.Peg

namespace Verif

theorem findNewline_some {s : Str} {n : Nat} (h : findNewline s = some n) :
    ∃ a b, s = a ++ '\n' :: b ∧ '\n' ∉ a ∧ a.length = n := by
  induction s generalizing n with
  | nil => simp [findNewline] at h
  | cons c s ih =>
    unfold findNewline at h
    by_cases hc : c = '\n'
    · subst hc; simp at h; subst h; exact ⟨[], s, rfl, by simp, rfl⟩
    · rw [if_neg hc] at h
      cases hf : findNewline s with
      | none => rw [hf] at h; simp at h
      | some m =>
        rw [hf] at h; simp at h; subst h
        obtain ⟨a, b, hs, ha, hl⟩ := ih hf
        exact ⟨c :: a, b, by simp [hs], by simp [ha, Ne.symm hc], by simp [hl]⟩

theorem findNewline_none {s : Str} (h : findNewline s = none) : '\n' ∉ s := by
  induction s with
  | nil => simp
  | cons c s ih =>
    unfold findNewline at h
    by_cases hc : c = '\n'
    · subst hc; simp at h
    · rw [if_neg hc] at h
      simp only [Option.map_eq_none_iff] at h
      simp [ih h, Ne.symm hc]

theorem findNewline_append {a b : Str} (ha : '\n' ∉ a) :
    findNewline (a ++ '\n' :: b) = some a.length := by
  induction a with
  | nil => simp [findNewline]
  | cons c a ih =>
    simp only [List.mem_cons, not_or] at ha
    simp [findNewline, Ne.symm ha.1, ih ha.2]

theorem findNewline_not_mem {a : Str} (ha : '\n' ∉ a) : findNewline a = none := by
  induction a with
  | nil => rfl
  | cons c a ih =>
    simp only [List.mem_cons, not_or] at ha
    simp [findNewline, Ne.symm ha.1, ih ha.2]

open ChunkSpec

namespace Cursor

/-- Invariant of a cursor during the driver loop: the consumed part of the current chunk ends at
a line boundary, and the line counter has advanced once per consumed line. -/
structure Inv (c : Cursor) : Prop where
  le : c.currentEnd ≤ c.text.length
  nonempty : c.text ≠ []
  /-- unless everything is consumed, the consumed part ends with a newline -/
  boundary : c.currentEnd < c.text.length → c.currentEnd = 0 ∨
    (c.text.take c.currentEnd).getLast? = some '\n'
  lines : c.currentEnd < c.text.length →
    c.nextLineNo = c.startLineNo + newlines (c.text.take c.currentEnd)

theorem peekLine_eq_none {c : Cursor} (h : c.currentEnd ≤ c.text.length) :
    c.peekLine = none ↔ c.currentEnd = c.text.length := by
  unfold peekLine
  split
  · simp; omega
  · simp only
    split <;> simp <;> omega

theorem peekLine_some {c : Cursor} {l : Line} (h : c.peekLine = some l) :
    c.currentEnd < l.stop ∧ l.stop ≤ c.text.length ∧
    ((∃ a, c.text.drop c.currentEnd = a ∧ '\n' ∉ a ∧ l.stop = c.text.length ∧ l.line = a) ∨
     (∃ a b, c.text.drop c.currentEnd = a ++ '\n' :: b ∧ '\n' ∉ a ∧
        l.stop = c.currentEnd + a.length + 1 ∧ l.line = stripCr a)) := by
  unfold peekLine at h
  split at h
  · cases h
  · rename_i hlt
    simp only at h
    split at h
    · rename_i nl hnl
      cases h
      obtain ⟨a, b, hs, ha, hl⟩ := findNewline_some hnl
      have hlen : (c.text.drop c.currentEnd).length = a.length + 1 + b.length := by
        rw [hs]; simp; omega
      rw [List.length_drop] at hlen
      refine ⟨by simp only; omega, by simp only; omega, Or.inr ⟨a, b, hs, ha, by simp only; omega, ?_⟩⟩
      rw [hs, ← hl]; simp
    · rename_i hnl
      cases h
      refine ⟨by simp only; omega, by simp, Or.inl ⟨_, rfl, findNewline_none hnl, rfl, rfl⟩⟩

/-- The assertions in `merge` hold for the line just peeked. -/
theorem merge_assertions_hold {c : Cursor} {l : Line} (h : c.peekLine = some l) :
    c.currentEnd < l.stop ∧ l.stop ≤ c.text.length :=
  ⟨(peekLine_some h).1, (peekLine_some h).2.1⟩

theorem inv_merge {c : Cursor} {l : Line} (hi : c.Inv) (h : c.peekLine = some l) :
    (c.merge l).Inv := by
  obtain ⟨h1, h2, h3⟩ := peekLine_some h
  refine ⟨h2, hi.nonempty, ?_, ?_⟩
  · intro hlt
    rcases h3 with ⟨a, ha, _, hstop, _⟩ | ⟨a, b, hd, ha, hstop, _⟩
    · change l.stop < c.text.length at hlt; omega
    · right
      change (c.text.take l.stop).getLast? = some '\n'
      have : c.text.take l.stop = c.text.take c.currentEnd ++ (a ++ ['\n']) := by
        rw [hstop, Nat.add_assoc, List.take_add, hd]
        congr 1
        have : a ++ '\n' :: b = (a ++ ['\n']) ++ b := by simp
        rw [this, List.take_append_of_le_length (by simp)]
        rw [List.take_of_length_le (by simp)]
      rw [this]
      simp
  · intro hlt
    rcases h3 with ⟨a, ha, _, hstop, _⟩ | ⟨a, b, hd, ha, hstop, _⟩
    · change l.stop < c.text.length at hlt; omega
    · change c.nextLineNo + 1 = c.startLineNo + newlines (c.text.take l.stop)
      have : c.text.take l.stop = c.text.take c.currentEnd ++ (a ++ ['\n']) := by
        rw [hstop, Nat.add_assoc, List.take_add, hd]
        congr 1
        have : a ++ '\n' :: b = (a ++ ['\n']) ++ b := by simp
        rw [this, List.take_append_of_le_length (by simp)]
        rw [List.take_of_length_le (by simp)]
      rw [this]
      have hc : c.currentEnd < c.text.length := by omega
      have := hi.lines hc
      have ha0 : List.count '\n' a = 0 := List.count_eq_zero.2 ha
      simp only [newlines, List.count_append, ha0] at *
      rw [this]; simp; omega

theorem mergeWhile_text (pol : Cursor → Line → Bool) (fuel : Nat) (c : Cursor) :
    (mergeWhile pol fuel c).text = c.text ∧ (mergeWhile pol fuel c).startLineNo = c.startLineNo := by
  induction fuel generalizing c with
  | zero => exact ⟨rfl, rfl⟩
  | succ fuel ih =>
    unfold mergeWhile
    split
    · exact ⟨rfl, rfl⟩
    · split
      · exact ih _
      · exact ⟨rfl, rfl⟩

theorem mergeWhile_inv (pol : Cursor → Line → Bool) (fuel : Nat) (c : Cursor) (hi : c.Inv) :
    (mergeWhile pol fuel c).Inv ∧ c.currentEnd ≤ (mergeWhile pol fuel c).currentEnd := by
  induction fuel generalizing c with
  | zero => exact ⟨hi, Nat.le_refl _⟩
  | succ fuel ih =>
    unfold mergeWhile
    split
    · exact ⟨hi, Nat.le_refl _⟩
    · rename_i l hl
      split
      · have h1 := ih _ (inv_merge hi hl)
        have h2 := (peekLine_some hl).1
        exact ⟨h1.1, Nat.le_trans (Nat.le_of_lt h2) h1.2⟩
      · exact ⟨hi, Nat.le_refl _⟩

/-- What one chunk looks like to the caller. -/
theorem takeChunk_spec (pol : Line → Cursor → Line → Bool) (c : Cursor) (hi : c.Inv)
    (h0 : c.currentEnd = 0) :
    ∃ t rest, takeChunk pol c = some (t, c.startLineNo, rest) ∧ t ≠ [] ∧
      (match rest with
       | none => t = c.text
       | some c' => c.text = t ++ c'.text ∧ c'.Inv ∧ c'.currentEnd = 0 ∧
           c'.startLineNo = c.startLineNo + newlines t ∧ c'.nextLineNo = c'.startLineNo ∧
           t.getLast? = some '\n') := by
  have hpos : 0 < c.text.length := List.length_pos_iff.2 hi.nonempty
  cases hp : c.peekLine with
  | none => have := (peekLine_eq_none hi.le).1 hp; omega
  | some first =>
    have hm := inv_merge hi hp
    obtain ⟨hfi, hle⟩ := mergeWhile_inv (pol first) c.text.length (c.merge first) hm
    obtain ⟨htext, hstart⟩ := mergeWhile_text (pol first) c.text.length (c.merge first)
    have htext' : (mergeWhile (pol first) c.text.length (c.merge first)).text = c.text := htext
    have hstart' : (mergeWhile (pol first) c.text.length (c.merge first)).startLineNo = c.startLineNo := hstart
    have hfirst := (peekLine_some hp).1
    simp only [takeChunk, hp]
    generalize hd : mergeWhile (pol first) c.text.length (c.merge first) = d at *
    have hdpos : 0 < d.currentEnd := by
      have : first.stop ≤ d.currentEnd := hle
      omega
    refine ⟨_, _, by rw [hstart'], ?_, ?_⟩
    · simp only [next]
      intro hnil
      have := congrArg List.length hnil
      rw [List.length_take] at this
      simp only [List.length_nil] at this
      rw [htext'] at this
      omega
    · simp only [next, htext']
      by_cases hfull : d.currentEnd < c.text.length
      · have hne : (c.text.drop d.currentEnd).isEmpty = false := by
          rw [← Bool.not_eq_true, List.isEmpty_iff]
          intro hh
          have := congrArg List.length hh
          simp at this; omega
        rw [hne]
        simp only [Bool.false_eq_true, if_false]
        refine ⟨(List.take_append_drop _ _).symm, ?_, trivial, ?_, trivial, ?_⟩
        · refine ⟨by simp, ?_, ?_, ?_⟩
          · intro hh
            simp only at hh
            rw [hh] at hne
            simp at hne
          · intro _; exact Or.inl rfl
          · intro _; simp [newlines]
        · have := hfi.lines (by rw [htext']; exact hfull)
          rw [this, htext', hstart']
        · rcases hfi.boundary (by rw [htext']; exact hfull) with h | h
          · omega
          · rw [← htext']; exact h
      · have hend : d.currentEnd = c.text.length := by
          have := hfi.le
          rw [htext'] at this; omega
        rw [hend]
        simp

theorem inv_new {text : Str} {n : Nat} {c : Cursor} (h : new text n = some c) :
    c.Inv ∧ c.currentEnd = 0 ∧ c.nextLineNo = c.startLineNo ∧ c.text = text ∧ c.startLineNo = n := by
  unfold new at h
  split at h
  · cases h
  · rename_i hne
    cases h
    refine ⟨⟨by simp, ?_, ?_, ?_⟩, rfl, rfl, rfl, rfl⟩
    · intro hh; simp only at hh; subst hh; simp at hne
    · intro _; exact Or.inl rfl
    · intro _; simp [newlines]

/-- Line numbers recorded for a list of chunks are right when each is the start line plus the
newlines of the chunks before it. -/
def NumberedFrom : Nat → List (Str × Nat) → Prop
  | _, [] => True
  | n, (t, m) :: rest => m = n ∧ t ≠ [] ∧ (rest ≠ [] → t.getLast? = some '\n') ∧
      NumberedFrom (n + newlines t) rest

theorem collect_spec (pol : List (Str × Nat) → Line → Cursor → Line → Bool) (fuel : Nat)
    (acc : List (Str × Nat)) (c : Cursor) (hi : c.Inv) (h0 : c.currentEnd = 0)
    (hn : c.nextLineNo = c.startLineNo) (hf : c.text.length ≤ fuel) :
    ∃ out, collect pol fuel acc (some c) = acc ++ out ∧ (out.map (·.1)).flatten = c.text ∧
      NumberedFrom c.startLineNo out := by
  induction fuel generalizing acc c with
  | zero =>
    have := List.length_pos_iff.2 hi.nonempty
    omega
  | succ fuel ih =>
    obtain ⟨t, rest, ht, hne, hrest⟩ := takeChunk_spec (pol acc) c hi h0
    unfold collect
    rw [ht]
    simp only
    cases rest with
    | none =>
      refine ⟨[(t, c.startLineNo)], ?_, ?_, ?_⟩
      · cases fuel <;> rfl
      · simpa using hrest
      · exact ⟨rfl, hne, by simp, trivial⟩
    | some c' =>
      simp only at hrest
      obtain ⟨htext, hi', h0', hs', hn', hlast⟩ := hrest
      have hlen : c'.text.length ≤ fuel := by
        have := congrArg List.length htext
        rw [List.length_append] at this
        have := List.length_pos_iff.2 hne
        omega
      obtain ⟨out, h1, h2, h3⟩ := ih (acc ++ [(t, c.startLineNo)]) c' hi' h0' hn' hlen
      refine ⟨(t, c.startLineNo) :: out, ?_, ?_, ?_⟩
      · rw [h1]; simp
      · simp [h2, htext]
      · rw [hs'] at h3
        exact ⟨rfl, hne, fun _ => hlast, h3⟩

end Cursor
end Verif
