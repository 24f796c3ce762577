import Verif.Proofs.Lines

namespace Verif

/-- No white space at the end. -/
def EndClean (s : Str) : Prop := ∀ c, s.getLast? = some c → isWs c = false
/-- No white space at the start. -/
def StartClean (s : Str) : Prop := ∀ c, s.head? = some c → isWs c = false

theorem dropEnd_last (p : Char → Bool) (s : Str) (c : Char) (h : (dropEnd p s).getLast? = some c) :
    p c = false := by
  unfold dropEnd at h
  rw [List.getLast?_reverse] at h
  have := List.head?_dropWhile_not (p := p) (l := s.reverse)
  rw [h] at this
  simpa using this

theorem dropEnd_of_last (p : Char → Bool) (s : Str) (h : ∀ c, s.getLast? = some c → p c = false) :
    dropEnd p s = s := by
  unfold dropEnd
  have : s.reverse.dropWhile p = s.reverse := by
    cases hs : s.reverse with
    | nil => rfl
    | cons c t =>
      have : s.getLast? = some c := by rw [← List.head?_reverse, hs]; rfl
      simp [h c this]
  rw [this, List.reverse_reverse]

theorem trimEnd_clean (s : Str) (h : EndClean s) : trimEnd s = s := dropEnd_of_last isWs s h

theorem trimEnd_endClean (s : Str) : EndClean (trimEnd s) := fun c hc => dropEnd_last isWs s c hc

theorem trimEnd_idem (s : Str) : trimEnd (trimEnd s) = trimEnd s :=
  trimEnd_clean _ (trimEnd_endClean s)

theorem dropEnd_append_all (p : Char → Bool) (a b : Str) (hb : ∀ c ∈ b, p c = true) :
    dropEnd p (a ++ b) = dropEnd p a := by
  unfold dropEnd
  rw [List.reverse_append]
  have : ∀ (x y : Str), (∀ c ∈ x, p c = true) → (x ++ y).dropWhile p = y.dropWhile p := by
    intro x y hx
    induction x with
    | nil => rfl
    | cons c x ih =>
      rw [List.cons_append, List.dropWhile_cons, if_pos (hx c (by simp))]
      exact ih (fun d hd => hx d (by simp [hd]))
  rw [this _ _ (by intro c hc; exact hb c (by simpa using hc))]

theorem trimEnd_append_ws (a b : Str) (hb : ∀ c ∈ b, isWs c = true) : trimEnd (a ++ b) = trimEnd a :=
  dropEnd_append_all isWs a b hb

theorem trimEnd_append_ne (a b : Str) (h : trimEnd b ≠ []) : trimEnd (a ++ b) = a ++ trimEnd b := by
  apply dropEnd_append_of_not
  apply Classical.byContradiction
  intro hn
  apply h
  have hall : ∀ c ∈ b, isWs c = true := by
    intro c hc
    cases hh : isWs c with
    | true => rfl
    | false => exact absurd ⟨c, hc, hh⟩ hn
  have := dropEnd_append_all isWs [] b hall
  rw [List.nil_append] at this
  rw [trimEnd, this]; rfl

theorem trimEnd_eq_nil_iff (s : Str) : trimEnd s = [] ↔ ∀ c ∈ s, isWs c = true := by
  constructor
  · intro h
    obtain ⟨t, ht, hall⟩ := dropEnd_eq isWs s
    have : dropEnd isWs s = [] := h
    rw [this] at ht
    simp at ht
    rw [ht]; exact hall
  · intro h
    have := dropEnd_append_all isWs [] s h
    rw [List.nil_append] at this
    rw [trimEnd, this]; rfl

theorem trimStart_startClean (s : Str) : StartClean (trimStart s) := by
  intro c hc
  have := List.head?_dropWhile_not (p := isWs) (l := s)
  unfold trimStart at hc
  rw [hc] at this
  simpa using this

theorem trimStart_clean (s : Str) (h : StartClean s) : trimStart s = s := by
  cases s with
  | nil => rfl
  | cons c s => have := h c rfl; simp [trimStart, this]

theorem trim_endClean (s : Str) : EndClean (trim s) := trimEnd_endClean _

theorem trim_startClean (s : Str) : StartClean (trim s) := by
  intro c hc
  obtain ⟨t, ht, _⟩ := dropEnd_eq isWs (trimStart s)
  have htr : trim s = dropEnd isWs (trimStart s) := rfl
  rw [← htr] at ht
  apply trimStart_startClean s c
  rw [ht]
  cases hts : trim s with
  | nil => rw [hts] at hc; cases hc
  | cons d r => rw [hts] at hc; simpa using hc

theorem trim_clean (s : Str) (h1 : StartClean s) (h2 : EndClean s) : trim s = s := by
  unfold trim; rw [trimStart_clean s h1, trimEnd_clean s h2]

theorem trim_trim (s : Str) : trim (trim s) = trim s :=
  trim_clean _ (trim_startClean s) (trim_endClean s)

theorem trim_space_append (s : Str) : trim (' ' :: s) = trim s := by
  have : isWs ' ' = true := by decide
  simp [trim, trimStart, this]

theorem trim_eq_nil_iff (s : Str) : trim s = [] ↔ ∀ c ∈ s, isWs c = true := by
  unfold trim
  rw [trimEnd_eq_nil_iff]
  constructor
  · intro h c hc
    cases hc' : isWs c with
    | true => rfl
    | false =>
      have : c ∈ trimStart s := by
        have := List.takeWhile_append_dropWhile (p := isWs) (l := s)
        rw [← this, List.mem_append] at hc
        rcases hc with hc | hc
        · have h2 := List.all_takeWhile (p := isWs) (l := s)
          rw [List.all_eq_true] at h2
          rw [h2 c hc] at hc'; cases hc'
        · exact hc
      rw [h c this] at hc'; cases hc'
  · intro h c hc
    exact h c ((List.dropWhile_sublist isWs).mem hc)

theorem trimEnd_trimNl (s : Str) : trimEnd (trimNl s) = trimEnd s := by
  obtain ⟨t, ht, hall⟩ := dropEnd_eq (fun c => c == '\r' || c == '\n') s
  have : trimEnd s = trimEnd (trimNl s ++ t) := by
    have h : trimNl s = dropEnd (fun c => c == '\r' || c == '\n') s := rfl
    rw [h, ← ht]
  rw [this, trimEnd_append_ws]
  intro c hc
  have := hall c hc
  simp only [Bool.or_eq_true, beq_iff_eq] at this
  rcases this with rfl | rfl <;> decide

theorem indentedLine_trimEnd (s : Str) : indentedLine (trimEnd s) = indentedLine s := by
  simp only [indentedLine, trimEnd_idem]

theorem indentedLine_trimNl (s : Str) : indentedLine (trimNl s) = indentedLine s := by
  rw [← indentedLine_trimEnd, trimEnd_trimNl, indentedLine_trimEnd]

theorem trim_isEmpty_iff (s : Str) : (trim s).isEmpty = true ↔ trimEnd s = [] := by
  rw [List.isEmpty_iff, trim_eq_nil_iff, trimEnd_eq_nil_iff]

end Verif
