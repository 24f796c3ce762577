import Verif.Model.Sections
import Verif.Proofs.Lines

namespace Verif
open ChunkSpec
namespace PState
variable {L : Lang}

/-- Does a physical line continue the chunk that starts with line `f` in section `sec`? -/
def continues (sec : Sec) (f l : Str) : Bool :=
  decide (sec = .plan) && ((indentedLine (content l)).depth == (indentedLine (content f)).depth + 1 &&
    startsDash (indentedLine (content l)).body)

/-- The driver over physical lines. -/
def runLines (st : PState L) (ls : List Str) : Res PErr (PState L) :=
  match ls with
  | [] => .ok st
  | f :: ls =>
    let chunk := trimNl (f :: ls.takeWhile (continues st.sec f)).flatten
    if (trim chunk).isEmpty then runLines st (ls.dropWhile (continues st.sec f))
    else
      match st.parseLine chunk with
      | .err e => .err e
      | .panic => .panic
      | .ok st' => runLines st' (ls.dropWhile (continues st.sec f))
  termination_by ls.length
  decreasing_by
    all_goals
      have := (List.dropWhile_sublist (continues st.sec f) (l := ls)).length_le
      simp; omega

theorem takeChunk_continues (sec : Sec) (text : Str) (n : Nat) (f : Str) (ls : List Str)
    (h : physLines text = f :: ls) :
    Cursor.takeChunk (policy sec) ⟨text, 0, n, n⟩ =
      some ((f :: ls.takeWhile (continues sec f)).flatten, n,
        Cursor.new (ls.dropWhile (continues sec f)).flatten
          (n + 1 + (ls.takeWhile (continues sec f)).length)) := by
  by_cases hs : sec = .plan
  · subst hs
    have := takeChunk_phys (fun a b => (indentedLine b).depth == (indentedLine a).depth + 1 &&
      startsDash (indentedLine b).body) text n f ls h
    have hp : policy .plan = fun first _ l => (indentedLine l.line).depth ==
      (indentedLine first.line).depth + 1 && startsDash (indentedLine l.line).body := rfl
    have hc : continues .plan f = fun l => (indentedLine (content l)).depth ==
      (indentedLine (content f)).depth + 1 && startsDash (indentedLine (content l)).body := by
      funext l; simp [continues]
    rw [hp, this, hc]
  · have := takeChunk_phys (fun _ _ => false) text n f ls h
    have hp : policy sec = fun _ _ _ => false := by simp [policy, hs]
    have hc : continues sec f = fun _ => false := by funext l; simp [continues, hs]
    rw [hp, this, hc]

theorem parseLoop_eq_runLines (fuel : Nat) (st : PState L) (text : Str) (n : Nat)
    (hf : text.length ≤ fuel) :
    parseLoop fuel st (Cursor.new text n) = runLines st (physLines text) := by
  induction fuel generalizing st text n with
  | zero =>
    have : text = [] := List.length_eq_zero_iff.1 (by omega)
    subst this
    simp [Cursor.new, parseLoop, runLines, physLines]
  | succ fuel ih =>
    cases hp : physLines text with
    | nil =>
      have := physLines_flatten text
      rw [hp] at this
      subst this
      simp [Cursor.new, parseLoop, runLines]
    | cons f ls =>
      have hne : text ≠ [] := by rintro rfl; simp [physLines] at hp
      have hnew : Cursor.new text n = some ⟨text, 0, n, n⟩ := by
        simp [Cursor.new, hne]
      rw [hnew, parseLoop, takeChunk_continues st.sec text n f ls hp, runLines]
      simp only
      have hrest : ∀ (sec : Sec), physLines (ls.dropWhile (continues sec f)).flatten =
          ls.dropWhile (continues sec f) := by
        intro sec
        apply physLines_append_suffix (pre := f :: ls.takeWhile (continues sec f)) (s := text)
        rw [hp, List.cons_append, List.takeWhile_append_dropWhile]
      have hlen : ∀ (sec : Sec), (ls.dropWhile (continues sec f)).flatten.length ≤ fuel := by
        intro sec
        have h1 := (physLines_cons hp).1
        have hne : f ≠ [] := by
          rcases (physLines_cons hp).2.2 with ⟨a, rfl, _⟩ | h
          · simp
          · exact h.1
        have h2 : ls.flatten.length = (ls.takeWhile (continues sec f)).flatten.length +
            (ls.dropWhile (continues sec f)).flatten.length := by
          rw [← List.length_append, ← List.flatten_append, List.takeWhile_append_dropWhile]
        have h3 := congrArg List.length h1
        rw [List.length_append] at h3
        have h4 := List.length_pos_iff.2 hne
        omega
      split
      · rw [ih _ _ _ (hlen _), hrest]
      · cases st.parseLine (trimNl (f :: ls.takeWhile (continues st.sec f)).flatten) with
        | err e => rfl
        | panic => rfl
        | ok st' => simp only; rw [ih _ _ _ (hlen _), hrest]

theorem parseSections_eq (text : Str) :
    parseSections L text = runLines PState.init (physLines text) :=
  parseLoop_eq_runLines _ _ _ _ (Nat.le_refl _)

end PState
end Verif
