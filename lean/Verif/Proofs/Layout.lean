import Verif.Proofs.SectionRun
import Verif.Spec.Layout
/-!
# The layout of lines does not matter
-/

set_option autoImplicit false

namespace Verif
open ChunkSpec SectionSpec PState

theorem SectionSpec.Relaid.noDash {ls ls' : List Str} (h : Relaid ls ls') : NoDashNext ls ↔ NoDashNext ls' := by
  have hblank : ∀ (l : Str) (ls : List Str), trimEnd l = [] → NoDashNext (l :: ls) := by
    intro l ls hl m hm
    simp only [List.head?_cons, Option.some.injEq] at hm
    subst hm
    rw [hl]
    rintro ⟨n, r, hr⟩
    have := congrArg List.length hr
    simp at this
  induction h with
  | nil => rfl
  | same l _ _ => simp [NoDashNext]
  | ending l l' he _ _ _ => simp [NoDashNext, he]
  | more l he hn _ ih => exact iff_of_true (hblank l _ he) (ih.1 hn)
  | fewer l he hn _ ih => exact iff_of_true hn (hblank l _ he)

theorem takeWhile_noDash (sec : Sec) (f : Str) {ls : List Str} (h : NoDashNext ls) :
    ls.takeWhile (continues sec f) = [] ∧ ls.dropWhile (continues sec f) = ls := by
  cases ls with
  | nil => exact ⟨rfl, rfl⟩
  | cons l ls =>
    have : continues sec f l ≠ true := by
      intro hc
      obtain ⟨_, _, n, r, hr⟩ := continues_not_header sec f l hc
      exact h l rfl ⟨n, r, hr⟩
    rw [List.takeWhile_cons_of_neg this, List.dropWhile_cons_of_neg this]
    exact ⟨rfl, rfl⟩

theorem continues_congr (sec : Sec) {f f' l l' : Str} (hf : trimEnd f = trimEnd f') (hl : trimEnd l = trimEnd l') :
    continues sec f l = continues sec f' l' := by
  have key : ∀ {a b : Str}, trimEnd a = trimEnd b → indentedLine (content a) = indentedLine (content b) := by
    intro a b h
    rw [← indentedLine_trimEnd (content a), ← indentedLine_trimEnd (content b), trimEnd_content, trimEnd_content, h]
  unfold continues
  rw [key hf, key hl]

theorem trimEnd_append_congr (a : Str) {x y : Str} (h : trimEnd x = trimEnd y) : trimEnd (a ++ x) = trimEnd (a ++ y) := by
  by_cases hx : trimEnd x = []
  · have hy : trimEnd y = [] := h ▸ hx
    rw [trimEnd_append_ws a x ((trimEnd_eq_nil_iff x).1 hx), trimEnd_append_ws a y ((trimEnd_eq_nil_iff y).1 hy)]
  · rw [trimEnd_append_ne a x hx, trimEnd_append_ne a y (h ▸ hx), h]

/-- What a line takes in, and what is left. -/
theorem SectionSpec.Relaid.split (sec : Sec) (f : Str) {ls ls' : List Str} (h : Relaid ls ls') :
    trimEnd (ls.takeWhile (continues sec f)).flatten = trimEnd (ls'.takeWhile (continues sec f)).flatten ∧
    Relaid (ls.dropWhile (continues sec f)) (ls'.dropWhile (continues sec f)) := by
  induction h with
  | nil => exact ⟨rfl, .nil⟩
  | same l hr ih =>
    by_cases hc : continues sec f l = true
    · simp only [List.takeWhile_cons_of_pos hc, List.dropWhile_cons_of_pos hc, List.flatten_cons]
      exact ⟨trimEnd_append_congr l ih.1, ih.2⟩
    · simp only [List.takeWhile_cons_of_neg hc, List.dropWhile_cons_of_neg hc]
      exact ⟨trivial, .same l hr⟩
  | ending l l' he hn hr ih =>
    have hcc := continues_congr sec (rfl : trimEnd f = trimEnd f) he
    by_cases hc : continues sec f l = true
    · have hc' : continues sec f l' = true := hcc ▸ hc
      obtain ⟨h1, h2⟩ := takeWhile_noDash sec f hn
      obtain ⟨h3, h4⟩ := takeWhile_noDash sec f (hr.noDash.1 hn)
      simp only [List.takeWhile_cons_of_pos hc, List.dropWhile_cons_of_pos hc, List.takeWhile_cons_of_pos hc',
        List.dropWhile_cons_of_pos hc', List.flatten_cons, h1, h2, h3, h4, List.flatten_nil, List.append_nil]
      exact ⟨he, hr⟩
    · have hc' : ¬ continues sec f l' = true := hcc ▸ hc
      simp only [List.takeWhile_cons_of_neg hc, List.dropWhile_cons_of_neg hc, List.takeWhile_cons_of_neg hc',
        List.dropWhile_cons_of_neg hc']
      exact ⟨trivial, .ending l l' he hn hr⟩
  | more l he hn hr ih =>
    obtain ⟨h1, h2⟩ := takeWhile_noDash sec f ((Relaid.more l he hn hr).noDash.2 (hr.noDash.1 hn))
    obtain ⟨h3, h4⟩ := takeWhile_noDash sec f (hr.noDash.1 hn)
    rw [h1, h2, h3, h4]
    exact ⟨rfl, .more l he hn hr⟩
  | fewer l he hn hr ih =>
    obtain ⟨h1, h2⟩ := takeWhile_noDash sec f hn
    obtain ⟨h3, h4⟩ := takeWhile_noDash sec f ((Relaid.fewer l he hn hr).noDash.1 hn)
    rw [h1, h2, h3, h4]
    exact ⟨rfl, .fewer l he hn hr⟩

namespace PState
variable {L : Lang}

theorem runLines_relaid {ls ls' : List Str} (h : Relaid ls ls') (st : PState L) : runLines st ls = runLines st ls' := by
  have : ∀ n, ∀ {ls ls' : List Str}, Relaid ls ls' → ls.length + ls'.length ≤ n → ∀ st : PState L,
      runLines st ls = runLines st ls' := by
    intro n
    induction n with
    | zero =>
      intro ls ls' h hn st
      cases h
      · rfl
      all_goals simp at hn
    | succ n ih =>
      intro ls ls' h hn st
      have hle : ∀ (p : Str → Bool) (l : List Str), (l.dropWhile p).length ≤ l.length :=
        fun p l => (List.dropWhile_sublist p).length_le
      cases h with
      | nil => rfl
      | @same ls ls' l hr =>
        obtain ⟨h1, h2⟩ := hr.split st.sec l
        rw [runLines, runLines]
        have he : trimEnd (l :: ls.takeWhile (continues st.sec l)).flatten =
            trimEnd (l :: ls'.takeWhile (continues st.sec l)).flatten := by
          simp only [List.flatten_cons]; exact trimEnd_append_congr l h1
        have hi : ∀ s : PState L, runLines s (ls.dropWhile (continues st.sec l)) = runLines s (ls'.dropWhile (continues st.sec l)) := by
          intro s
          refine ih h2 ?_ s
          have := hle (continues st.sec l) ls
          have := hle (continues st.sec l) ls'
          simp only [List.length_cons] at hn
          omega
        rw [show (trim (trimNl (l :: ls.takeWhile (continues st.sec l)).flatten)).isEmpty =
            (trim (trimNl (l :: ls'.takeWhile (continues st.sec l)).flatten)).isEmpty by
          rw [Bool.eq_iff_iff, trim_isEmpty_iff, trim_isEmpty_iff, trimEnd_trimNl, trimEnd_trimNl, he],
          show st.parseLine (trimNl (l :: ls.takeWhile (continues st.sec l)).flatten) =
            st.parseLine (trimNl (l :: ls'.takeWhile (continues st.sec l)).flatten) by
          rw [parseLine_trimNl, parseLine_trimNl, ← parseLine_trimEnd, he, parseLine_trimEnd]]
        split
        · exact hi st
        · split
          · rfl
          · rfl
          · exact hi _
      | @ending ls ls' l l' he hnd hr =>
        have h1 := (takeWhile_noDash st.sec l hnd).1
        have h2 := (takeWhile_noDash st.sec l' (hr.noDash.1 hnd)).1
        have hi : ∀ s : PState L, runLines s ls = runLines s ls' := by
          intro s
          refine ih hr ?_ s
          simp only [List.length_cons] at hn
          omega
        by_cases hb : trimEnd l = []
        · rw [runLines_blank st l ls h1 hb, runLines_blank st l' ls' h2 (he ▸ hb), hi]
        · rw [runLines_cons st l ls h1 hb, runLines_cons st l' ls' h2 (he ▸ hb), ← parseLine_trimEnd st l, he,
            parseLine_trimEnd]
          congr 1
          funext s
          exact hi s
      | @more ls _ l he hnd hr =>
        rw [runLines_blank st l ls (takeWhile_noDash st.sec l hnd).1 he]
        refine ih hr ?_ st
        simp only [List.length_cons] at hn
        omega
      | @fewer _ ls' l he hnd hr =>
        rw [runLines_blank st l ls' (takeWhile_noDash st.sec l (hr.noDash.1 hnd)).1 he]
        refine ih hr ?_ st
        simp only [List.length_cons] at hn
        omega
  exact this _ h (Nat.le_refl _) st

end PState
end Verif
