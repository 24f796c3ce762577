import Verif.Spec.Sections
import Verif.Proofs.Sections
import Verif.Proofs.Trim
import Verif.Model.VersionWrite

namespace Verif
open ChunkSpec SectionSpec

theorem stripPrefix_eq_lit (p s : Str) : stripPrefix p s = lit p s := by
  induction p generalizing s with
  | nil => cases s <;> simp [stripPrefix]
  | cons c p ih => cases s <;> simp [stripPrefix, ih]

theorem indentedLine_depth_zero_header (l r : Str) (h : (indentedLine l).depth = 0)
    (hb : (indentedLine l).body = '=' :: '=' :: '=' :: r) : trimEnd l = '=' :: '=' :: '=' :: r := by
  simp only [indentedLine] at h hb
  rw [h] at hb
  simpa using hb

theorem indentedLine_header (l r : Str) (h : trimEnd l = '=' :: r) :
    indentedLine l = ⟨0, '=' :: r⟩ := by
  simp [indentedLine, h]

theorem header_trim (l : Str) : IsHeader l ↔ ∃ r, trimEnd l = '=' :: '=' :: '=' :: r := by
  constructor
  · rintro ⟨r, rfl⟩
    by_cases hr : trimEnd r = []
    · refine ⟨[], ?_⟩
      rw [trimEnd_eq_nil_iff] at hr
      have := trimEnd_append_ws cs!"===" r hr
      simp only [List.cons_append, List.nil_append] at this
      rw [this]; decide
    · refine ⟨trimEnd r, ?_⟩
      have := trimEnd_append_ne cs!"===" r hr
      simpa using this
  · rintro ⟨r, h⟩
    obtain ⟨t, ht, _⟩ := dropEnd_eq isWs l
    have : dropEnd isWs l = trimEnd l := rfl
    rw [this, h] at ht
    exact ⟨r ++ t, by rw [ht]; simp⟩

theorem content_append_nl (a : Str) : content (a ++ ['\n']) = stripCr a := by
  simp [content, stripCr]

theorem trimEnd_content (l : Str) : trimEnd (content l) = trimEnd l := by
  unfold content
  split
  · rename_i h
    have hl : l = l.dropLast ++ ['\n'] := by
      have hne : l ≠ [] := by rintro rfl; cases h
      rw [List.getLast?_eq_some_getLast hne] at h
      simp only [Option.some.injEq] at h
      rw [← h, List.dropLast_concat_getLast]
    have h1 : trimEnd l = trimEnd l.dropLast := by
      conv => lhs; rw [hl]
      exact trimEnd_append_ws _ _ (by intro c hc; simp at hc; subst hc; decide)
    split
    · rename_i h2
      have hl2 : l.dropLast = l.dropLast.dropLast ++ ['\r'] := by
        have hne : l.dropLast ≠ [] := by intro hh; rw [hh] at h2; cases h2
        rw [List.getLast?_eq_some_getLast hne] at h2
        simp only [Option.some.injEq] at h2
        rw [← h2, List.dropLast_concat_getLast]
      rw [h1]
      conv => rhs; rw [hl2]
      exact (trimEnd_append_ws _ _ (by intro c hc; simp at hc; subst hc; decide)).symm
    · exact h1.symm
  · rfl

theorem indentedLine_content (l : Str) : indentedLine (content l) = indentedLine l := by
  rw [← indentedLine_trimEnd, trimEnd_content, indentedLine_trimEnd]

namespace PState
variable {L : Lang}

/-- A merged line is a dash line, so not a header. -/
theorem continues_not_header (sec : Sec) (f l : Str) (h : continues sec f l = true) :
    ¬ IsHeader l ∧ trimEnd l ≠ [] ∧ ∃ n r, trimEnd l = List.replicate n ' ' ++ '-' :: ' ' :: r := by
  unfold continues at h
  rw [Bool.and_eq_true] at h
  have := (dash_iff (content f) (content l)).1 h.2
  obtain ⟨body, hb, c, hc, hcw⟩ := this
  have h1 : trimEnd (content l) = List.replicate (2 * (depthOf (content f) + 1)) ' ' ++
      '-' :: ' ' :: trimEnd body := by
    rw [hb]
    have : List.replicate (2 * (depthOf (content f) + 1)) ' ' ++ '-' :: ' ' :: body =
      (List.replicate (2 * (depthOf (content f) + 1)) ' ' ++ ['-', ' ']) ++ body := by simp
    rw [this, trimEnd_append_ne]
    · simp
    · intro hn; rw [trimEnd_eq_nil_iff] at hn; rw [hn c hc] at hcw; cases hcw
  rw [trimEnd_content] at h1
  refine ⟨?_, ?_, _, _, h1⟩
  · rw [header_trim]
    rintro ⟨r, hr⟩
    rw [h1] at hr
    have : 2 * (depthOf (content f) + 1) = (2 * depthOf (content f) + 1) + 1 := by omega
    rw [this, List.replicate_succ] at hr
    simp at hr
  · rw [h1]; simp

theorem runLines_headers (ls : List Str) (st st' : PState L) (h : runLines st ls = .ok st') :
    ∃ ss, HeadersAre ls ss ∧ (ss.map Sec.rank).Pairwise (· < ·) ∧
      (∀ s ∈ ss, st.sec.rank < s.rank) ∧ st'.sec = ss.getLast?.getD st.sec := by
  fun_induction runLines st ls with
  | case1 st => cases h; exact ⟨[], .nil, by simp, by simp, rfl⟩
  | case2 st f ls chunk hempty ih =>
    obtain ⟨ss, h1, h2, h3, h4⟩ := ih h
    refine ⟨ss, ?_, h2, h3, h4⟩
    -- a blank chunk is a single blank line
    have hnone : ls.takeWhile (continues st.sec f) = [] := by
      cases htw : ls.takeWhile (continues st.sec f) with
      | nil => rfl
      | cons l t =>
        exfalso
        have hl : continues st.sec f l = true := by
          have := List.all_takeWhile (p := continues st.sec f) (l := ls)
          rw [htw, List.all_eq_true] at this
          exact this l (by simp)
        have hn := (continues_not_header st.sec f l hl).2.1
        rw [trim_isEmpty_iff] at hempty
        simp only [chunk] at hempty
        rw [trimEnd_trimNl, trimEnd_eq_nil_iff] at hempty
        apply hn
        rw [trimEnd_eq_nil_iff]
        intro c hc
        exact hempty c (by rw [htw]; simp [hc])
    have hdrop : ls.dropWhile (continues st.sec f) = ls := by
      have := List.takeWhile_append_dropWhile (p := continues st.sec f) (l := ls)
      rw [hnone] at this; exact this
    rw [hdrop] at h1
    apply HeadersAre.skip _ h1
    rw [header_trim]
    rintro ⟨r, hr⟩
    rw [trim_isEmpty_iff] at hempty
    simp only [chunk] at hempty
    rw [trimEnd_trimNl, hnone] at hempty
    simp only [List.flatten_cons, List.flatten_nil, List.append_nil] at hempty
    rw [hr] at hempty; cases hempty
  | case3 => cases h
  | case4 => cases h
  | case5 st f ls chunk hempty st1 hpl ih =>
    obtain ⟨ss, h1, h2, h3, h4⟩ := ih h
    -- the merged lines are not headers
    have hmerged : ∀ ss', HeadersAre (ls.dropWhile (continues st.sec f)) ss' → HeadersAre ls ss' := by
      intro ss' hh
      rw [← List.takeWhile_append_dropWhile (p := continues st.sec f) (l := ls)]
      have hall := List.all_takeWhile (p := continues st.sec f) (l := ls)
      rw [List.all_eq_true] at hall
      generalize ls.takeWhile (continues st.sec f) = tw at hall
      induction tw with
      | nil => exact hh
      | cons l tw ih =>
        exact .skip (continues_not_header st.sec f l (hall l (by simp))).1
          (ih (fun x hx => hall x (by simp [hx])))
    have hind : indentedLine chunk = indentedLine (f :: ls.takeWhile (continues st.sec f)).flatten :=
      indentedLine_trimNl _
    simp only [parseLine] at hpl
    split at hpl
    · rename_i hhead
      -- a header chunk
      split at hpl
      · cases hpl
      · rename_i st2 next hsec
        split at hpl
        · cases hpl
        · rename_i hrank
          cases hpl
          -- in the plan section no header is accepted, so nothing was merged
          have hnp : st.sec ≠ .plan := by
            intro hp; rw [hp] at hrank
            cases next <;> simp [Sec.rank] at hrank
          have hcf : continues st.sec f = fun _ => false := by funext l; simp [continues, hnp]
          rw [hcf] at hmerged hind
          have htw : ls.takeWhile (fun _ => false) = [] := by cases ls <;> simp
          rw [htw] at hind
          simp only [List.flatten_cons, List.flatten_nil, List.append_nil] at hind
          have hbody : ∃ r, (indentedLine f).body = '=' :: '=' :: '=' :: r := by
            rw [hind] at hhead
            have := hhead.2
            rw [stripPrefix_eq_lit] at this
            obtain ⟨r, hr⟩ := Option.isSome_iff_exists.1 this
            exact ⟨r, by have := lit_some hr; simpa using this⟩
          obtain ⟨r, hr⟩ := hbody
          have hft := indentedLine_depth_zero_header f r (by rw [← hind]; exact hhead.1) hr
          have hnames : Names next f := by
            rw [hind, hr] at hsec
            unfold sectionHeader at hsec
            split at hsec
            · rename_i heq; cases hsec; simp only [Names]; rw [hft, heq]; rfl
            · split at hsec
              · rename_i heq; cases hsec; simp only [Names]; rw [hft, heq]; rfl
              · split at hsec
                · rename_i rest hrest
                  split at hsec
                  · rename_i hcond
                    split at hsec
                    · cases hsec
                    · cases hsec
                      simp only [Names]
                      rw [stripPrefix_eq_lit] at hrest
                      have := lit_some hrest
                      refine ⟨rest, by rw [hft, this]; rfl, ?_⟩
                      rw [Bool.or_eq_true] at hcond
                      rcases hcond with h | h
                      · left; simpa using h
                      · right
                        cases rest with
                        | nil => simp at h
                        | cons c r' => simp at h; exact ⟨r', by rw [h]⟩
                  · cases hsec
                · cases hsec
          refine ⟨next :: ss, .header hnames (hmerged _ (by simpa [hcf] using h1)), ?_, ?_, ?_⟩
          · rw [List.map_cons, List.pairwise_cons]
            refine ⟨?_, h2⟩
            intro a ha
            rw [List.mem_map] at ha
            obtain ⟨s, hs, rfl⟩ := ha
            exact h3 s hs
          · intro s hs
            simp only [List.mem_cons] at hs
            rcases hs with rfl | hs
            · omega
            · have := h3 s hs
              have h5 : st.sec.rank < next.rank := by omega
              exact Nat.lt_trans h5 this
          · rw [h4]
            cases ss with
            | nil => rfl
            | cons a t => simp [List.getLast?_cons]
    · rename_i hnothead
      -- not a header: the section does not change
      have hsame : st1.sec = st.sec := by
        split at hpl
        · split at hpl
          · cases hpl; rfl
          · cases hpl
        · simp only [versionLine] at hpl
          split at hpl
          · cases hpl; rfl
          · split at hpl
            · simp only [versionDetail] at hpl
              split at hpl
              · cases hpl
              · split at hpl
                · cases hpl
                · split at hpl
                  · cases hpl; rfl
                  · split at hpl
                    · cases hpl; rfl
                    · cases hpl
            · cases hpl
        · split at hpl
          · cases hpl
          · cases hpl
          · cases hpl; rfl
        · simp only [planLine] at hpl
          split at hpl
          · cases hpl
          · split at hpl
            · cases hpl
            · cases hpl; rfl
      rw [hsame] at h3 h4
      refine ⟨ss, .skip ?_ (hmerged _ h1), h2, h3, h4⟩
      rw [header_trim]
      rintro ⟨r, hr⟩
      apply hnothead
      rw [hind]
      -- `f` heads the chunk, so the chunk starts with `===` too
      obtain ⟨t, ht, _⟩ := dropEnd_eq isWs f
      have hft : f = '=' :: '=' :: '=' :: (r ++ t) := by
        have : dropEnd isWs f = trimEnd f := rfl
        rw [this, hr] at ht; rw [ht]; simp
      have : IsHeader (f :: ls.takeWhile (continues st.sec f)).flatten := by
        refine ⟨r ++ t ++ (ls.takeWhile (continues st.sec f)).flatten, ?_⟩
        rw [hft]; simp
      obtain ⟨r2, hr2⟩ := (header_trim _).1 this
      rw [indentedLine_header _ _ hr2]
      refine ⟨rfl, ?_⟩
      simp [stripPrefix]

theorem rank_pairwise_sublist (ss : List Sec) (h : (ss.map Sec.rank).Pairwise (· < ·))
    (h0 : ∀ s ∈ ss, 0 < s.rank) : ss.Sublist order := by
  have hp : ss.Pairwise (fun a b => a.rank < b.rank) := by
    rw [List.pairwise_map] at h; exact h
  clear h
  match ss, hp, h0 with
  | [], _, _ => simp
  | [a], _, h0 =>
    have := h0 a (by simp)
    cases a <;> simp [Sec.rank] at this <;> decide
  | [a, b], hp, h0 =>
    have ha := h0 a (by simp)
    simp only [List.pairwise_cons, List.mem_singleton, forall_eq, List.not_mem_nil] at hp
    have hab := hp.1
    cases a <;> cases b <;> simp [Sec.rank] at ha hab <;> decide
  | [a, b, c], hp, h0 =>
    have ha := h0 a (by simp)
    simp only [List.pairwise_cons, List.mem_cons, List.not_mem_nil, or_false, forall_eq_or_imp, forall_eq] at hp
    have hab := hp.1.1
    have hbc := hp.2.1
    cases a <;> cases b <;> cases c <;> simp [Sec.rank] at ha hab hbc <;> decide
  | a :: b :: c :: d :: t, hp, h0 =>
    have ha := h0 a (by simp)
    simp only [List.pairwise_cons, List.mem_cons] at hp
    have hab := hp.1 b (by simp)
    have hbc := hp.2.1 c (by simp)
    have hcd := hp.2.2.1 d (by simp)
    have : d.rank ≤ 3 := by cases d <;> simp [Sec.rank]
    omega

end PState
end Verif
