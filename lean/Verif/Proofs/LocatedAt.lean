import Verif.Proofs.Located
import Verif.Proofs.PlanWhole
/-!
# Contexts name the right lines
-/

namespace Verif

set_option autoImplicit false

open LocSpec ChunkSpec Grammar TreeSpec

theorem physLines_prefix {s : Str} {pre suf : List Str} (h : physLines s = pre ++ suf) :
    physLines pre.flatten = pre := by
  induction pre generalizing s with
  | nil => rfl
  | cons f pre ih =>
    obtain ⟨h1, h2, h3⟩ := physLines_cons h
    have hp := ih h2
    rcases h3 with ⟨a, rfl, ha⟩ | ⟨hne, hn, hl⟩
    · rw [List.flatten_cons]
      have : a ++ ['\n'] ++ pre.flatten = a ++ '\n' :: pre.flatten := by simp
      rw [this, physLines_nl _ _ ha, hp]
    · have : pre = [] := by
        cases pre with
        | nil => rfl
        | cons _ _ => simp at hl
      subst this
      simp [physLines_last f hn hne]

/-- What stands before the body of a line is spaces, what stands after it is white space. -/
theorem indented_split (s : Str) :
    ∃ ws, s = List.replicate (2 * (indentedLine s).depth) ' ' ++ ((indentedLine s).body ++ ws) := by
  obtain ⟨ws, hws, -⟩ := dropEnd_eq isWs s
  refine ⟨ws, ?_⟩
  have hc := indentedLine_cut s
  rw [← List.append_assoc, ← hc]
  exact hws

theorem trimNl_split (s : Str) : ∃ t, s = trimNl s ++ t := by
  obtain ⟨t, h, -⟩ := dropEnd_eq (fun c => c == '\r' || c == '\n') s
  exact ⟨t, h⟩

theorem matched_append (x r : Str) : matched (x ++ r) r = x := by
  simp [matched]

theorem nodeText_ne {n : LineNode SLine SAddendum} {x : Str} (h : NodeText n x) : x ≠ [] := by
  cases h with
  | relation h => cases h <;> simp
  | addendum h => obtain ⟨w, n, y, -, -, -, rfl⟩ := h; simp

/-- A line that was read shows its spelling, which is the beginning of the text. -/
theorem nodeLineAt_reads {n : Nat} {s : Str} {x : LLine} (h : nodeLineAt n s = some x) :
    (ctxOf x).no = n ∧ NodeText (bare x) (ctxOf x).line ∧ ∃ tail, s = (ctxOf x).line ++ tail := by
  simp only [nodeLineAt] at h
  split at h
  · rename_i r hr
    cases h
    obtain ⟨y, hy, hg⟩ := reads_relLine _ _ _ hr
    have : matched s r.2 = y := by rw [hy, matched_append]
    refine ⟨rfl, ?_, r.2, ?_⟩
    · simp only [bare, ctxOf, this]; exact .relation hg
    · simp only [ctxOf, this]; exact hy
  · cases hr : pAddendum s with
    | none => rw [hr] at h; cases h
    | some r =>
      rw [hr] at h
      cases h
      obtain ⟨y, hy, hg⟩ := reads_addendum _ _ _ hr
      have : matched s r.2 = y := by rw [hy, matched_append]
      refine ⟨rfl, ?_, r.2, ?_⟩
      · simp only [bare, ctxOf, this]; exact .addendum hg
      · simp only [ctxOf, this]; exact hy

theorem topLineAt_reads {n : Nat} {s : Str} {x : LLine} (h : topLineAt n s = some x) :
    (ctxOf x).no = n ∧ NodeText (bare x) (ctxOf x).line ∧ ∃ tail, s = (ctxOf x).line ++ tail := by
  simp only [topLineAt] at h
  split at h
  · rename_i r hr
    cases h
    obtain ⟨y, hy, hg⟩ := reads_root _ _ _ hr
    have : matched s r.2 = y := by rw [hy, matched_append]
    refine ⟨rfl, ?_, r.2, ?_⟩
    · simp only [bare, ctxOf, this]; exact .relation hg
    · simp only [ctxOf, this]; exact hy
  · exact nodeLineAt_reads h

namespace PState

theorem planLine_reads {d n : Nat} {s : Str} {x : LLine}
    (h : (if d = 0 then topLineAt n s else nodeLineAt n s) = some x) :
    (ctxOf x).no = n ∧ NodeText (LocSpec.bare x) (ctxOf x).line ∧ ∃ tail, s = (ctxOf x).line ++ tail := by
  split at h
  · exact topLineAt_reads h
  · exact nodeLineAt_reads h

/-- The context of an error names the line that was being read. -/
theorem parseLineAt_err {st : PState locLang} {n : Nat} {chunk : Str} {e : PErr} {c : Ctx}
    (hne : trimEnd chunk ≠ []) (h : st.parseLineAt n chunk = .err (e, c)) (he : e ≠ .initialLine) :
    c.no = n ∧ c.line ≠ [] ∧ ∃ k tail, chunk = List.replicate k ' ' ++ (c.line ++ tail) := by
  obtain ⟨ws, hws⟩ := indented_split chunk
  have hb := indented_body chunk hne
  have body : (⟨n, (indentedLine chunk).body⟩ : Ctx) = c →
      c.no = n ∧ c.line ≠ [] ∧ ∃ k tail, chunk = List.replicate k ' ' ++ (c.line ++ tail) := by
    rintro rfl; exact ⟨rfl, hb, _, ws, hws⟩
  have whole : (⟨n, chunk⟩ : Ctx) = c →
      c.no = n ∧ c.line ≠ [] ∧ ∃ k tail, chunk = List.replicate k ' ' ++ (c.line ++ tail) := by
    rintro rfl
    refine ⟨rfl, ?_, 0, [], by simp⟩
    rintro h0
    have : chunk = [] := h0
    subst this
    exact hne rfl
  simp only [parseLineAt] at h
  split at h
  · split at h
    · cases h; exact body rfl
    · split at h
      · cases h; exact whole rfl
      · cases h
  · split at h
    · split at h
      · cases h
      · cases h; exact absurd rfl he
    · split at h
      · cases h; exact body rfl
      · cases h
      · cases h
    · split at h
      · cases h; exact whole rfl
      · cases h
      · cases h
    · simp only [planLineAt] at h
      split at h
      · cases h; exact body rfl
      · rename_i x hx
        obtain ⟨h1, h2, tail, h3⟩ := planLine_reads hx
        split at h
        · cases h
          refine ⟨h1, nodeText_ne h2, 2 * (indentedLine chunk).depth, tail ++ ws, ?_⟩
          have hws' := hws
          rw [h3, List.append_assoc] at hws'
          exact hws'
        · cases h

/-- A line either leaves the trees alone or is added to them. -/
theorem parseLineAt_ok {st st' : PState locLang} {n : Nat} {chunk : Str}
    (h : st.parseLineAt n chunk = .ok st') :
    st'.tree = st.tree ∨ ∃ x d, TreeBuilder.addLine (ρ := SLine × Ctx) (α := SAddendum × Ctx) st.tree d x = .ok st'.tree ∧
      (ctxOf x).no = n ∧ NodeText (LocSpec.bare x) (ctxOf x).line ∧
      ∃ k tail, chunk = List.replicate k ' ' ++ ((ctxOf x).line ++ tail) := by
  simp only [parseLineAt] at h
  split at h
  · split at h
    · cases h
    · rename_i st1 next hh
      split at h
      · cases h
      · cases h
        refine .inl ?_
        simp only [sectionHeader] at hh
        split at hh
        · cases hh; rfl
        · split at hh
          · cases hh; rfl
          · split at hh
            · split at hh
              · split at hh
                · cases hh
                · cases hh; rfl
              · cases hh
            · cases hh
  · split at h
    · split at h
      · cases h; exact .inl rfl
      · cases h
    · split at h
      · cases h
      · cases h
      · rename_i st1 hv
        cases h
        refine .inl ?_
        simp only [versionLine] at hv
        split at hv
        · cases hv; rfl
        · split at hv
          · simp only [versionDetail] at hv
            split at hv
            · cases hv
            · split at hv
              · cases hv
              · split at hv
                · cases hv; rfl
                · split at hv
                  · cases hv; rfl
                  · cases hv
          · cases hv
    · split at h
      · cases h
      · cases h
      · cases h; exact .inl rfl
    · simp only [planLineAt] at h
      split at h
      · cases h
      · rename_i x hx
        obtain ⟨h1, h2, tail, h3⟩ := planLine_reads hx
        obtain ⟨ws, hws⟩ := indented_split chunk
        split at h
        · cases h
        · rename_i t ht
          cases h
          refine .inr ⟨x, _, ht, h1, h2, 2 * (indentedLine chunk).depth, tail ++ ws, ?_⟩
          have hws' := hws
          rw [h3, List.append_assoc] at hws'
          exact hws'

theorem takeWhile_append_pre {α : Type} (p : α → Bool) (ls pre suf : List α) (h : ls.dropWhile p = pre ++ suf) :
    (ls.takeWhile p ++ pre).takeWhile p = ls.takeWhile p ∧ (ls.takeWhile p ++ pre).dropWhile p = pre := by
  have hall : ∀ a ∈ ls.takeWhile p, p a = true := by
    intro a ha
    have := List.all_takeWhile (p := p) (l := ls)
    rw [List.all_eq_true] at this
    exact this a ha
  have hpre : pre.takeWhile p = [] ∧ pre.dropWhile p = pre := by
    cases pre with
    | nil => exact ⟨rfl, rfl⟩
    | cons a pre =>
      have hn : ¬ p a = true := by
        have := List.head_dropWhile_not p (l := ls) (by rw [h]; simp)
        simp only [h, List.cons_append, List.head_cons] at this
        simp [this]
      rw [List.takeWhile_cons_of_neg hn, List.dropWhile_cons_of_neg hn]
      exact ⟨rfl, rfl⟩
  rw [List.takeWhile_append_of_pos hall, List.dropWhile_append_of_pos hall, hpre.1, hpre.2]
  simp

/-- Where the driver stops. -/
theorem runLinesAt_err {n : Nat} {st : PState locLang} {ls : List Str} {e : PErr} {c : Ctx}
    (h : runLinesAt n st ls = .err (e, c)) :
    ∃ (before : List Str) (f : Str) (run after : List Str) (st1 : PState locLang), ls = before ++ (f :: run) ++ after ∧ runLines st.bare before = .ok st1.bare ∧
      (∀ l ∈ run, continues st1.sec f l = true) ∧ trimEnd (trimNl (f :: run).flatten) ≠ [] ∧
      st1.parseLineAt (n + before.length) (trimNl (f :: run).flatten) = .err (e, c) ∧
      runLines st.bare (before ++ f :: run) = .err e := by
  fun_induction runLinesAt n st ls with
  | case1 => cases h
  | case2 n st f ls chunk m hb ih =>
    obtain ⟨before, g, run, after, st1, h1, h2, h3, h4, h5, h6⟩ := ih h
    have hs : st.bare.sec = st.sec := rfl
    have hw := takeWhile_append_pre (continues st.sec f) ls before ((g :: run) ++ after) (by rw [h1]; simp)
    have hw2 := takeWhile_append_pre (continues st.sec f) ls (before ++ g :: run) after (by rw [h1])
    refine ⟨f :: (ls.takeWhile (continues st.sec f) ++ before), g, run, after, st1, ?_, ?_, h3, h4, ?_, ?_⟩
    · have := List.takeWhile_append_dropWhile (p := continues st.sec f) (l := ls)
      rw [h1] at this
      exact (congrArg (f :: ·) this.symm).trans (by simp)
    · rw [runLines]
      simp only [hs, hw.1, hw.2]
      rw [if_pos hb]
      exact h2
    · rw [← h5]
      congr 1
      simp only [List.length_cons, List.length_append, m]; omega
    · rw [List.cons_append, List.append_assoc, runLines]
      simp only [hs, hw2.1, hw2.2]
      rw [if_pos hb]
      exact h6
  | case3 n st f ls chunk hb e he =>
    cases h
    refine ⟨[], f, ls.takeWhile (continues st.sec f), ls.dropWhile (continues st.sec f), st, ?_, ?_, ?_, ?_, ?_, ?_⟩
    · simp [List.takeWhile_append_dropWhile]
    · rw [runLines]
    · intro l hl
      have := List.all_takeWhile (p := continues st.sec f) (l := ls)
      rw [List.all_eq_true] at this
      exact this l hl
    · exact fun h0 => hb ((trim_isEmpty_iff _).2 h0)
    · exact he
    · have hs : st.bare.sec = st.sec := rfl
      have hw := takeWhile_append_pre (continues st.sec f) ls [] (ls.dropWhile (continues st.sec f)) rfl
      rw [List.append_nil] at hw
      rw [List.nil_append, runLines]
      simp only [hs, hw.1]
      rw [if_neg hb, ← parseLineAt_bare st n, he]
      rfl
  | case4 => cases h
  | case5 n st f ls chunk m hb st' he ih =>
    obtain ⟨before, g, run, after, st1, h1, h2, h3, h4, h5, h6⟩ := ih h
    have hs : st.bare.sec = st.sec := rfl
    have hw := takeWhile_append_pre (continues st.sec f) ls before ((g :: run) ++ after) (by rw [h1]; simp)
    have hw2 := takeWhile_append_pre (continues st.sec f) ls (before ++ g :: run) after (by rw [h1])
    refine ⟨f :: (ls.takeWhile (continues st.sec f) ++ before), g, run, after, st1, ?_, ?_, h3, h4, ?_, ?_⟩
    · have := List.takeWhile_append_dropWhile (p := continues st.sec f) (l := ls)
      rw [h1] at this
      exact (congrArg (f :: ·) this.symm).trans (by simp)
    · rw [runLines]
      simp only [hs, hw.1, hw.2]
      rw [if_neg hb, ← parseLineAt_bare st n, he]
      exact h2
    · rw [← h5]
      congr 1
      simp only [List.length_cons, List.length_append, m]; omega
    · rw [List.cons_append, List.append_assoc, runLines]
      simp only [hs, hw2.1, hw2.2]
      rw [if_neg hb, ← parseLineAt_bare st n, he]
      exact h6

theorem continues_dash {sec : Sec} {f l : Str} (h : continues sec f l = true) :
    DashUnder (depthOf (content f)) (content l) := by
  unfold continues at h
  rw [Bool.and_eq_true] at h
  exact (dash_iff _ _).1 h.2

/-- The trees read so far, the next line having number `n`. -/
structure SoFar (all : List Str) (n : Nat) (st : PState locLang) : Prop where
  names : ∀ x ∈ listings 0 (TreeBuilder.finish (ρ := SLine × Ctx) (α := SAddendum × Ctx) st.tree),
    (∃ before f run after, all = before ++ (f :: run) ++ after ∧ At before f run (ctxOf x.2)) ∧
      NodeText (LocSpec.bare x.2) (ctxOf x.2).line ∧ (ctxOf x.2).no < n
  increasing : ((listings 0 (TreeBuilder.finish (ρ := SLine × Ctx) (α := SAddendum × Ctx) st.tree)).map
    fun x => (ctxOf x.2).no).Pairwise (· < ·)

theorem SoFar.later {all : List Str} {n m : Nat} {st : PState locLang} (h : SoFar all n st) (hm : n ≤ m) :
    SoFar all m st :=
  ⟨fun x hx => ⟨(h.names x hx).1, (h.names x hx).2.1, by have := (h.names x hx).2.2; omega⟩, h.increasing⟩

theorem runLinesAt_ok {n : Nat} {st st' : PState locLang} {ls all : List Str}
    (h : runLinesAt n st ls = .ok st') : ∀ pre : List Str, all = pre ++ ls → n = pre.length + 1 → SoFar all n st →
    ∃ m, SoFar all m st' := by
  fun_induction runLinesAt n st ls with
  | case1 => intro _ _ _ hi; cases h; exact ⟨_, hi⟩
  | case2 n st f ls chunk m hb ih =>
    intro pre hall hn hi
    refine ih h (pre ++ f :: ls.takeWhile (continues st.sec f)) ?_ ?_ (hi.later (by omega))
    · rw [hall]; simp [List.takeWhile_append_dropWhile]
    · simp only [List.length_append, List.length_cons, m]; omega
  | case3 => cases h
  | case4 => cases h
  | case5 n st f ls chunk m hb st1 he ih =>
    intro pre hall hn hi
    have hm : n < m := by simp only [m]; omega
    refine ih h (pre ++ f :: ls.takeWhile (continues st.sec f)) ?_ ?_ ?_
    · rw [hall]; simp [List.takeWhile_append_dropWhile]
    · simp only [List.length_append, List.length_cons, m]; omega
    · rcases parseLineAt_ok he with ht | ⟨x, d, ht, h1, h2, k, tail, h3⟩
      · have := hi.later (Nat.le_of_lt hm)
        exact ⟨by rw [ht]; exact this.names, by rw [ht]; exact this.increasing⟩
      · have hl := TreeBuilder.addLine_listing (ρ := SLine × Ctx) (α := SAddendum × Ctx) st.tree st1.tree d x ht
        have hx : ∃ before f run after, all = before ++ (f :: run) ++ after ∧ At before f run (ctxOf x) := by
          refine ⟨pre, f, ls.takeWhile (continues st.sec f), ls.dropWhile (continues st.sec f), ?_, ?_, ?_, ?_, ?_⟩
          · rw [hall]; simp [List.takeWhile_append_dropWhile]
          · omega
          · intro l hl
            have := List.all_takeWhile (p := continues st.sec f) (l := ls)
            rw [List.all_eq_true] at this
            exact continues_dash (this l hl)
          · obtain ⟨t, ht⟩ := trimNl_split (f :: ls.takeWhile (continues st.sec f)).flatten
            refine ⟨k, tail ++ t, ?_⟩
            rw [ht]
            have : chunk = trimNl (f :: ls.takeWhile (continues st.sec f)).flatten := rfl
            rw [← this, h3]
            simp
          · exact nodeText_ne h2
        constructor
        · intro y hy
          have hy : y ∈ listings 0 (TreeBuilder.finish (ρ := SLine × Ctx) (α := SAddendum × Ctx) st1.tree) := hy
          rw [hl] at hy
          rcases List.mem_append.1 hy with hy | hy
          · obtain ⟨g1, g2, g3⟩ := hi.names y hy
            exact ⟨g1, g2, by omega⟩
          · have : y = (d, x) := by simpa using hy
            subst this
            exact ⟨hx, h2, by simp only; omega⟩
        · rw [hl, List.map_append, List.pairwise_append]
          refine ⟨hi.increasing, by simp, ?_⟩
          intro a ha b hb
          obtain ⟨y, hy, rfl⟩ := List.mem_map.1 ha
          have := (hi.names y hy).2.2
          simp only [List.map_cons, List.map_nil, List.mem_singleton] at hb
          omega

theorem initial_back {L : Lang} {st st' : PState L} {ls : List Str} (h : runLines st ls = .ok st')
    (hs : st'.sec = .initial) : st.sec = .initial := by
  obtain ⟨ss, -, -, h3, h4⟩ := runLines_headers ls st st' h
  rw [hs] at h4
  cases hl : ss.getLast? with
  | none => rw [hl] at h4; exact h4.symm
  | some s =>
    rw [hl] at h4
    have : Sec.initial = s := h4
    have h5 := h3 s (List.mem_of_getLast? hl)
    rw [← this] at h5
    exact absurd h5 (Nat.not_lt_zero _)

/-- Before the first header there are only blank lines. -/
theorem initial_blank {ls : List Str} {st st' : PState planLang} (h : runLines st ls = .ok st')
    (hs : st'.sec = .initial) : ∀ l ∈ ls, trimEnd l = [] := by
  induction ls with
  | nil => intro l hl; cases hl
  | cons f ls ih =>
    have h0 := initial_back h hs
    have hnp : st.sec ≠ .plan := by rw [h0]; simp
    rcases runLines_cons_cases hnp h with ⟨hb, h⟩ | ⟨hne, st1, h1, h⟩
    · intro l hl
      rcases List.mem_cons.1 hl with rfl | hl
      · exact hb
      · exact ih h l hl
    · exfalso
      have h2 := initial_back h hs
      rcases parseLine_cases hnp hne h1 with ⟨hf, rfl⟩ | ⟨hf, -, rfl⟩ | ⟨r, v, hf, hr, hvh, -, rfl⟩ |
        ⟨hc, -⟩ | ⟨hc, -⟩
      · cases h2
      · cases h2
      · cases h2
      · rw [h0] at hc; cases hc
      · rw [h0] at hc; cases hc

theorem versionNumber_not_initial {ps : List Str} : versionNumber ps ≠ .error .initialLine := by
  intro h
  cases ps with
  | nil => cases h
  | cons p ps =>
    simp only [versionNumber] at h
    split at h
    · cases h
    · split at h <;> cases h

theorem versionHeader_not_initial {s : Str} : versionHeader s ≠ .error .initialLine := by
  intro h
  simp only [versionHeader] at h
  split at h
  · next e => cases h; exact versionNumber_not_initial e
  · split at h
    · next e => cases h; exact versionNumber_not_initial e
    · split at h
      · next e => cases h; exact versionNumber_not_initial e
      · split at h <;> cases h

theorem parseLineAt_initial {st : PState locLang} {n : Nat} {chunk : Str} {c : Ctx}
    (h : st.parseLineAt n chunk = .err (.initialLine, c)) :
    st.sec = .initial ∧ c = ⟨(indentedLine chunk).depth, (indentedLine chunk).body⟩ := by
  simp only [parseLineAt] at h
  split at h
  · exfalso
    split at h
    · next e he =>
      cases h
      simp only [sectionHeader] at he
      split at he
      · cases he
      · split at he
        · cases he
        · split at he
          · split at he
            · split at he
              · next e' hh => cases he; exact versionHeader_not_initial hh
              · cases he
            · cases he
          · cases he
    · split at h <;> cases h
  · split at h
    · next hs =>
      split at h
      · cases h
      · cases h; exact ⟨hs, rfl⟩
    · exfalso
      split at h
      · next e he =>
        cases h
        simp only [versionLine] at he
        split at he
        · cases he
        · split at he
          · simp only [versionDetail] at he
            split at he
            · cases he
            · split at he
              · cases he
              · split at he
                · cases he
                · split at he <;> cases he
          · cases he
      · cases h
      · cases h
    · exfalso; split at h <;> cases h
    · exfalso
      simp only [planLineAt] at h
      split at h
      · cases h
      · split at h <;> cases h

end PState

/-! ## Everything below a tree is in its listing -/

theorem listing_head (d : Nat) (r : SLine × Ctx) (as : List (SAddendum × Ctx)) (ks : List LNode) :
    (d, LineNode.relation r) ∈ listing d (.mk r as ks) := by simp [listing]

theorem listing_addendum {d : Nat} {r : SLine × Ctx} {as : List (SAddendum × Ctx)} {ks : List LNode}
    {a : SAddendum × Ctx} (h : a ∈ as) : (d + 1, LineNode.addendum a) ∈ listing d (.mk r as ks) := by
  simp [listing, h]

theorem listings_mem {d : Nat} {t : LNode} {l : List LNode} (h : t ∈ l) :
    ∀ x ∈ listing d t, x ∈ listings d l := by
  intro x hx
  induction l with
  | nil => cases h
  | cons u l ih =>
    simp only [listings, List.mem_append]
    rcases List.mem_cons.1 h with rfl | h
    · exact .inl hx
    · exact .inr (ih h)

theorem within_listing {t u : LNode} (h : Within t u) (d : Nat) : ∃ k, ∀ x ∈ listing k u, x ∈ listing d t := by
  induction h generalizing d with
  | self => exact ⟨d, fun _ h => h⟩
  | kid hk _ ih =>
    obtain ⟨k, hk'⟩ := ih (d + 1)
    refine ⟨k, fun x hx => ?_⟩
    simp only [listing, List.mem_append]
    exact .inr (listings_mem hk x (hk' x hx))

theorem blamesTop_listed [FTab] {st : Store} {reg : Registry ExtArgs (List Nat)} {t : LNode} {e : RErr} {c : Ctx}
    (h : BlamesTop st reg t e c) (d : Nat) : ∃ x ∈ listing d t, ctxOf x.2 = c := by
  cases h with
  | below hw hb =>
    obtain ⟨k, hk⟩ := within_listing hw d
    rename_i u
    obtain ⟨r, as, ks⟩ := u
    rcases hb.where_ with h | ⟨a, ha, h⟩
    · exact ⟨_, hk _ (listing_head k r as ks), h.symm⟩
    · exact ⟨_, hk _ (listing_addendum ha), h.symm⟩
  | addenda => exact ⟨_, listing_addendum (List.mem_cons_self ..), rfl⟩
  | children _ => exact ⟨_, listing_head _ _ _ _, rfl⟩

end Verif
