import Verif.Proofs.SpaceLines
import Verif.Proofs.SectionRun
import Verif.Model.Plan
/-!
# Plans do not see the width of spaces
-/

set_option autoImplicit false

namespace Verif
open SpaceSpec ChunkSpec SectionSpec

theorem squeezeFrom_append (a b : Str) : ∀ p, squeezeFrom p (a ++ b) = squeezeFrom p a ++ squeezeFrom (placeAfter p a) b := by
  induction a with
  | nil => intro p; cases p with
    | out s => rfl
    | within q e => cases e <;> rfl
  | cons c a ih =>
    intro p
    cases p with
    | out s =>
      simp only [List.cons_append, squeezeFrom, placeAfter]
      by_cases h : c = ' '
      · simp only [if_pos h]; cases s <;> simp [ih]
      · simp only [if_neg h]
        by_cases hq : c = '\'' ∨ c = '"'
        · simp only [if_pos hq, ih, List.cons_append]
        · simp only [if_neg hq, ih, List.cons_append]
    | within q e =>
      cases e
      · simp only [List.cons_append, squeezeFrom, placeAfter]
        by_cases h : c = '\\'
        · simp only [if_pos h, ih, List.cons_append]
        · by_cases hq : c = q
          · simp only [if_neg h, if_pos hq, ih, List.cons_append]
          · simp only [if_neg h, if_neg hq, ih, List.cons_append]
      · simp only [List.cons_append, squeezeFrom, placeAfter, ih]

theorem placeAfter_append (a b : Str) : ∀ p, placeAfter p (a ++ b) = placeAfter (placeAfter p a) b := by
  induction a with
  | nil => intro p; cases p with
    | out s => rfl
    | within q e => cases e <;> rfl
  | cons c a ih =>
    intro p
    cases p with
    | out s =>
      simp only [List.cons_append, placeAfter]
      repeat' split
      all_goals exact ih _
    | within q e =>
      cases e
      · simp only [List.cons_append, placeAfter]
        repeat' split
        all_goals exact ih _
      · simp only [List.cons_append, placeAfter]; exact ih _

theorem placeAfter_squeeze (s : Str) : ∀ p, placeAfter p (squeezeFrom p s) = placeAfter p s := by
  induction s with
  | nil => intro p; cases p with
    | out s => rfl
    | within q e => cases e <;> rfl
  | cons c a ih =>
    intro p
    cases p with
    | out s =>
      simp only [squeezeFrom, placeAfter]
      by_cases h : c = ' '
      · subst h
        cases s
        · simp [placeAfter, ih]
        · simp [ih]
      · by_cases hq : c = '\'' ∨ c = '"'
        · simp only [if_neg h, if_pos hq, placeAfter, ih]
        · simp only [if_neg h, if_neg hq, placeAfter, ih]
    | within q e =>
      cases e
      · simp only [squeezeFrom, placeAfter]
        by_cases h : c = '\\'
        · simp only [if_pos h, placeAfter, ih]
        · by_cases hq : c = q
          · subst hq; simp only [if_neg h, if_true, placeAfter, ih]
          · simp only [if_neg h, if_neg hq, placeAfter, ih]
      · simp only [squeezeFrom, placeAfter, ih]

theorem isWs_squeezeFrom (s : Str) : ∀ p, (∀ c ∈ squeezeFrom p s, isWs c = true) ↔ ∀ c ∈ s, isWs c = true := by
  have hsp : isWs ' ' = true := by decide
  induction s with
  | nil => intro p; cases p with
    | out s => simp [squeezeFrom]
    | within q e => cases e <;> simp [squeezeFrom]
  | cons c a ih =>
    intro p
    cases p with
    | out s =>
      simp only [squeezeFrom]
      by_cases h : c = ' '
      · subst h
        cases s
        · simp [ih, hsp]
        · simp [ih, hsp]
      · by_cases hq : c = '\'' ∨ c = '"'
        · simp only [if_neg h, if_pos hq, List.forall_mem_cons, ih]
        · simp only [if_neg h, if_neg hq, List.forall_mem_cons, ih]
    | within q e =>
      cases e
      · simp only [squeezeFrom]
        split
        · simp only [List.forall_mem_cons, ih]
        · split <;> simp only [List.forall_mem_cons, ih]
      · simp only [squeezeFrom, List.forall_mem_cons, ih]

theorem squeezeFrom_last {c : Char} (h : c ≠ ' ') (p : Place) : squeezeFrom p [c] = [c] := by
  cases p with
  | out s => simp only [squeezeFrom, if_neg h]; split <;> rfl
  | within q e =>
    cases e
    · simp only [squeezeFrom]
      repeat' split
      all_goals rfl
    · rfl

/-- White space at the end goes before or after. -/
theorem trimEnd_squeeze (s : Str) : trimEnd (squeeze s) = squeeze (trimEnd s) := by
  obtain ⟨t, ht, hall⟩ := dropEnd_eq isWs s
  have e : dropEnd isWs s = trimEnd s := rfl
  rw [e] at ht
  have h1 : squeeze s = squeeze (trimEnd s) ++ squeezeFrom (placeAfter (.out false) (trimEnd s)) t := by
    rw [ht]
    have : trimEnd (trimEnd s ++ t) = trimEnd s := by rw [trimEnd_append_ws _ _ hall, trimEnd_idem]
    rw [this]
    exact squeezeFrom_append _ _ _
  rw [h1, trimEnd_append_ws _ _ ((isWs_squeezeFrom t _).2 hall)]
  apply trimEnd_clean
  intro c hc
  have hcl := trimEnd_endClean s
  rcases List.eq_nil_or_concat (trimEnd s) with hn | ⟨a, d, hd⟩
  · rw [hn, squeeze_nil] at hc; cases hc
  · rw [hd, List.concat_eq_append] at hc hcl
    have hdw := hcl d (by simp)
    have hds : d ≠ ' ' := by rintro rfl; revert hdw; decide
    have : squeeze (a ++ [d]) = squeezeFrom (.out false) a ++ [d] := by
      rw [squeeze, squeezeFrom_append, squeezeFrom_last hds]
    rw [this] at hc
    simp only [List.getLast?_append, List.getLast?_singleton, Option.some_or, Option.some.injEq] at hc
    rw [← hc]; exact hdw

theorem squeezeFrom_out (b : Bool) (s : Str) : squeezeFrom (.out b) s = if b then skipSp (squeeze s) else squeeze s := by
  cases b
  · rfl
  · rw [if_pos rfl, skip_squeeze]; exact squeezeFrom_space s

theorem squeeze_spaces (n : Nat) {x y : Str} (h : squeeze x = squeeze y) :
    squeeze (List.replicate n ' ' ++ x) = squeeze (List.replicate n ' ' ++ y) := by
  unfold squeeze
  rw [squeezeFrom_append, squeezeFrom_append]
  have : ∀ (n : Nat) (b : Bool), ∃ b', placeAfter (.out b) (List.replicate n ' ') = .out b' := by
    intro n
    induction n with
    | zero => intro b; exact ⟨b, rfl⟩
    | succ n ih => intro b; simpa [List.replicate_succ, placeAfter] using ih true
  obtain ⟨b', hb⟩ := this n false
  rw [hb, squeezeFrom_out b' x, squeezeFrom_out b' y, h]

theorem placeAfter_same {x y : Str} (h : squeeze x = squeeze y) : placeAfter (.out false) x = placeAfter (.out false) y := by
  rw [← placeAfter_squeeze x, ← placeAfter_squeeze y]
  exact congrArg _ h

theorem SpaceSpec.Alike.squeeze_eq {l l' : Str} (h : Alike l l') : squeeze l = squeeze l' := by
  obtain ⟨n, x, y, rfl, rfl, _, hs, _⟩ := h
  exact squeeze_spaces n hs

theorem placeAfter_spaces (n : Nat) (x : Str) : (∃ b, placeAfter (.out false) x = .out b) →
    ∃ b, placeAfter (.out false) (List.replicate n ' ' ++ x) = .out b := by
  have hk : ∀ (s : Str) (p : Bool), ∀ b, placeAfter (.out false) s = .out b → ∃ b', placeAfter (.out p) s = .out b' := by
    intro s p b h
    cases s with
    | nil => exact ⟨p, rfl⟩
    | cons c s => exact ⟨b, by simpa only [placeAfter] using h⟩
  rintro ⟨b, hb⟩
  have : ∀ (n : Nat) (p : Bool), ∃ b', placeAfter (.out p) (List.replicate n ' ' ++ x) = .out b' := by
    intro n
    induction n with
    | zero => intro p; exact hk x p b hb
    | succ n ih => intro p; simpa [List.replicate_succ, placeAfter] using ih true
  exact this n false

theorem SpaceSpec.Alike.closed {l l' : Str} (h : Alike l l') : Closed l := by
  obtain ⟨n, x, y, rfl, rfl, _, _, hc⟩ := h
  exact placeAfter_spaces n x hc

theorem squeeze_append_same {a b a' b' : Str} (ha : squeeze a = squeeze a') (hc : Closed a) (hb : squeeze b = squeeze b') :
    squeeze (a ++ b) = squeeze (a' ++ b') := by
  obtain ⟨s, hs⟩ := hc
  unfold squeeze
  rw [squeezeFrom_append, squeezeFrom_append, ← placeAfter_same ha, hs, squeezeFrom_out s b, squeezeFrom_out s b', hb]
  have ha' : squeezeFrom (.out false) a = squeezeFrom (.out false) a' := ha
  rw [ha']

theorem startsDash_squeeze (s : Str) : startsDash (squeeze s) = startsDash s := by
  cases s with
  | nil => rfl
  | cons c s =>
    by_cases h : c = '-'
    · subst h
      rw [squeeze_plain (by decide)]
      have := squeeze_head s
      cases s with
      | nil => rfl
      | cons d t =>
        cases hq : squeeze (d :: t) with
        | nil => rw [hq] at this; cases this
        | cons e u =>
          rw [hq] at this
          simp only [List.head?_cons, Option.some.injEq] at this
          subst this
          unfold startsDash
          by_cases he : e = ' '
          · subst he; rfl
          · split
            · rename_i heq; simp at heq; exact absurd heq.1 he
            · split
              · rename_i heq; simp at heq; exact absurd heq.1 he
              · rfl
    · have hh := squeeze_head (c :: s)
      cases hq : squeeze (c :: s) with
      | nil => rw [hq] at hh; cases hh
      | cons d t =>
        rw [hq] at hh
        simp only [List.head?_cons, Option.some.injEq] at hh
        subst hh
        unfold startsDash
        split
        · rename_i heq; simp at heq; exact absurd heq.1 h
        · split
          · rename_i heq; simp at heq; exact absurd heq.1 h
          · rfl

/-- Indentation and text of alike lines. -/
theorem indented_alike (n : Nat) {x y : Str} (hx : x.head? ≠ some ' ') (h : squeeze x = squeeze y) :
    (indentedLine (List.replicate n ' ' ++ x)).depth = (indentedLine (List.replicate n ' ' ++ y)).depth ∧
    squeeze (indentedLine (List.replicate n ' ' ++ x)).body = squeeze (indentedLine (List.replicate n ' ' ++ y)).body ∧
    (trimEnd (List.replicate n ' ' ++ x) = [] ↔ trimEnd (List.replicate n ' ' ++ y) = []) := by
  have ht : squeeze (trimEnd x) = squeeze (trimEnd y) := by rw [← trimEnd_squeeze, ← trimEnd_squeeze, h]
  have hws : ∀ c ∈ List.replicate n ' ', isWs c = true := by
    intro c hc; rw [(List.mem_replicate.1 hc).2]; decide
  have hnil : ∀ z : Str, trimEnd z = [] → trimEnd (List.replicate n ' ' ++ z) = [] := by
    intro z hz
    rw [trimEnd_eq_nil_iff] at hz ⊢
    intro c hc
    rcases List.mem_append.1 hc with h | h
    · exact hws c h
    · exact hz c h
  have hiff : trimEnd x = [] ↔ trimEnd y = [] := by rw [← squeeze_eq_nil, ht, squeeze_eq_nil]
  by_cases he : trimEnd x = []
  · have e1 := hnil x he
    have e2 := hnil y (hiff.1 he)
    simp only [indentedLine, e1, e2]
    exact ⟨trivial, trivial, trivial⟩
  · have he' : trimEnd y ≠ [] := fun e => he (hiff.2 e)
    have shape : ∀ z : Str, trimEnd z ≠ [] → (trimEnd z).head? ≠ some ' ' →
        indentedLine (List.replicate n ' ' ++ z) = ⟨n / 2, List.replicate (n - n / 2 * 2) ' ' ++ trimEnd z⟩ := by
      intro z hz hh
      unfold indentedLine
      rw [trimEnd_append_ne _ _ hz]
      cases hq : trimEnd z with
      | nil => exact absurd hq hz
      | cons c t =>
        rw [hq] at hh
        simp only [List.head?_cons, ne_eq, Option.some.injEq] at hh
        have htw : (List.replicate n ' ' ++ c :: t).takeWhile (· = ' ') = List.replicate n ' ' := by
          rw [List.takeWhile_append_of_pos]
          · simp [hh]
          · intro d hd; simp [(List.mem_replicate.1 hd).2]
        simp only [htw, List.length_replicate]
        rw [List.drop_append_of_le_length (by simp; omega)]
        simp
    have hhead : ∀ z : Str, trimEnd z ≠ [] → z.head? ≠ some ' ' → (trimEnd z).head? ≠ some ' ' := by
      intro z hz hh hc
      obtain ⟨t, ht', _⟩ := dropEnd_eq isWs z
      have e : dropEnd isWs z = trimEnd z := rfl
      rw [e] at ht'
      cases hq : trimEnd z with
      | nil => exact hz hq
      | cons c u =>
        rw [hq] at hc ht'
        rw [ht'] at hh
        exact hh hc
    have hy : y.head? ≠ some ' ' := by rw [← squeeze_head, ← h, squeeze_head]; exact hx
    rw [shape x he (hhead x he hx), shape y he' (hhead y he' hy)]
    refine ⟨rfl, squeeze_spaces _ ht, ?_⟩
    rw [trimEnd_append_ne _ _ he, trimEnd_append_ne _ _ he']
    simp [he, he']

namespace PState
variable {L : Lang}

theorem continues_alike (sec : Sec) {f f' l l' : Str} (hf : Alike f f') (hl : Alike l l') :
    continues sec f l = continues sec f' l' := by
  obtain ⟨n, x, y, rfl, rfl, hx, hs, _⟩ := hf
  obtain ⟨m, u, v, rfl, rfl, hu, ht, _⟩ := hl
  unfold continues
  rw [indentedLine_content, indentedLine_content, indentedLine_content, indentedLine_content]
  have h1 := indented_alike n hx hs
  have h2 := indented_alike m hu ht
  rw [h1.1, h2.1, ← startsDash_squeeze (indentedLine (List.replicate m ' ' ++ u)).body, h2.2.1, startsDash_squeeze]

theorem split_alike (sec : Sec) {f f' : Str} (hf : Alike f f') {ls ls' : List Str} (h : AllAlike ls ls') :
    AllAlike (ls.takeWhile (continues sec f)) (ls'.takeWhile (continues sec f')) ∧
    AllAlike (ls.dropWhile (continues sec f)) (ls'.dropWhile (continues sec f')) := by
  induction h with
  | nil => exact ⟨.nil, .nil⟩
  | cons hl hr ih =>
    rename_i l l' ls ls'
    have e := continues_alike sec hf hl
    by_cases hc : continues sec f l = true
    · have hc' : continues sec f' l' = true := e ▸ hc
      rw [List.takeWhile_cons_of_pos hc, List.takeWhile_cons_of_pos hc', List.dropWhile_cons_of_pos hc,
        List.dropWhile_cons_of_pos hc']
      exact ⟨.cons hl ih.1, ih.2⟩
    · have hc' : ¬ continues sec f' l' = true := e ▸ hc
      rw [List.takeWhile_cons_of_neg hc, List.takeWhile_cons_of_neg hc', List.dropWhile_cons_of_neg hc,
        List.dropWhile_cons_of_neg hc']
      exact ⟨.nil, .cons hl hr⟩

theorem alike_append {a a' b b' : Str} (ha : Alike a a') (hb : Alike b b') : Alike (a ++ b) (a' ++ b') := by
  obtain ⟨n, x, y, rfl, rfl, hx, hs, hc⟩ := ha
  cases x with
  | nil =>
    have hy : y = [] := by
      have : squeeze y = [] := by rw [← hs]; rfl
      exact (squeeze_eq_nil y).1 this
    subst hy
    obtain ⟨m, u, v, rfl, rfl, hu, ht, hd⟩ := hb
    refine ⟨n + m, u, v, ?_, ?_, hu, ht, hd⟩ <;> simp [← List.replicate_append_replicate]
  | cons c x =>
    refine ⟨n, (c :: x) ++ b, y ++ b', by simp, by simp, by simpa using hx, squeeze_append_same hs hc hb.squeeze_eq, ?_⟩
    obtain ⟨s, hs'⟩ := hc
    obtain ⟨s', hb'⟩ := hb.closed
    unfold Closed
    rw [placeAfter_append, hs']
    cases b with
    | nil => exact ⟨s, rfl⟩
    | cons d b => exact ⟨s', by simpa only [placeAfter] using hb'⟩

theorem flatten_alike {ls ls' : List Str} (h : AllAlike ls ls') : Alike ls.flatten ls'.flatten := by
  induction h with
  | nil => exact ⟨0, [], [], rfl, rfl, by simp, rfl, ⟨false, rfl⟩⟩
  | cons hl hr ih => exact alike_append hl ih

/-- What is merged onto a line does not make a header of it. -/
theorem not_header_append {l t : Str} (h : ¬ IsHeader l) (ht : t.head? ≠ some '=') : ¬ IsHeader (l ++ t) := by
  rintro ⟨r, hr⟩
  match l, h, hr with
  | [], _, hr => simp only [List.nil_append] at hr; subst hr; exact ht rfl
  | [a], _, hr =>
    simp only [List.cons_append, List.nil_append, List.cons.injEq] at hr
    rw [hr.2] at ht; exact ht rfl
  | [a, b], _, hr =>
    simp only [List.cons_append, List.nil_append, List.cons.injEq] at hr
    rw [hr.2.2] at ht; exact ht rfl
  | a :: b :: c :: l, h, hr =>
    simp only [List.cons_append, List.cons.injEq] at hr
    exact h ⟨l, by rw [hr.1, hr.2.1, hr.2.2.1]⟩

theorem merged_head (sec : Sec) (f : Str) (ls : List Str) : (ls.takeWhile (continues sec f)).flatten.head? ≠ some '=' := by
  cases ls with
  | nil => simp
  | cons l ls =>
    by_cases hc : continues sec f l = true
    · rw [List.takeWhile_cons_of_pos hc, List.flatten_cons]
      obtain ⟨-, -, n, r, hr⟩ := continues_not_header sec f l hc
      obtain ⟨t, ht, _⟩ := dropEnd_eq isWs l
      have e : dropEnd isWs l = trimEnd l := rfl
      rw [e, hr] at ht
      rw [ht]
      cases n with
      | zero => simp
      | succ n => simp [List.replicate_succ]
    · rw [List.takeWhile_cons_of_neg hc]; simp

theorem stripPrefix_squeeze (p s : Str) (hp : p.all plainC = true) (hn : p ≠ []) :
    (stripPrefix p (squeeze s)).isSome = (stripPrefix p s).isSome := by
  rw [stripPrefix_eq_lit, stripPrefix_eq_lit]
  have h := simS_lit s p hp hn
  revert h
  generalize lit p s = x
  generalize lit p (squeeze s) = y
  intro h
  cases h <;> rfl

theorem parseLine_alike (htop : ∀ s, L.top (squeeze s) = L.top s) (hnode : ∀ s, L.node (squeeze s) = L.node s)
    (st : PState L) (hsec : st.sec = .plan) (n : Nat) {x y : Str} (hx : x.head? ≠ some ' ') (h : squeeze x = squeeze y)
    (hh : ¬ IsHeader (List.replicate n ' ' ++ x)) :
    st.parseLine (List.replicate n ' ' ++ x) = st.parseLine (List.replicate n ' ' ++ y) := by
  obtain ⟨h1, h2, -⟩ := indented_alike n hx h
  have hhead : ¬ ((indentedLine (List.replicate n ' ' ++ x)).depth = 0 ∧
      (stripPrefix cs!"===" (indentedLine (List.replicate n ' ' ++ x)).body).isSome = true) := by
    rintro ⟨hd, hs⟩
    rw [stripPrefix_eq_lit, Option.isSome_iff_exists] at hs
    obtain ⟨r, hr⟩ := hs
    have := lit_some hr
    exact hh ((header_trim _).2 ⟨r, indentedLine_depth_zero_header _ r hd this⟩)
  have hhead' : ¬ ((indentedLine (List.replicate n ' ' ++ y)).depth = 0 ∧
      (stripPrefix cs!"===" (indentedLine (List.replicate n ' ' ++ y)).body).isSome = true) := by
    rw [← h1, ← stripPrefix_squeeze _ _ (by decide) (by decide), ← h2, stripPrefix_squeeze _ _ (by decide) (by decide)]
    exact hhead
  unfold parseLine
  simp only [if_neg hhead, if_neg hhead', hsec]
  unfold planLine
  rw [h1, ← htop (indentedLine (List.replicate n ' ' ++ x)).body, ← hnode (indentedLine (List.replicate n ' ' ++ x)).body,
    h2, htop, hnode]

theorem parseLine_plan_sec {st st' : PState L} {c : Str} (h : st.parseLine c = .ok st') (hs : st.sec = .plan) :
    st'.sec = .plan := by
  have := (parseLine_sec_mono st st' c h).1
  rw [hs] at this
  cases hq : st'.sec <;> simp [hq, Sec.rank] at this ⊢

theorem runLines_alike (htop : ∀ s, L.top (squeeze s) = L.top s) (hnode : ∀ s, L.node (squeeze s) = L.node s) :
    ∀ (m : Nat) {ls ls' : List Str}, AllAlike ls ls' → (∀ l ∈ ls, ¬ IsHeader l) → ls.length ≤ m →
      ∀ st : PState L, st.sec = .plan → runLines st ls = runLines st ls' := by
  intro m
  induction m with
  | zero =>
    intro ls ls' h _ hm st _
    cases h with
    | nil => rfl
    | cons _ _ => simp at hm
  | succ m ih =>
    intro ls ls' h hh hm st hs
    cases h with
    | nil => rfl
    | cons hl hr =>
      rename_i l l' ls ls'
      obtain ⟨h1, h2⟩ := split_alike st.sec hl hr
      have hi : ∀ s : PState L, s.sec = .plan →
          runLines s (ls.dropWhile (continues st.sec l)) = runLines s (ls'.dropWhile (continues st.sec l')) := by
        intro s hss
        refine ih h2 (fun k hk => hh k (List.mem_cons_of_mem _ ((List.dropWhile_sublist _).subset hk))) ?_ s hss
        have := (List.dropWhile_sublist (continues st.sec l) (l := ls)).length_le
        simp only [List.length_cons] at hm
        omega
      have hch := alike_append hl (flatten_alike h1)
      have hnh := not_header_append (hh l (by simp)) (merged_head st.sec l ls)
      rw [runLines, runLines]
      simp only [List.flatten_cons]
      revert hch hnh
      generalize l ++ (ls.takeWhile (continues st.sec l)).flatten = c
      generalize l' ++ (ls'.takeWhile (continues st.sec l')).flatten = c'
      intro hch hnh
      obtain ⟨n, x, y, rfl, rfl, hx, hxy, _⟩ := hch
      have he : (trim (trimNl (List.replicate n ' ' ++ x))).isEmpty = (trim (trimNl (List.replicate n ' ' ++ y))).isEmpty := by
        rw [Bool.eq_iff_iff, trim_isEmpty_iff, trim_isEmpty_iff, trimEnd_trimNl, trimEnd_trimNl]
        exact (indented_alike n hx hxy).2.2
      rw [he, parseLine_trimNl, parseLine_trimNl, parseLine_alike htop hnode st hs n hx hxy hnh, hi st hs]
      split
      · rfl
      · cases hp : st.parseLine (List.replicate n ' ' ++ y) with
        | err e => rfl
        | panic => rfl
        | ok st' => exact hi st' (parseLine_plan_sec hp hs)

theorem parseLine_headers {st st' : PState L} {c : Str} (hc : trimEnd c ≠ []) (h : st.parseLine c = .ok st') :
    ∃ ss, HeadersAre [c] ss ∧ st'.sec = ss.getLast?.getD st.sec := by
  have hr : runLines st [c] = .ok st' := by
    rw [runLines_cons st c [] rfl hc, h]
    show runLines st' [] = _
    rw [runLines]
  obtain ⟨ss, h1, -, -, h2⟩ := runLines_headers [c] st st' hr
  exact ⟨ss, h1, h2⟩

theorem HeadersAre_one {c : Str} {ss : List Sec} (h : HeadersAre [c] ss) :
    (¬ IsHeader c ∧ ss = []) ∨ ∃ s, Names s c ∧ ss = [s] := by
  cases h with
  | skip h1 h2 => cases h2; exact .inl ⟨h1, rfl⟩
  | header h1 h2 => cases h2; exact .inr ⟨_, h1, rfl⟩

/-- Only the header of the plan opens the plan. -/
theorem parseLine_opens {st st' : PState L} {c : Str} (hc : trimEnd c ≠ []) (h : st.parseLine c = .ok st')
    (hs : st.sec ≠ .plan) (hn : ¬ Names .plan c) : st'.sec ≠ .plan := by
  obtain ⟨ss, h1, h2⟩ := parseLine_headers hc h
  rcases HeadersAre_one h1 with ⟨-, rfl⟩ | ⟨s, h3, rfl⟩
  · rw [h2]; exact hs
  · rw [h2]
    rintro he
    have : s = .plan := he
    subst this
    exact hn h3

theorem parseLine_plan_header {st st' : PState L} {c : Str} (hn : Names .plan c) (h : st.parseLine c = .ok st') :
    st'.sec = .plan := by
  have hc : trimEnd c ≠ [] := by
    have : trimEnd c = cs!"=== Plan" := hn
    rw [this]; simp
  obtain ⟨ss, h1, h2⟩ := parseLine_headers hc h
  rcases HeadersAre_one h1 with ⟨h3, -⟩ | ⟨s, h3, rfl⟩
  · refine absurd ?_ h3
    rw [header_trim]
    exact ⟨cs!" Plan", hn⟩
  · rw [h2]
    have ht : trimEnd c = cs!"=== Plan" := hn
    show s = .plan
    cases s with
    | initial => cases h3
    | version =>
      obtain ⟨r, hr, -⟩ := h3
      rw [ht] at hr
      simp at hr
    | extensions =>
      have hr : trimEnd c = cs!"=== Extensions" := h3
      rw [ht] at hr
      simp at hr
    | plan => rfl

theorem runLines_alike_after (htop : ∀ s, L.top (squeeze s) = L.top s) (hnode : ∀ s, L.node (squeeze s) = L.node s)
    {hdr : Str} (hh : Names .plan hdr) {ls ls' : List Str} (hl : AllAlike ls ls') (hn : ∀ l ∈ ls, ¬ IsHeader l)
    (pre : List Str) (hpre : ∀ l ∈ pre, ¬ Names .plan l) :
    ∀ st : PState L, st.sec ≠ .plan → runLines st (pre ++ hdr :: ls) = runLines st (pre ++ hdr :: ls') := by
  induction pre with
  | nil =>
    intro st hs
    have hc : trimEnd hdr ≠ [] := by
      have : trimEnd hdr = cs!"=== Plan" := hh
      rw [this]; simp
    simp only [List.nil_append]
    rw [runLines_cons st hdr ls (takeWhile_not_plan _ hs _ _) hc, runLines_cons st hdr ls' (takeWhile_not_plan _ hs _ _) hc]
    cases hp : st.parseLine hdr with
    | err e => rfl
    | panic => rfl
    | ok st' => exact runLines_alike htop hnode _ hl hn (Nat.le_refl _) st' (parseLine_plan_header hh hp)
  | cons c pre ih =>
    intro st hs
    have ih' := ih (fun l hl => hpre l (by simp [hl]))
    simp only [List.cons_append]
    by_cases hc : trimEnd c = []
    · rw [runLines_blank st c _ (takeWhile_not_plan _ hs _ _) hc, runLines_blank st c _ (takeWhile_not_plan _ hs _ _) hc]
      exact ih' st hs
    · rw [runLines_cons st c _ (takeWhile_not_plan _ hs _ _) hc, runLines_cons st c _ (takeWhile_not_plan _ hs _ _) hc]
      cases hp : st.parseLine c with
      | err e => rfl
      | panic => rfl
      | ok st' => exact ih' st' (parseLine_opens hc hp hs (hpre c (by simp)))

/-- Two texts that agree up to the header of the plan and whose lines are alike from there on. -/
theorem parseSections_alike (htop : ∀ s, L.top (squeeze s) = L.top s) (hnode : ∀ s, L.node (squeeze s) = L.node s)
    {a b hdr : Str} {pre ls ls' : List Str} (ha : physLines a = pre ++ hdr :: ls) (hb : physLines b = pre ++ hdr :: ls')
    (hpre : ∀ l ∈ pre, ¬ Names .plan l) (hh : Names .plan hdr) (hl : AllAlike ls ls') (hn : ∀ l ∈ ls, ¬ IsHeader l) :
    parseSections L a = parseSections L b := by
  rw [parseSections_eq, parseSections_eq, ha, hb]
  exact runLines_alike_after htop hnode hh hl hn pre hpre _ (by simp [PState.init])

end PState

/-- Reading a plan does not see the width of the spaces in its lines. -/
theorem parsePlan_alike [FTab] (reg : Registry ExtArgs (List Nat)) {a b hdr : Str} {pre ls ls' : List Str}
    (ha : physLines a = pre ++ hdr :: ls) (hb : physLines b = pre ++ hdr :: ls')
    (hpre : ∀ l ∈ pre, ¬ Names .plan l) (hh : Names .plan hdr) (hl : AllAlike ls ls') (hn : ∀ l ∈ ls, ¬ IsHeader l) :
    parsePlan reg a = parsePlan reg b := by
  unfold parsePlan
  rw [PState.parseSections_alike (L := planLang) topLine_squeeze nodeLine_squeeze ha hb hpre hh hl hn]

end Verif
