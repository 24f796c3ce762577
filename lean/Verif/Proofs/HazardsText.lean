import Verif.Proofs.HazardsRel
/-!
# Where the parser panics: the text
-/

namespace Verif

set_option autoImplicit false

open ChunkSpec SectionSpec Grammar TreeSpec StoreSpec HazardSpec

/-! ## Declarations are read as far as they go -/

theorem sp_skip {w s : Str} (hw : Sp w) (hs : NextNot (· == ' ') s) : skipSp (w ++ s) = s := by
  induction w with
  | nil => exact skipSp_of_not _ hs
  | cons c w ih =>
    rw [hw c (by simp), List.cons_append, skipSp_space]
    exact ih fun d hd => hw d (by simp [hd])

theorem digit_isDigit {c : Char} (h : Digit c) : isDigit c = true := by
  unfold Digit at h
  unfold isDigit
  simp only [Bool.and_eq_true, decide_eq_true_eq]
  exact h

theorem decVal_digits {n : Nat} {ds : Str} (h : Digits n ds) : decVal ds = n := by
  obtain ⟨-, -, h⟩ := h
  rw [← h]
  unfold decVal
  congr 1
  funext a c
  rw [Nat.mul_comm]
  rfl

/-- Numbers. -/
theorem pInteger_complete {i : IntTok} {x r : Str} (hx : Grammar.IntText i x) (hr : NextNot isDigit r) :
    pInteger (x ++ r) = some (i, r) := by
  have pos : ∀ {n : Nat} {ds : Str}, Digits n ds → pInteger (ds ++ r) = some (⟨false, n⟩, r) := by
    intro n ds h
    have hd := pDigits_append ds r h.1 (fun c hc => digit_isDigit (h.2.1 c hc)) hr
    have hm : pMinus (ds ++ r) = (false, ds ++ r) := by
      unfold pMinus
      split
      · next s heq =>
        cases ds with
        | nil => exact absurd rfl h.1
        | cons c ds =>
          have := h.2.1 c (by simp)
          rw [(List.cons.inj heq).1] at this
          exact absurd this (by simp [Digit])
      · rfl
    simp only [pInteger, hm, hd, decVal_digits h]
  cases hx with
  | pos h => exact pos h
  | @neg n ds h =>
    have hd := pDigits_append ds r h.1 (fun c hc => digit_isDigit (h.2.1 c hc)) hr
    simp only [pInteger, List.cons_append, pMinus, hd, decVal_digits h]

theorem intText_next {i : IntTok} {x r : Str} (hx : Grammar.IntText i x) : NextNot (· == ' ') (x ++ r) := by
  have key : ∀ {n : Nat} {ds : Str}, Digits n ds → NextNot (· == ' ') (ds ++ r) := by
    intro n ds h
    cases ds with
    | nil => exact absurd rfl h.1
    | cons c ds =>
      rw [List.cons_append, nextNot_cons]
      have := h.2.1 c (by simp)
      cases hc : (c == ' ') with
      | false => rfl
      | true =>
        rw [beq_iff_eq] at hc
        rw [hc] at this
        exact absurd this (by simp [Digit])
  cases hx with
  | pos h => exact key h
  | neg h => rw [List.cons_append, nextNot_cons]; rfl

theorem pAnchor_complete {i : IntTok} {x r : Str} (hx : AnchorText i x) (hr : NextNot isDigit r) :
    pAnchor (x ++ r) = some (i, r) := by
  obtain ⟨w, y, hw, hy, rfl⟩ := hx
  simp only [List.append_assoc, List.cons_append, List.nil_append, pAnchor, lit_cons, lit_nil, if_true,
    Option.bind_eq_bind, Option.bind_some, sp_skip hw (intText_next hy), pInteger_complete hy hr]

theorem pUrnAnchor_complete {i : IntTok} {x r : Str} (hx : UrnAnchorText i x) (hr : NextNot isDigit r) :
    pUrnAnchor (x ++ r) = some (i, r) := by
  obtain ⟨w, y, hw, hy, rfl⟩ := hx
  simp only [List.append_assoc, List.cons_append, List.nil_append, pUrnAnchor, lit_cons, lit_nil, if_true,
    Option.bind_eq_bind, Option.bind_some, sp_skip hw (intText_next hy), pInteger_complete hy hr]

theorem sp_nextNot {w s : Str} {p : Char → Bool} (hw : Sp w) (hp : p ' ' = false) (hs : NextNot p s) :
    NextNot p (w ++ s) := by
  cases w with
  | nil => exact hs
  | cons c w =>
    rw [List.cons_append, nextNot_cons, hw c (by simp)]
    exact hp

/-- A URN declaration is read to its end. -/
theorem pUrnDecl_complete {i : IntTok} {u x : Str} (h : UrnDeclText i u x) : pUrnDecl x = some ((i, u), []) := by
  obtain ⟨y, w, hy, hw, hne, hsp, rfl⟩ := h
  have hu : NextNot (· == ' ') u := by
    intro c hc
    cases hb : (c == ' ') with
    | false => exact hb
    | true =>
      rw [beq_iff_eq] at hb
      subst hb
      exact absurd (List.mem_of_mem_head? hc) hsp
  have h1 := pUrnAnchor_complete (r := ':' :: (w ++ u)) hy ((nextNot_cons _ _ _).2 (by decide))
  have hall : ∀ c ∈ u, (c != ' ') = true := by
    intro c hc
    simp only [bne_iff_ne]
    rintro rfl
    exact hsp hc
  have h2 : u.takeWhile (· != ' ') = u := by
    have := (takeWhile_append_of_all (p := (· != ' ')) (a := u) (s := []) hall (NextNot.nil _)).1
    rwa [List.append_nil] at this
  have h3 : u.dropWhile (· != ' ') = [] := by
    have := (takeWhile_append_of_all (p := (· != ' ')) (a := u) (s := []) hall (NextNot.nil _)).2
    rwa [List.append_nil] at this
  have he : u.isEmpty = false := by cases u with | nil => exact absurd rfl hne | cons => rfl
  simp only [List.append_assoc, List.cons_append, List.nil_append, pUrnDecl, h1, Option.bind_eq_bind, Option.bind_some,
    lit_cons, lit_nil, if_true, sp_skip hw hu, h2, h3, he]
  rfl

theorem ident_isIdentifier {x : Str} (h : Ident x) : isIdentifier x = true := by
  obtain ⟨c, cs, rfl, hc, hcs⟩ := h
  rw [isIdentifier_iff]
  refine ⟨c, cs, rfl, by rw [isAlpha_core]; exact hc, ?_⟩
  intro d hd
  unfold isIdentChar
  rcases hcs d hd with h | h
  · rw [isAlnum_core, h]; rfl
  · rw [h]; rfl

theorem argSig_codes {x : Str} (h : ArgSig x) : ArgCodes x := by
  obtain ⟨l, h⟩ := h
  have one : ∀ {y : Str}, ShortArg y → ArgCode y := by
    rintro y ⟨u, c, cs, hu, rfl, hc, hcs⟩
    have hcs' : ∀ d ∈ cs, isAlnum d = true := fun d hd => by rw [isAlnum_core]; exact hcs d hd
    rcases hu with rfl | rfl
    · exact ⟨false, c, cs, rfl, by rw [isAlpha_core]; exact hc, hcs'⟩
    · exact ⟨true, c, cs, rfl, by rw [isAlpha_core]; exact hc, hcs'⟩
  cases h with
  | @mk a l x y ha hr =>
    obtain ⟨-, ha⟩ := ha
    clear a
    induction hr generalizing x with
    | nil => rw [List.append_nil]; exact .one _ (one ha)
    | @cons b l m z y hm hb hr ih =>
      subst hm
      exact .more _ _ (one ha) (ih hb.2)

theorem funSig_name {n : Str} (h : FunSig n) : FunctionName n := by
  cases h with
  | plain h => exact ⟨_, ident_isIdentifier h, .inl rfl⟩
  | colon h => exact ⟨_, ident_isIdentifier h, .inr (.inl rfl)⟩
  | sig h ha => exact ⟨_, ident_isIdentifier h, .inr (.inr ⟨_, argSig_codes ha, by simp⟩)⟩

/-- So is the declaration of a function or type. -/
theorem pDecl_complete {i j : IntTok} {n x : Str} (h : DeclText i j n x) : pDecl x = some ((i, j, n), []) := by
  obtain ⟨y, w, z, v, u, hy, hw, hz, hv, hu, hn, rfl⟩ := h
  have hz0 : ∃ z', z = '@' :: z' := by
    obtain ⟨a, b, -, -, rfl⟩ := hz
    exact ⟨a ++ b, rfl⟩
  have hname : NextNot (· == ' ') n ∧ pExtName n = some (n, []) := by
    rcases hn with hn | ⟨m, hm, rfl⟩
    · obtain ⟨c, t, e, hc, -⟩ := functionName_head (funSig_name hn)
      refine ⟨?_, pExtName_text (funSig_name hn)⟩
      rw [e, nextNot_cons]
      exact beq_eq_false_iff_ne.2 (alpha_not_space hc)
    · refine ⟨(nextNot_cons _ _ _).2 (by decide), ?_⟩
      have h2 := pFunSig_text (r := []) (funSig_name hm) (NextNot.nil _)
      rw [List.append_nil] at h2
      unfold pExtName
      rw [lit_append]
      simp only [h2]
      rfl
  have h1 := pAnchor_complete (r := w ++ (z ++ (v ++ (':' :: (u ++ n))))) hy (by
    refine sp_nextNot hw (by decide) ?_
    obtain ⟨z', rfl⟩ := hz0
    rw [List.cons_append, nextNot_cons]; decide)
  have h2 : skipSp (w ++ (z ++ (v ++ (':' :: (u ++ n))))) = z ++ (v ++ (':' :: (u ++ n))) := by
    refine sp_skip hw ?_
    obtain ⟨z', rfl⟩ := hz0
    rw [List.cons_append, nextNot_cons]; decide
  have h3 := pUrnAnchor_complete (r := v ++ (':' :: (u ++ n))) hz
    (sp_nextNot hv (by decide) ((nextNot_cons _ _ _).2 (by decide)))
  have h4 : skipSp (v ++ (':' :: (u ++ n))) = ':' :: (u ++ n) :=
    sp_skip hv ((nextNot_cons _ _ _).2 (by decide))
  simp only [List.append_assoc, List.cons_append, List.nil_append, pDecl, h1, h2, h3, h4, Option.bind_eq_bind,
    Option.bind_some, lit_cons, lit_nil, if_true, sp_skip hu hname.1, hname.2]

/-! ## The extensions section -/

theorem extLine_panic {st : ExtState} {l : Str} (h : st.line (indentedLine l) = .panic) : DeclHazard (trimEnd l) := by
  have hcut := indentedLine_cut l
  have hsub : st.subsection (indentedLine l) ≠ .panic := by
    unfold ExtState.subsection
    repeat' split
    all_goals simp
  have ins : ∀ {r : Store × Option InsertError}, st.inserted r ≠ .panic := by
    intro r h
    obtain ⟨s, e⟩ := r
    cases e <;> cases h
  unfold ExtState.line at h
  split at h
  · cases h
  split at h
  · exact absurd h hsub
  · split at h
    · exact absurd h hsub
    split at h
    · next hd =>
      rw [hd] at hcut
      unfold ExtState.urn at h
      split at h
      · cases h
      next a u rest hp =>
      obtain ⟨x, e, hx⟩ := reads_urnDecl _ _ _ hp
      rw [hcut, e]
      split at h
      · next hne =>
        refine .urnTail hx ?_
        intro j v hv
        rw [← e] at hv
        rw [pUrnDecl_complete hv] at hp
        cases hp
        exact hne rfl
      · next hrest =>
        have hrest : rest = [] := Classical.not_not.1 hrest
        subst hrest
        rw [List.append_nil]
        split at h
        · next ha => exact .urn hx (toU32_none.1 ha)
        · exact absurd h ins
    · cases h
  · split at h
    · exact absurd h hsub
    split at h
    · next hd =>
      rw [hd] at hcut
      unfold ExtState.decl at h
      split at h
      · cases h
      next a u n rest hp =>
      obtain ⟨x, e, hx⟩ := reads_decl _ _ _ hp
      rw [hcut, e]
      split at h
      · next hne =>
        refine .declTail hx ?_
        intro i j m hv
        rw [← e] at hv
        rw [pDecl_complete hv] at hp
        cases hp
        exact hne rfl
      · next hrest =>
        have hrest : rest = [] := Classical.not_not.1 hrest
        subst hrest
        rw [List.append_nil]
        split at h
        · split at h
          · cases h
          split at h
          · cases h
          exact absurd h ins
        · next hno =>
          refine .decl hx ?_
          cases ha : a.toU32 with
          | none => exact .inl (toU32_none.1 ha)
          | some a' =>
            cases hu : u.toU32 with
            | none => exact .inr (toU32_none.1 hu)
            | some u' => exact absurd hu (hno a' u' ha)
    · cases h

theorem parseLine_panic {st : PState planLang} {c : Str} (hv : st.VersionOk) (h : st.parseLine c = .panic) :
    st.sec = .extensions ∧ DeclHazard (trimEnd c) := by
  simp only [PState.parseLine] at h
  split at h
  · split at h
    · cases h
    · split at h <;> cases h
  split at h
  · split at h <;> cases h
  · next hs =>
    exfalso
    unfold PState.versionLine at h
    split at h
    · cases h
    split at h
    · unfold PState.versionDetail at h
      split at h
      · cases h
      split at h
      · next hn => have := hv hs; rw [hn] at this; cases this
      · split at h
        · cases h
        split at h <;> cases h
    · cases h
  · next hs =>
    refine ⟨hs, ?_⟩
    have hx2 : planLang.extLine st.ext (indentedLine c) =
      (ExtState.line st.ext (indentedLine c)).mapErr fun _ => () := rfl
    rw [hx2] at h
    generalize hl : ExtState.line st.ext (indentedLine c) = r at h
    cases r with
    | err e => cases h
    | panic => exact extLine_panic hl
    | ok e => cases h
  · exfalso
    unfold PState.planLine at h
    split at h
    · cases h
    split at h <;> cases h

/-- A section header leaves the extensions section. -/
theorem header_leaves {st st1 : PState planLang} {f r : Str} (hs : st.sec = .extensions)
    (hf : trimEnd f = cs!"===" ++ r) (h : st.parseLine f = .ok st1) : st1.sec ≠ .extensions := by
  have hd : (indentedLine f).depth = 0 := by
    simp [indentedLine, hf]
  have hb : (indentedLine f).body = cs!"===" ++ r := by
    have := indentedLine_cut f
    rw [hd, hf] at this
    exact this.symm
  have hp : (stripPrefix cs!"===" (cs!"===" ++ r)).isSome = true := by
    rw [stripPrefix_eq_lit, lit_append]; rfl
  simp only [PState.parseLine] at h
  rw [hd, hb, if_pos ⟨rfl, hp⟩] at h
  split at h
  · cases h
  split at h
  · cases h
  next hrank =>
  cases h
  intro hc
  dsimp only at hc
  rw [hc, hs] at hrank
  exact hrank (Nat.le_refl _)

/-- The plan section raises no panic before relations are converted. -/
theorem runLines_plan_panic (ls : List Str) (st : PState planLang) (hs : st.sec = .plan) :
    PState.runLines st ls ≠ .panic := by
  fun_induction PState.runLines st ls with
  | case1 st => simp
  | case2 st f ls chunk he ih => exact ih hs
  | case3 => simp
  | case4 st f ls chunk he hp =>
    exact absurd (parseLine_panic (by intro h; rw [hs] at h; cases h) hp).1 (by rw [hs]; simp)
  | case5 st f ls chunk he st1 hpl ih =>
    refine ih ?_
    have := (PState.parseLine_sec_mono st st1 chunk hpl).1
    rw [hs] at this
    cases h : st1.sec <;> rw [h] at this <;> simp [Sec.rank] at this ⊢

theorem runLines_cons_panic {st : PState planLang} {f : Str} {ls : List Str} (hs : st.sec ≠ .plan)
    (h : PState.runLines st (f :: ls) = .panic) :
    (trimEnd f = [] ∧ PState.runLines st ls = .panic) ∨
    (trimEnd f ≠ [] ∧ (st.parseLine f = .panic ∨ ∃ st1, st.parseLine f = .ok st1 ∧ PState.runLines st1 ls = .panic)) := by
  have htw := PState.takeWhile_not_plan _ hs f ls
  have hdrop : ls.dropWhile (PState.continues st.sec f) = ls := by
    have := List.takeWhile_append_dropWhile (p := PState.continues st.sec f) (l := ls)
    rw [htw] at this; exact this
  unfold PState.runLines at h
  rw [htw, hdrop] at h
  have hfl : [f].flatten = f := by simp
  simp only [hfl] at h
  split at h
  · next he =>
    rw [trim_isEmpty_iff, trimEnd_trimNl] at he
    exact .inl ⟨he, h⟩
  · next he =>
    rw [trim_isEmpty_iff, trimEnd_trimNl] at he
    rw [PState.parseLine_trimNl] at h
    split at h
    · cases h
    · next hp => exact .inr ⟨he, .inl hp⟩
    · next st1 hst => exact .inr ⟨he, .inr ⟨st1, hst, h⟩⟩

theorem ext_body_panic (ls : List Str) (st : PState planLang) (hs : st.sec = .extensions)
    (h : PState.runLines st ls = .panic) :
    ∃ body l after, ls = body ++ l :: after ∧ (∀ b ∈ body, ∀ r, trimEnd b ≠ cs!"===" ++ r) ∧ DeclHazard (trimEnd l) := by
  induction ls generalizing st with
  | nil => unfold PState.runLines at h; cases h
  | cons f ls ih =>
    have hnp : st.sec ≠ .plan := by rw [hs]; simp
    have hv : st.VersionOk := by intro h; rw [hs] at h; cases h
    rcases runLines_cons_panic hnp h with ⟨hb, h⟩ | ⟨hne, h | ⟨st1, h1, h⟩⟩
    · obtain ⟨body, l, after, e, h2, h3⟩ := ih st hs h
      refine ⟨f :: body, l, after, by rw [e]; rfl, ?_, h3⟩
      intro b hb' r
      rcases List.mem_cons.1 hb' with rfl | hb'
      · rw [hb]; simp
      · exact h2 b hb' r
    · exact ⟨[], f, ls, rfl, by simp, (parseLine_panic hv h).2⟩
    · by_cases hst : st1.sec = .extensions
      · obtain ⟨body, l, after, e, h2, h3⟩ := ih st1 hst h
        refine ⟨f :: body, l, after, by rw [e]; rfl, ?_, h3⟩
        intro b hb' r
        rcases List.mem_cons.1 hb' with rfl | hb'
        · intro hbr
          exact header_leaves hs hbr h1 hst
        · exact h2 b hb' r
      · have := (PState.parseLine_sec_mono st st1 f h1).1
        rw [hs] at this
        have hp : st1.sec = .plan := by
          cases h : st1.sec <;> rw [h] at this hst <;> simp [Sec.rank] at this hst ⊢
        exact absurd h (runLines_plan_panic _ _ hp)

theorem sections_panic (ls : List Str) (st : PState planLang) (hs : st.sec ≠ .extensions) (hv : st.VersionOk)
    (h : PState.runLines st ls = .panic) :
    ∃ before header body l after, ls = before ++ header :: (body ++ l :: after) ∧
      trimEnd header = cs!"=== Extensions" ∧ (∀ b ∈ body, ∀ r, trimEnd b ≠ cs!"===" ++ r) ∧ DeclHazard (trimEnd l) := by
  by_cases hp : st.sec = .plan
  · exact absurd h (runLines_plan_panic _ _ hp)
  induction ls generalizing st with
  | nil => unfold PState.runLines at h; cases h
  | cons f ls ih =>
    have step : ∀ st1 : PState planLang, st1.sec ≠ .extensions → st1.VersionOk → PState.runLines st1 ls = .panic →
        ∃ before header body l after, f :: ls = before ++ header :: (body ++ l :: after) ∧
          trimEnd header = cs!"=== Extensions" ∧ (∀ b ∈ body, ∀ r, trimEnd b ≠ cs!"===" ++ r) ∧
          DeclHazard (trimEnd l) := by
      intro st1 h1 h2 h3
      by_cases h4 : st1.sec = .plan
      · exact absurd h3 (runLines_plan_panic _ _ h4)
      obtain ⟨before, header, body, l, after, e, h5⟩ := ih st1 h1 h2 h3 h4
      exact ⟨f :: before, header, body, l, after, by rw [e]; rfl, h5⟩
    rcases runLines_cons_panic hp h with ⟨hb, h⟩ | ⟨hne, h | ⟨st1, h1, h⟩⟩
    · exact step st hs hv h
    · exact absurd (parseLine_panic hv h).1 hs
    · rcases parseLine_cases hp hne h1 with ⟨-, rfl⟩ | ⟨hf, -, rfl⟩ | ⟨_, _, -, -, -, hc, rfl⟩ | ⟨hc, _, _, _, -, -, -, -, hcc⟩ | ⟨hc, -⟩
      · exact absurd h (runLines_plan_panic _ _ rfl)
      · obtain ⟨body, l, after, e, h2, h3⟩ := ext_body_panic _ _ rfl h
        exact ⟨[], f, body, l, after, by rw [e]; rfl, hf, h2, h3⟩
      · exact step _ (by simp) (by intro _; rfl) h
      · rcases hcc with ⟨-, rfl⟩ | ⟨-, rfl⟩
        · exact step _ (by simpa using hs) (by intro _; rfl) h
        · exact step _ (by simpa using hs) (by intro _; rfl) h
      · exact absurd hc hs

theorem parseSections_panic {text : Str} (h : parseSections planLang text = .panic) : ExtHazard text := by
  rw [PState.parseSections_eq] at h
  exact sections_panic _ _ (by simp [PState.init]) (by intro h; cases h) h

variable [FTab]

omit [FTab] in
theorem spelled_lines {gs : List (List Str)} {ls : List (Nat × LineNode SLine SAddendum)} {ts : List Str}
    (h : Grammar.Spelled gs ls ts) : Lines ls := by
  induction h with
  | nil => intro l hl; cases hl
  | blank _ _ ih => exact ih
  | node _ _ hx hd _ _ ih =>
    intro l hl
    rcases List.mem_cons.1 hl with rfl | hl
    · exact ⟨⟨_, hx⟩, hd⟩
    · exact ih l hl

/-- Every panic of the parser comes from a hazard of the text. -/
theorem parsePlan_panic {reg : Registry ExtArgs (List Nat)} {text : Str} (h : parsePlan reg text = .panic) :
    ExtHazard text ∨ PlanHazard text := by
  unfold parsePlan at h
  cases hr : parseSections planLang text with
  | err e => rw [hr] at h; cases h
  | panic => exact .inl (parseSections_panic hr)
  | ok st =>
    rw [hr] at h
    rw [PState.parseSections_eq] at hr
    obtain ⟨blanks, r1, r2, ops, r3, lines, tails, e, hb, h1, h2, h3, h4, h5⟩ := initial_run _ _ _ rfl rfl rfl hr
    obtain ⟨hans, hst⟩ := StoreRun.run (past := []) h4
    rw [List.nil_append] at hst
    have h : buildPlan reg st = .panic := h
    unfold buildPlan at h
    rw [hst] at h
    have hconv : convPlanRels (run ops) reg st.tree.finish = .panic := by
      generalize convPlanRels (run ops) reg st.tree.finish = c at h
      cases c with
      | err e => cases h
      | panic => rfl
      | ok rels => cases h
    have hbuild : TreeBuilder.build (ρ := SLine) (α := SAddendum) lines = .ok st.tree.finish := by
      unfold TreeBuilder.build
      have h5' : (TreeBuilder.empty : TreeBuilder SLine SAddendum).addLines lines = .ok st.tree := h5
      rw [h5']
      rfl
    have hlist := (C33_build_iff_listing _ _).1 hbuild
    have hlines : Lines lines := by
      cases h3 with
      | none => intro l hl; cases hl
      | some _ hsp => exact spelled_lines hsp
    rw [hlist] at hlines
    obtain ⟨l, hl, hz⟩ := convPlanRels_panic _ hlines hconv
    exact .inr ⟨st.version, ops, lines, tails, ⟨blanks, r1, r2, r3, e, hb, h1, h2, h3⟩, hans, l, by rw [hlist]; exact hl, hz⟩

end Verif
