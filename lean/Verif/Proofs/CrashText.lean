import Verif.Proofs.CrashRels
import Verif.Proofs.HazardsText
import Verif.Props.Declare
import Verif.Props.Pest
import Verif.Proofs.UnrelatedText
/-!
# Which texts make the parser panic
-/

namespace Verif

set_option autoImplicit false

open PestSpec ChunkSpec SectionSpec StoreSpec TreeSpec Grammar DeclareSpec AcceptSpec MeaningSpec CrashSpec HazardSpec

/-! ## One declaration -/

theorem pUrnDecl_head {x : Str} {r : (IntTok × Str) × Str} (h : pUrnDecl x = some r) : ∃ y, x = '@' :: y := by
  obtain ⟨a, r⟩ := r
  obtain ⟨y, e, ⟨_, _, ⟨_, _, _, _, rfl⟩, _, _, _, rfl⟩⟩ := reads_urnDecl _ _ _ h
  exact ⟨_, by rw [e]; rfl⟩

theorem pDecl_head {x : Str} {r : (IntTok × IntTok × Str) × Str} (h : pDecl x = some r) : ∃ y, x = '#' :: y := by
  obtain ⟨a, r⟩ := r
  obtain ⟨y, e, ⟨_, _, _, _, _, ⟨_, _, _, _, rfl⟩, _, _, _, _, _, rfl⟩⟩ := reads_decl _ _ _ h
  exact ⟨_, by rw [e]; rfl⟩

theorem urnTail_iff (x : Str) (c : Char) (r : Str) :
    Peg R.extension_urn_declaration x (some (c :: r)) ↔ ∃ a, pUrnDecl x = some (a, c :: r) := by
  refine (C83_rules _ _ _).trans ?_
  simp only [leaves, ext]
  cases pUrnDecl x with
  | none => simp
  | some y => obtain ⟨a, y⟩ := y; simp [eq_comm]

theorem declTail_iff (x : Str) (c : Char) (r : Str) :
    Peg R.simple_extension x (some (c :: r)) ↔ ∃ a, pDecl x = some (a, c :: r) := by
  refine (C83_rules _ _ _).trans ?_
  simp only [leaves, ext]
  cases pDecl x with
  | none => simp
  | some y => obtain ⟨a, y⟩ := y; simp [eq_comm]

theorem declCrashes_head {cur : Option (Option Kind)} {x : Str} (h : DeclCrashes cur x) :
    ∃ c y, x = c :: y ∧ c ≠ ' ' ∧ c ≠ '=' := by
  cases h with
  | urnTail h => obtain ⟨_, h⟩ := (urnTail_iff _ _ _).1 h; obtain ⟨y, e⟩ := pUrnDecl_head h; exact ⟨_, y, e, by decide, by decide⟩
  | urn h => obtain ⟨y, e⟩ := pUrnDecl_head (pUrnDecl_complete h); exact ⟨_, y, e, by decide, by decide⟩
  | declTail h => obtain ⟨_, h⟩ := (declTail_iff _ _ _).1 h; obtain ⟨y, e⟩ := pDecl_head h; exact ⟨_, y, e, by decide, by decide⟩
  | decl h => obtain ⟨y, e⟩ := pDecl_head (pDecl_complete h); exact ⟨_, y, e, by decide, by decide⟩

theorem urnLine_crash (st : ExtState) (x : Str) : st.urn x = .panic ↔ DeclCrashes (some none) x := by
  unfold ExtState.urn
  constructor
  · intro h
    split at h
    · cases h
    · next a u rest hp =>
      split at h
      · next hr =>
        cases rest with
        | nil => exact absurd rfl hr
        | cons c r => exact .urnTail ((urnTail_iff _ _ _).2 ⟨_, hp⟩)
      · next hr =>
        have hr : rest = [] := Classical.byContradiction hr
        subst hr
        split at h
        · next ha =>
          obtain ⟨y, e, hy⟩ := reads_urnDecl _ _ _ hp
          rw [List.append_nil] at e
          subst e
          exact .urn hy (notAnchor.1 (toU32_none.1 ha))
        · unfold ExtState.inserted at h
          split at h <;> cases h
  · intro h
    cases h with
    | urnTail h => obtain ⟨_, h⟩ := (urnTail_iff _ _ _).1 h; rw [h]; simp
    | urn h hn =>
      rw [pUrnDecl_complete h]
      simp only [ne_eq, not_true, if_false, toU32_none.2 (notAnchor.2 hn)]

theorem declLine_crash (st : ExtState) (k : Kind) (x : Str) : st.decl k x = .panic ↔ DeclCrashes (some (some k)) x := by
  unfold ExtState.decl
  constructor
  · intro h
    split at h
    · cases h
    · next a u n rest hp =>
      split at h
      · next hr =>
        cases rest with
        | nil => exact absurd rfl hr
        | cons c r => exact .declTail ((declTail_iff _ _ _).2 ⟨_, hp⟩)
      · next hr =>
        have hr : rest = [] := Classical.byContradiction hr
        subst hr
        obtain ⟨y, e, hy⟩ := reads_decl _ _ _ hp
        rw [List.append_nil] at e
        subst e
        split at h
        · split at h
          · cases h
          split at h
          · cases h
          unfold ExtState.inserted at h
          split at h <;> cases h
        · next hno =>
          refine .decl hy ?_
          cases ha : a.toU32 with
          | none => exact .inl (notAnchor.1 (toU32_none.1 ha))
          | some a' =>
            cases hu : u.toU32 with
            | none => exact .inr (notAnchor.1 (toU32_none.1 hu))
            | some u' => exact absurd hu (hno a' u' ha)
  · intro h
    cases h with
    | declTail h => obtain ⟨_, h⟩ := (declTail_iff _ _ _).1 h; rw [h]; simp
    | @decl _ _ i j n h hn =>
      rw [pDecl_complete h]
      simp only [ne_eq, not_true, if_false]
      split
      · next h1 h2 =>
        rcases hn with hn | hn
        · rw [toU32_none.2 (notAnchor.2 hn)] at h1; cases h1
        · rw [toU32_none.2 (notAnchor.2 hn)] at h2; cases h2
      · rfl

theorem subsection_noPanic (st : ExtState) (l : Indented) : st.subsection l ≠ .panic := by
  unfold ExtState.subsection
  split
  · simp
  split
  · simp
  split
  · simp
  split <;> simp

/-- A line of the extensions section panics. -/
theorem extLine_crash (st : ExtState) {l : Str} (hne : trimEnd l ≠ []) : st.line (indentedLine l) = .panic ↔
    ∃ x, trimEnd l = cs!"  " ++ x ∧ DeclCrashes (curOf st.expect) x := by
  have hcut := indentedLine_cut l
  have hb := indented_body l hne
  have hd : ∀ x, trimEnd l = cs!"  " ++ x → DeclCrashes (curOf st.expect) x → indentedLine l = ⟨1, x⟩ := by
    intro x hx hc
    obtain ⟨c, y, rfl, h1, _⟩ := declCrashes_head hc
    exact indentedLine_of_cut (d := 1) (by rw [hx]; rfl) (by intro t ht; cases ht; exact h1 rfl)
  constructor
  · intro h
    unfold ExtState.line at h
    rw [if_neg hb] at h
    split at h
    · exact absurd h (subsection_noPanic _ _)
    · next he =>
      split at h
      · exact absurd h (subsection_noPanic _ _)
      split at h
      · next h1 =>
        refine ⟨(indentedLine l).body, ?_, ?_⟩
        · rw [hcut, h1]; rfl
        · rw [he]; exact (urnLine_crash st _).1 h
      · cases h
    · next k he =>
      split at h
      · exact absurd h (subsection_noPanic _ _)
      split at h
      · next h1 =>
        refine ⟨(indentedLine l).body, ?_, ?_⟩
        · rw [hcut, h1]; rfl
        · rw [he]; exact (declLine_crash st k _).1 h
      · cases h
  · rintro ⟨x, hx, hc⟩
    have hi := hd x hx hc
    obtain ⟨c, y, rfl, h1, _⟩ := declCrashes_head hc
    rw [hi]
    unfold ExtState.line
    rw [if_neg (by simp)]
    cases he : st.expect with
    | extensions => rw [he] at hc; cases hc
    | urns => rw [he] at hc; exact (urnLine_crash st _).2 hc
    | decls k => rw [he] at hc; exact (declLine_crash st k _).2 hc

/-! ## Titles -/

/-- The title after one more line. -/
def underOne (cur : Option (Option Kind)) (l : Str) : Option (Option Kind) :=
  if trimEnd l = cs!"URNs:" then some none
  else if trimEnd l = kindTitle .function then some (some .function)
  else if trimEnd l = kindTitle .type then some (some .type)
  else if trimEnd l = kindTitle .typeVariation then some (some .typeVariation)
  else cur

theorem under_cons (cur : Option (Option Kind)) (l : Str) (ls : List Str) : under cur (l :: ls) = under (underOne cur l) ls := rfl

theorem underOne_other {cur : Option (Option Kind)} {l : Str} (h1 : trimEnd l ≠ cs!"URNs:")
    (h2 : ∀ k, trimEnd l ≠ kindTitle k) : underOne cur l = cur := by
  unfold underOne
  rw [if_neg h1, if_neg (h2 _), if_neg (h2 _), if_neg (h2 _)]

theorem extLine_under {st st' : ExtState} {l : Str} (hne : trimEnd l ≠ []) (h : st.line (indentedLine l) = .ok st') :
    curOf st'.expect = underOne (curOf st.expect) l := by
  have hcut := indentedLine_cut l
  have hb := indented_body l hne
  have hsub : st.subsection (indentedLine l) = .ok st' → curOf st'.expect = underOne (curOf st.expect) l := by
    intro h
    unfold ExtState.subsection at h
    have hd : ∀ b, (indentedLine l).depth = 0 ∧ (indentedLine l).body = b → trimEnd l = b := by
      rintro b ⟨h1, h2⟩
      rw [hcut, h1, h2]; rfl
    split at h
    · next hh => cases h; have hh := hd _ hh; unfold underOne; rw [hh]; rfl
    · split at h
      · next hh => cases h; have hh := hd _ hh; unfold underOne; rw [hh]; rfl
      · split at h
        · next hh => cases h; have hh := hd _ hh; unfold underOne; rw [hh]; rfl
        · split at h
          · next hh => cases h; have hh := hd _ hh; unfold underOne; rw [hh]; rfl
          · cases h
  have hdeep : (indentedLine l).depth = 1 → ∀ e, e = st.expect → curOf e = underOne (curOf st.expect) l := by
    rintro h1 e rfl
    rw [underOne_other]
    · rw [hcut, h1]; intro h; cases h
    · rw [hcut, h1]; intro k h; cases k <;> cases h
  have hins : ∀ r, st.inserted r = .ok st' → st'.expect = st.expect := by
    rintro ⟨s, e⟩ h
    unfold ExtState.inserted at h
    split at h
    · cases h; rfl
    · cases h
  unfold ExtState.line at h
  rw [if_neg hb] at h
  split at h
  · exact hsub h
  · split at h
    · exact hsub h
    split at h
    · next h1 =>
      refine hdeep h1 _ ?_
      unfold ExtState.urn at h
      split at h
      · cases h
      split at h
      · cases h
      split at h
      · cases h
      · exact hins _ h
    · cases h
  · split at h
    · exact hsub h
    split at h
    · next h1 =>
      refine hdeep h1 _ ?_
      unfold ExtState.decl at h
      split at h
      · cases h
      split at h
      · cases h
      split at h
      · split at h
        · cases h
        split at h
        · cases h
        exact hins _ h
      · cases h
    · cases h

theorem blank_under {cur : Option (Option Kind)} {l : Str} (h : trimEnd l = []) : underOne cur l = cur :=
  underOne_other (by rw [h]; simp) (by rw [h]; intro k; cases k <;> simp [kindTitle])

/-- The lines of an extensions section that are all read leave the title of the last title line. -/
theorem ext_run_under (ls : List Str) (st st' : PState planLang) (hs : st.sec = .extensions) (hs' : st'.sec = .extensions)
    (h : PState.runLines st ls = .ok st') :
    curOf (st'.ext : ExtState).expect = under (curOf (st.ext : ExtState).expect) ls ∧
      ∀ rest, PState.runLines st (ls ++ rest) = PState.runLines st' rest := by
  induction ls generalizing st with
  | nil =>
    rw [PState.runLines_nil] at h
    cases h
    exact ⟨rfl, fun _ => rfl⟩
  | cons f ls ih =>
    have hnp : st.sec ≠ .plan := by rw [hs]; simp
    rcases runLines_cons_cases hnp h with ⟨hb, h⟩ | ⟨hne, st1, h1, h⟩
    · obtain ⟨g1, g2⟩ := ih st hs h
      refine ⟨by rw [under_cons, blank_under hb]; exact g1, fun rest => ?_⟩
      rw [List.cons_append, PState.runLines_blank st f _ (PState.takeWhile_not_plan _ hnp _ _) hb]
      exact g2 rest
    · have hsec : st1.sec = .extensions := by
        have m1 := (PState.parseLine_sec_mono st st1 f h1).1
        have m2 := PState.runLines_mono ls st1 st' h
        rw [hs] at m1
        rw [hs'] at m2
        cases hc : st1.sec <;> rw [hc] at m1 m2 <;> simp [Sec.rank] at m1 m2 ⊢
      obtain ⟨g1, g2⟩ := ih st1 hsec h
      have hrun : ∀ rest, PState.runLines st (f :: (ls ++ rest)) = PState.runLines st1 (ls ++ rest) := by
        intro rest
        rw [PState.runLines_cons st f _ (PState.takeWhile_not_plan _ hnp _ _) hne, h1]
        rfl
      refine ⟨?_, fun rest => by rw [List.cons_append, hrun]; exact g2 rest⟩
      rcases parseLine_cases hnp hne h1 with ⟨-, rfl⟩ | ⟨-, hc, -⟩ | ⟨r, v, -, -, -, hc, -⟩ | ⟨hc, -⟩ | ⟨-, e, he, rfl⟩
      · cases hsec
      · exact absurd hs hc
      · rw [hs] at hc; cases hc
      · rw [hs] at hc; cases hc
      · rw [under_cons, ← extLine_under hne he]
        exact g1

/-! ## The section -/

/-- Lines with a declaration that panics, everything before it being fine. -/
def BodyCrash (st : ExtState) (ls : List Str) : Prop :=
  ∃ body ops l x rest, ls = body ++ l :: rest ∧ ExtSays (curOf st.expect) body ops ∧ (∃ t, StoreRun st.store ops t) ∧
    trimEnd l = cs!"  " ++ x ∧ DeclCrashes (under (curOf st.expect) body) x

theorem parseLine_extCrash {st : PState planLang} {l : Str} (hs : st.sec = .extensions) (hne : trimEnd l ≠ []) :
    st.parseLine l = .panic ↔ ∃ x, trimEnd l = cs!"  " ++ x ∧ DeclCrashes (curOf (st.ext : ExtState).expect) x := by
  rw [← extLine_crash st.ext hne]
  constructor
  · intro h
    simp only [PState.parseLine] at h
    split at h
    · split at h
      · cases h
      · split at h <;> cases h
    rw [hs] at h
    dsimp only at h
    have hx2 : planLang.extLine st.ext (indentedLine l) =
      (ExtState.line st.ext (indentedLine l)).mapErr fun _ => () := rfl
    rw [hx2] at h
    generalize hl : ExtState.line st.ext (indentedLine l) = r at h
    cases r with
    | err e => cases h
    | panic => rfl
    | ok e => cases h
  · intro h
    obtain ⟨x, hx, hc⟩ := (extLine_crash st.ext hne).1 h
    obtain ⟨c, y, rfl, h1, h2⟩ := declCrashes_head hc
    have hi : indentedLine l = ⟨1, c :: y⟩ :=
      indentedLine_of_cut (d := 1) (by rw [hx]; rfl) (by intro t ht; cases ht; exact h1 rfl)
    have hh : stripPrefix cs!"===" (c :: y) = none := by
      simp only [stripPrefix]; rw [if_neg (fun e => h2 e.symm)]
    rw [parseLine_ext hs (by rw [hi]; exact hh), h]

theorem ext_body_crash (ls : List Str) (st : PState planLang) (hs : st.sec = .extensions) :
    PState.runLines st ls = .panic ↔ BodyCrash st.ext ls := by
  constructor
  · intro h
    induction ls generalizing st with
    | nil => rw [PState.runLines_nil] at h; cases h
    | cons f ls ih =>
      have hnp : st.sec ≠ .plan := by rw [hs]; simp
      rcases runLines_cons_panic hnp h with ⟨hb, h⟩ | ⟨hne, h | ⟨st1, h1, h⟩⟩
      · obtain ⟨body, ops, l, x, rest, e, h2, h3, h4, h5⟩ := ih st hs h
        exact ⟨f :: body, ops, l, x, rest, by rw [e]; rfl, .blank hb h2, h3, h4, by rw [under_cons, blank_under hb]; exact h5⟩
      · obtain ⟨x, hx, hc⟩ := (parseLine_extCrash hs hne).1 h
        exact ⟨[], [], f, x, ls, rfl, .nil, ⟨_, rfl⟩, hx, hc⟩
      · rcases parseLine_cases hnp hne h1 with ⟨-, rfl⟩ | ⟨-, hc, -⟩ | ⟨r, v, -, -, -, hc, -⟩ | ⟨hc, -⟩ | ⟨-, e, he, rfl⟩
        · exact absurd h (runLines_plan_panic _ _ rfl)
        · exact absurd hs hc
        · rw [hs] at hc; cases hc
        · rw [hs] at hc; cases hc
        · obtain ⟨body, ops, l, x, rest, e2, h2, ⟨t, h3⟩, h4, h5⟩ := ih { st with ext := e } hs h
          obtain ⟨ops1, g1, g2⟩ := extLine_says hne he
          refine ⟨f :: body, ops1 ++ ops, l, x, rest, by rw [e2]; rfl, g2 _ _ h2, ⟨t, ext_body.storeRun_append g1 h3⟩, h4, ?_⟩
          rw [under_cons, ← extLine_under hne he]
          exact h5
  · rintro ⟨body, ops, l, x, rest, rfl, h2, ⟨t, h3⟩, h4, h5⟩
    rcases ext_run_says h2 st [] hs rfl with ⟨t', e, _, hrun⟩ | ⟨_, hno⟩
    · rw [List.append_nil, PState.runLines_nil] at hrun
      obtain ⟨g1, g2⟩ := ext_run_under body st { st with ext := (⟨e, t'⟩ : ExtState) } hs hs hrun
      rw [g2 (l :: rest)]
      have hne : trimEnd l ≠ [] := by rw [h4]; simp
      have hnp : st.sec ≠ .plan := by rw [hs]; simp
      rw [PState.runLines_cons { st with ext := (⟨e, t'⟩ : ExtState) } l rest (PState.takeWhile_not_plan _ hnp _ _) hne,
        (parseLine_extCrash (st := { st with ext := (⟨e, t'⟩ : ExtState) }) hs hne).2]
      · rfl
      · exact ⟨x, h4, by rw [g1]; exact h5⟩
    · exact absurd h3 (hno t)

/-! ## The sections before it -/

/-- An extensions section with a declaration that panics. -/
def SectionCrash (r2 : List Str) : Prop :=
  ∃ h ls ops l x rest, r2 = h :: (ls ++ l :: rest) ∧ trimEnd h = cs!"=== Extensions" ∧ ExtSays none ls ops ∧ Sound ops ∧
    trimEnd l = cs!"  " ++ x ∧ DeclCrashes (under none ls) x

theorem section_crash {st : PState planLang} {f : Str} {ls : List Str} (hf : trimEnd f = cs!"=== Extensions")
    (hx : st.ext = (ExtState.init : ExtState)) :
    PState.runLines { st with sec := .extensions } ls = .panic ↔ SectionCrash (f :: ls) := by
  rw [ext_body_crash _ _ rfl]
  show BodyCrash st.ext ls ↔ _
  rw [hx]
  constructor
  · rintro ⟨body, ops, l, x, rest, rfl, h2, ⟨t, h3⟩, h4, h5⟩
    have ha := (StoreRun.run (past := []) h3).1
    exact ⟨f, body, ops, l, x, rest, rfl, hf, h2, (C79_sound ops).1 ha, h4, h5⟩
  · rintro ⟨_, body, ops, l, x, rest, e, _, h2, h3, h4, h5⟩
    injection e with e1 e2
    subst e2
    exact ⟨body, ops, l, x, rest, rfl, h2, ⟨_, storeRun_of_answers ((C79_sound ops).2 h3)⟩, h4, h5⟩

theorem version_crash (ls : List Str) (st : PState planLang) (v : Version) (hs : st.sec = .version)
    (hv : st.version = some v) (hx : st.ext = (ExtState.init : ExtState)) (h : PState.runLines st ls = .panic) :
    ∃ body w r2, ls = body ++ r2 ∧ VersionSays v body w ∧ SectionCrash r2 := by
  induction ls generalizing st v with
  | nil => rw [PState.runLines_nil] at h; cases h
  | cons f ls ih =>
    have hnp : st.sec ≠ .plan := by rw [hs]; simp
    rcases runLines_cons_panic hnp h with ⟨hb, h⟩ | ⟨hne, h | ⟨st1, h1, h⟩⟩
    · obtain ⟨body, w, r2, e, h2, h3⟩ := ih st v hs hv hx h
      exact ⟨f :: body, w, r2, by rw [e]; rfl, .blank hb h2, h3⟩
    · have := (parseLine_panic (by intro _; rw [hv]; rfl) h).1
      rw [hs] at this; cases this
    · rcases parseLine_cases hnp hne h1 with ⟨hf, rfl⟩ | ⟨hf, -, rfl⟩ | ⟨r, v, -, -, -, hc, -⟩ |
        ⟨-, k, x, v', hv', e, hk, hlead, hkey⟩ | ⟨hc, -⟩
      · exact absurd h (runLines_plan_panic _ _ rfl)
      · exact ⟨[], v, f :: ls, rfl, .nil, (section_crash hf hx).1 h⟩
      · rw [hs] at hc; cases hc
      · rw [hv] at hv'
        cases hv'
        rcases hkey with ⟨hkey, rfl⟩ | ⟨hkey, rfl⟩
        · obtain ⟨body, w, r2, e2, h2, h3⟩ := ih { st with version := some { v with producer := trim x } } _ hs rfl hx h
          exact ⟨f :: body, w, r2, by rw [e2]; rfl, .producer e hk hlead hkey h2, h3⟩
        · obtain ⟨body, w, r2, e2, h2, h3⟩ := ih { st with version := some { v with gitHash := trim x } } _ hs rfl hx h
          exact ⟨f :: body, w, r2, by rw [e2]; rfl, .gitHash e hk hlead hkey h2, h3⟩
      · rw [hs] at hc; cases hc

theorem initial_crash (ls : List Str) (h : PState.runLines (PState.init : PState planLang) ls = .panic) :
    ∃ blanks r1 r2 v, ls = blanks ++ r1 ∧ (∀ l ∈ blanks, trimEnd l = []) ∧ VersionPart r2 r1 v ∧ SectionCrash r2 := by
  induction ls with
  | nil => rw [PState.runLines_nil] at h; cases h
  | cons f ls ih =>
    have hnp : (PState.init : PState planLang).sec ≠ .plan := by simp [PState.init]
    rcases runLines_cons_panic hnp h with ⟨hb, h⟩ | ⟨hne, h | ⟨st1, h1, h⟩⟩
    · obtain ⟨blanks, r1, r2, v, e, hbl, h3⟩ := ih h
      refine ⟨f :: blanks, r1, r2, v, by rw [e]; rfl, ?_, h3⟩
      intro l hl
      rcases List.mem_cons.1 hl with rfl | hl
      · exact hb
      · exact hbl l hl
    · have := (parseLine_panic (by intro h; cases h) h).1
      cases this
    · rcases parseLine_cases hnp hne h1 with ⟨hf, rfl⟩ | ⟨hf, -, rfl⟩ | ⟨r, v, hf, hr, hvh, -, rfl⟩ | ⟨hc, -⟩ | ⟨hc, -⟩
      · exact absurd h (runLines_plan_panic _ _ rfl)
      · exact ⟨[], f :: ls, f :: ls, none, rfl, by simp, .none, (section_crash hf rfl).1 h⟩
      · obtain ⟨body, w, r2, e, h2, h3⟩ := version_crash ls _ v rfl rfl rfl h
        refine ⟨[], f :: ls, r2, some w, rfl, by simp, ?_, h3⟩
        rw [e]
        exact .some hf hr ((C36_header_exact r v).1 hvh) h2
      · cases hc
      · cases hc

/-- Up to the extensions section. -/
theorem head_run {ls : List Str} {v : Option Version} {blanks r1 r2 : List Str}
    (e : ls = blanks ++ r1) (hb : ∀ l ∈ blanks, trimEnd l = []) (h1 : VersionPart r2 r1 v) :
    ∃ st : PState planLang, st.sec.rank < 2 ∧ st.ext = (ExtState.init : ExtState) ∧
      PState.runLines (PState.init : PState planLang) ls = PState.runLines st r2 := by
  rw [e, blanks_run blanks r1 _ (by simp [PState.init]) hb]
  generalize hv : v = v' at h1
  cases h1 with
  | none => exact ⟨PState.init, by simp [PState.init, Sec.rank], rfl, rfl⟩
  | @some f r ls v w hf hr hn hs =>
    have hne : trimEnd f ≠ [] := by rw [hf]; simp
    rw [PState.runLines_cons _ f _ (PState.takeWhile_not_plan _ (by simp [PState.init]) _ _) hne,
      parseLine_version _ hf hr hn rfl]
    simp only [Res.bind]
    rw [version_run_says hs { (PState.init : PState planLang) with version := some v, sec := .version } r2 rfl rfl]
    exact ⟨{ (PState.init : PState planLang) with version := some w, sec := .version }, by simp [Sec.rank], rfl, rfl⟩

theorem sections_crash (text : Str) :
    PState.runLines (PState.init : PState planLang) (physLines text) = .panic ↔ DeclsCrash text := by
  constructor
  · intro h
    obtain ⟨blanks, r1, r2, v, e, hb, h1, hd, ls, ops, l, x, rest, rfl, h2, h3, h4, h5, h6⟩ := initial_crash _ h
    exact ⟨blanks, r1, _, v, hd, ls, ops, l, x, rest, e, hb, h1, rfl, h2, h3, h4, h5, h6⟩
  · rintro ⟨blanks, r1, r2, v, hd, ls, ops, l, x, rest, e, hb, h1, rfl, h2, h3, h4, h5, h6⟩
    obtain ⟨st, hr, hx, hrun⟩ := head_run e hb h1
    have hp : st.sec ≠ .plan := by intro hs; rw [hs] at hr; simp [Sec.rank] at hr
    have hne : trimEnd hd ≠ [] := by rw [h2]; simp
    rw [hrun, PState.runLines_cons st hd _ (PState.takeWhile_not_plan _ hp _ _) hne,
      parseLine_named st (s := .extensions) h2 (by simp) hr]
    exact (section_crash h2 hx).2 ⟨hd, ls, ops, l, x, rest, rfl, h2, h3, h4, h5, h6⟩

end Verif
