import Verif.Proofs.HazardsText
import Verif.Proofs.UnrelatedText
import Verif.Spec.Declare
/-!
# What the lines before the plan section do
-/

namespace Verif

set_option autoImplicit false

open ChunkSpec SectionSpec Grammar TreeSpec StoreSpec DeclareSpec

/-! ## Declarations without errors -/

theorem answers_nil_iff (l base : List Op) : answers base l = [] ↔
    ∀ past op rest, l = past ++ op :: rest → answer (base ++ past) op = none := by
  induction l generalizing base with
  | nil => simp [answers]
  | cons op l ih =>
    simp only [answers, List.append_eq_nil_iff, ih]
    constructor
    · rintro ⟨h1, h2⟩ past op' rest heq
      cases past with
      | nil =>
        simp only [List.nil_append, List.cons.injEq] at heq
        obtain ⟨rfl, rfl⟩ := heq
        simpa using h1
      | cons p past =>
        simp only [List.cons_append, List.cons.injEq] at heq
        obtain ⟨rfl, rfl⟩ := heq
        simpa using h2 past op' rest rfl
    · intro h
      refine ⟨?_, fun past op' rest heq => ?_⟩
      · have := h [] op l rfl
        rw [List.append_nil] at this
        rw [this]; rfl
      · have := h (op :: past) op' rest (by rw [heq]; rfl)
        simpa using this

theorem storeRun_of_answers {ops : List Op} : ∀ {past : List Op}, answers past ops = [] →
    StoreRun (run past) ops (run (past ++ ops)) := by
  induction ops with
  | nil => intro past _; rw [List.append_nil]; rfl
  | cons op ops ih =>
    intro past h
    unfold answers at h
    obtain ⟨h1, h2⟩ := List.append_eq_nil_iff.1 h
    refine ⟨?_, ?_⟩
    · rw [Store.exec_answer]
      revert h1
      cases answer past op <;> simp
    · rw [← Store.run_snoc]
      have := ih h2
      rw [List.append_assoc] at this
      exact this

theorem firstUrn_none_iff (h : List Op) (a : Nat) : firstUrn h a = none ↔ ∀ n, Op.urn n a ∉ h := by
  unfold firstUrn
  rw [List.findSome?_eq_none_iff]
  constructor
  · intro hh n hm
    have := hh _ hm
    simp at this
  · intro hh op hm
    cases op with
    | urn n b =>
      by_cases hb : b = a
      · subst hb; exact absurd hm (hh n)
      · simp [hb]
    | _ => rfl

theorem firstExt_none_iff (h : List Op) (a : Nat) (k : Kind) :
    firstExt h a k = none ↔ ∀ u n, Op.ext k u a n ∈ h → legalName k n = none := by
  unfold firstExt
  rw [List.findSome?_eq_none_iff]
  constructor
  · intro hh u n hm
    have := hh _ hm
    simpa using this
  · intro hh op hm
    cases op with
    | ext k' u b n =>
      by_cases hb : b = a ∧ k' = k
      · obtain ⟨rfl, rfl⟩ := hb
        simpa using hh u n hm
      · simp [hb]
    | _ => rfl

/-- The answers of a legal declaration. -/
theorem answer_ext_none (h : List Op) (k : Kind) (u a : Nat) (n : Str) :
    answer h (.ext k u a n) = none ↔
      legalName k n ≠ none ∧ firstExt h a k = none ∧ firstUrn h u ≠ none := by
  simp only [answer]
  cases hl : legalName k n with
  | none => simp
  | some m =>
    rcases firstExt h a k with _ | ⟨_, _⟩ <;> rcases firstUrn h u with _ | _ <;> simp

/-! ## One line -/

theorem toU32_of_u32 {i : IntTok} {a : Nat} (h : U32 i a) : i.toU32 = some a := by
  obtain ⟨h1, h2, h3⟩ := h
  unfold IntTok.toU32
  rw [h1, h2]
  simp [h3]

theorem splitColon_at {k x : Str} (h : ':' ∉ k) : splitColon (k ++ ':' :: x) = some (k, x) := by
  induction k with
  | nil => rfl
  | cons c k ih =>
    have hc : c ≠ ':' := fun e => h (by rw [e]; exact List.mem_cons_self)
    simp only [List.cons_append, splitColon, if_neg hc]
    rw [ih (fun hm => h (List.mem_cons_of_mem _ hm))]
    rfl

/-- The section that starts at a header. -/
theorem parseLine_named {L : Lang} (st : PState L) {f : Str} {s : Sec} (h : Names s f) (hv : s ≠ .version)
    (hr : st.sec.rank < s.rank) : st.parseLine f = .ok { st with sec := s } := by
  have hd : ∀ {b : Str}, trimEnd f = '=' :: b → indentedLine f = ⟨0, '=' :: b⟩ := fun hb =>
    indentedLine_of_cut (d := 0) (by rw [hb]; rfl) (by intro t ht; cases ht)
  cases s with
  | initial => cases h
  | version => exact absurd rfl hv
  | extensions =>
    have h : trimEnd f = cs!"=== Extensions" := h
    simp only [PState.parseLine, hd h]
    rw [if_pos ⟨trivial, by decide⟩]
    simp only [PState.sectionHeader]
    rw [if_pos (by decide)]
    simp only
    rw [if_neg (by omega)]
  | plan =>
    have h : trimEnd f = cs!"=== Plan" := h
    simp only [PState.parseLine, hd h]
    rw [if_pos ⟨trivial, by decide⟩]
    simp only [PState.sectionHeader]
    rw [if_neg (by decide), if_pos (by decide)]
    simp only
    rw [if_neg (by omega)]

theorem parseLine_version {L : Lang} (st : PState L) {f r : Str} {v : Version} (h : trimEnd f = cs!"=== Version" ++ r)
    (hr : r = [] ∨ ∃ r', r = ' ' :: r') (hv : VersionNumber r v) (hs : st.sec = .initial) :
    st.parseLine f = .ok { st with version := some v, sec := .version } := by
  have hd : indentedLine f = ⟨0, cs!"=== Version" ++ r⟩ :=
    indentedLine_of_cut (d := 0) (by rw [h]; rfl) (by intro t ht; cases ht)
  have hh : versionHeader r = .ok v := (C36_header_exact r v).2 hv
  simp only [PState.parseLine, hd]
  rw [if_pos ⟨trivial, by rfl⟩]
  have hsec : st.sectionHeader (cs!"=== Version" ++ r) = .ok ({ st with version := some v }, .version) := by
    unfold PState.sectionHeader
    rw [if_neg (by intro h; cases h), if_neg (by intro h; cases h)]
    have : stripPrefix versionPrefix (cs!"=== Version" ++ r) = some r := rfl
    rw [this]
    dsimp only
    rw [if_pos (by rcases hr with rfl | ⟨r', rfl⟩ <;> simp), hh]
  rw [hsec]
  dsimp only
  rw [if_neg (by rw [hs]; decide)]

/-- A line of the extensions section. -/
theorem parseLine_ext {st : PState planLang} {f : Str} (hs : st.sec = .extensions)
    (hh : (stripPrefix cs!"===" (indentedLine f).body) = none) :
    st.parseLine f = match ExtState.line st.ext (indentedLine f) with
      | .err _ => .err .extensionLine
      | .panic => .panic
      | .ok e => .ok { st with ext := e } := by
  simp only [PState.parseLine, hh]
  rw [if_neg (by simp), hs]
  dsimp only
  have hx2 : planLang.extLine st.ext (indentedLine f) =
    (ExtState.line st.ext (indentedLine f)).mapErr fun _ => () := rfl
  rw [hx2]
  cases ExtState.line st.ext (indentedLine f) <;> rfl

/-- The lines of an extensions section do what they say. -/
theorem ext_run_says {cur : Option (Option Kind)} {ls : List Str} {ops : List Op} (h : ExtSays cur ls ops) :
    ∀ (st : PState planLang) (rest : List Str), st.sec = .extensions → curOf (st.ext : ExtState).expect = cur →
      (∃ t e, StoreRun (st.ext : ExtState).store ops t ∧
        PState.runLines st (ls ++ rest) = PState.runLines { st with ext := (⟨e, t⟩ : ExtState) } rest) ∨
      (PState.runLines st (ls ++ rest) = .err .extensionLine ∧ ∀ t, ¬ StoreRun (st.ext : ExtState).store ops t) := by
  have title : ∀ {l b : Str} (st : PState planLang) (rest : List Str) (x : ExtExpect), st.sec = .extensions →
      trimEnd l = b → b ≠ [] → b.head? ≠ some ' ' → (stripPrefix cs!"===" b) = none →
      (ExtState.line st.ext ⟨0, b⟩ = .ok { (st.ext : ExtState) with expect := x }) →
      PState.runLines st (l :: rest) = PState.runLines { st with ext := ({ (st.ext : ExtState) with expect := x } : ExtState) } rest := by
    intro l b st rest x hs hb hne hsp hh hx
    have hd : indentedLine l = ⟨0, b⟩ :=
      indentedLine_of_cut (d := 0) (by rw [hb]; rfl) (by intro t ht; rw [ht] at hsp; exact hsp rfl)
    have hnp : st.sec ≠ .plan := by rw [hs]; simp
    rw [PState.runLines_cons st l rest (PState.takeWhile_not_plan _ hnp _ _) (by rw [hb]; exact hne),
      parseLine_ext hs (by rw [hd]; exact hh), hd, hx]
    rfl
  have lineOf : ∀ (e : ExtState) (b : Str), b ≠ [] → e.line ⟨0, b⟩ = e.subsection ⟨0, b⟩ := by
    intro e b hb
    unfold ExtState.line
    rw [if_neg hb]
    cases e.expect <;> rfl
  have item : ∀ {l x : Str} (st : PState planLang) (rest : List Str) (op : Op) (c : Char) (y : Str),
      st.sec = .extensions → trimEnd l = cs!"  " ++ x → x = c :: y → c ≠ ' ' → c ≠ '=' →
      (ExtState.line st.ext ⟨1, x⟩ = ExtState.inserted st.ext (exec (st.ext : ExtState).store op) ∨
        ((∃ e, ExtState.line st.ext ⟨1, x⟩ = .err e) ∧ (exec (st.ext : ExtState).store op).2 ≠ none)) →
      ((exec (st.ext : ExtState).store op).2 = none ∧
        PState.runLines st (l :: rest) = PState.runLines { st with ext := ({ (st.ext : ExtState) with store := (exec (st.ext : ExtState).store op).1 } : ExtState) } rest) ∨
      ((exec (st.ext : ExtState).store op).2 ≠ none ∧ PState.runLines st (l :: rest) = .err .extensionLine) := by
    intro l x st rest op c y hs hb hx hc hc' hl
    have hd : indentedLine l = ⟨1, x⟩ :=
      indentedLine_of_cut (d := 1) (by rw [hb]; rfl) (by intro t ht; rw [hx] at ht; cases ht; exact hc rfl)
    have hnp : st.sec ≠ .plan := by rw [hs]; simp
    have hh : stripPrefix cs!"===" x = none := by
      rw [hx]; simp only [stripPrefix]; rw [if_neg (fun e => hc' e.symm)]
    rw [PState.runLines_cons st l rest (PState.takeWhile_not_plan _ hnp _ _) (by rw [hb]; simp),
      parseLine_ext hs (by rw [hd]; exact hh), hd]
    rcases hl with hl | ⟨⟨e, hl⟩, hne⟩
    · rw [hl]
      generalize exec (st.ext : ExtState).store op = r
      obtain ⟨t, e⟩ := r
      cases e with
      | none => exact .inl ⟨rfl, rfl⟩
      | some e => exact .inr ⟨by simp, rfl⟩
    · rw [hl]
      exact .inr ⟨hne, rfl⟩
  have expectOf : ∀ {e : ExtExpect} {k : Option Kind}, curOf e = some k →
      e = match k with | none => .urns | some k => .decls k := by
    intro e k h
    cases e <;> cases h <;> rfl
  induction h with
  | nil => intro st rest hs hc; exact .inl ⟨_, (st.ext : ExtState).expect, rfl, rfl⟩
  | @blank cur l ls ops hb _ ih =>
    intro st rest hs hc
    have hnp : st.sec ≠ .plan := by rw [hs]; simp
    rw [List.cons_append, PState.runLines_blank st l _ (PState.takeWhile_not_plan _ hnp _ _) hb]
    exact ih st rest hs hc
  | @urns cur l ls ops hb _ ih =>
    intro st rest hs hc
    rw [List.cons_append, title st _ .urns hs hb (by decide) (by decide) (by decide)
      ((lineOf st.ext _ (by decide)).trans rfl)]
    exact ih { st with ext := ({ (st.ext : ExtState) with expect := .urns } : ExtState) } rest hs rfl
  | @title cur k l ls ops hb _ ih =>
    intro st rest hs hc
    rw [List.cons_append, title st _ (.decls k) hs hb (by cases k <;> decide) (by cases k <;> decide) (by cases k <;> decide)
      ((lineOf st.ext _ (by cases k <;> decide)).trans (by cases k <;> rfl))]
    exact ih { st with ext := ({ (st.ext : ExtState) with expect := .decls k } : ExtState) } rest hs rfl
  | @urn l ls ops i a u x hb hx ha _ ih =>
    intro st rest hs hc
    have hx0 : ∃ y, x = '@' :: y := by
      obtain ⟨y, w, ⟨_, _, -, -, rfl⟩, -, -, -, rfl⟩ := hx
      exact ⟨_, rfl⟩
    obtain ⟨y, hy⟩ := hx0
    have hl : ExtState.line st.ext ⟨1, x⟩ = ExtState.inserted st.ext (exec (st.ext : ExtState).store (.urn u a)) := by
      unfold ExtState.line
      rw [if_neg (by rw [hy]; simp), expectOf hc]
      simp only [ExtState.urn, pUrnDecl_complete hx, toU32_of_u32 ha]
      simp [exec]
    rw [List.cons_append]
    rcases item st (ls ++ rest) (.urn u a) '@' y hs hb hy (by decide) (by decide) (.inl hl) with ⟨h1, h2⟩ | ⟨h1, h2⟩
    · rw [h2]
      rcases ih { st with ext := ({ (st.ext : ExtState) with store := (exec (st.ext : ExtState).store (.urn u a)).1 } : ExtState) } rest hs hc with
        ⟨t, e, h3, h4⟩ | ⟨h3, h4⟩
      · exact .inl ⟨t, e, ⟨h1, h3⟩, h4⟩
      · exact .inr ⟨h3, fun t ht => h4 t ht.2⟩
    · exact .inr ⟨h2, fun t ht => h1 ht.1⟩
  | @decl k l ls ops i j a b n x hb hx ha hj hcol _ ih =>
    intro st rest hs hc
    have hx0 : ∃ y, x = '#' :: y := by
      obtain ⟨y, w, z, v, u, ⟨_, _, -, -, rfl⟩, -, -, -, -, -, rfl⟩ := hx
      exact ⟨_, rfl⟩
    obtain ⟨y, hy⟩ := hx0
    have hl : ExtState.line st.ext ⟨1, x⟩ = ExtState.inserted st.ext (exec (st.ext : ExtState).store (.ext k b a n)) ∨
        ((∃ e, ExtState.line st.ext ⟨1, x⟩ = .err e) ∧ (exec (st.ext : ExtState).store (.ext k b a n)).2 ≠ none) := by
      unfold ExtState.line
      rw [if_neg (by rw [hy]; simp), expectOf hc]
      simp only [ExtState.decl, pDecl_complete hx, toU32_of_u32 ha, toU32_of_u32 hj]
      rw [if_neg (by decide), if_pos trivial, if_neg (by simp)]
      by_cases hu : k ≠ .type ∧ Store.hasUBang n = true
      · rw [if_pos hu]
        refine .inr ⟨⟨_, rfl⟩, ?_⟩
        have : Store.normName k n = none := by
          unfold Store.normName
          obtain ⟨h1, h2⟩ := hu
          cases k
          · simp [h2]
          · exact absurd rfl h1
          · simp [h2]
        simp [exec, Store.addExt, this]
      · rw [if_neg hu, if_neg]
        · exact .inl rfl
        · rintro ⟨h1, h2⟩
          refine hcol h1 ?_
          unfold hasColon at h2
          simpa using h2
    rw [List.cons_append]
    rcases item st (ls ++ rest) (.ext k b a n) '#' y hs hb hy (by decide) (by decide) hl with ⟨h1, h2⟩ | ⟨h1, h2⟩
    · rw [h2]
      rcases ih { st with ext := ({ (st.ext : ExtState) with store := (exec (st.ext : ExtState).store (.ext k b a n)).1 } : ExtState) } rest hs hc with
        ⟨t, e, h3, h4⟩ | ⟨h3, h4⟩
      · exact .inl ⟨t, e, ⟨h1, h3⟩, h4⟩
      · exact .inr ⟨h3, fun t ht => h4 t ht.2⟩
    · exact .inr ⟨h2, fun t ht => h1 ht.1⟩

/-- So do those of a version section. -/
theorem version_run_says {v w : Version} {ls : List Str} (h : VersionSays v ls w) :
    ∀ (st : PState planLang) (rest : List Str), st.sec = .version → st.version = some v →
      PState.runLines st (ls ++ rest) = PState.runLines { st with version := some w } rest := by
  have item : ∀ {l k x : Str} {v : Version} (st : PState planLang) (rest : List Str), st.sec = .version → st.version = some v →
      trimEnd l = cs!"  " ++ (k ++ ':' :: x) → ':' ∉ k → (∀ t, k ≠ ' ' :: ' ' :: t) → trim k ≠ [] →
      PState.runLines st (l :: rest) =
        ((if trim k = cs!"producer" then .ok { st with version := some { v with producer := trim x } }
          else if trim k = cs!"git_hash" then .ok { st with version := some { v with gitHash := trim x } }
          else .err .versionUnknownField : Res PErr (PState planLang)).bind fun st' => PState.runLines st' rest) := by
    intro l k x v st rest hs hv hb hk hl hne
    have hd : indentedLine l = ⟨1, k ++ ':' :: x⟩ :=
      indentedLine_of_cut (d := 1) (by rw [hb]; rfl) (by
        intro t ht
        match k, hl, hne, ht with
        | [], _, hne, _ => exact hne rfl
        | [c], _, hne, ht => simp at ht
        | c :: d :: k, hl, _, ht =>
          simp only [List.cons_append, List.cons.injEq] at ht
          exact hl k (by rw [ht.1, ht.2.1]))
    have hnp : st.sec ≠ .plan := by rw [hs]; simp
    rw [PState.runLines_cons st l rest (PState.takeWhile_not_plan _ hnp _ _) (by rw [hb]; simp)]
    congr 1
    obtain ⟨sec, ver, ext, tree⟩ := st
    dsimp only at hs hv
    subst hs hv
    simp only [PState.parseLine, hd]
    rw [if_neg (by simp)]
    simp only [PState.versionLine]
    rw [if_neg (by simp), if_pos trivial]
    unfold PState.versionDetail
    rw [splitColon_at hk]
  induction h with
  | nil => intro st rest hs hv; rw [← hv]; rfl
  | @blank v w l ls hb _ ih =>
    intro st rest hs hv
    have hnp : st.sec ≠ .plan := by rw [hs]; simp
    rw [List.cons_append, PState.runLines_blank st l _ (PState.takeWhile_not_plan _ hnp _ _) hb]
    exact ih st rest hs hv
  | @producer v w l k x ls hb hk hl ht _ ih =>
    intro st rest hs hv
    rw [List.cons_append, item st _ hs hv hb hk hl (by rw [ht]; simp), if_pos ht]
    exact ih { st with version := some { v with producer := trim x } } rest hs rfl
  | @gitHash v w l k x ls hb hk hl ht _ ih =>
    intro st rest hs hv
    rw [List.cons_append, item st _ hs hv hb hk hl (by rw [ht]; simp), if_neg (by rw [ht]; decide), if_pos ht]
    exact ih { st with version := some { v with gitHash := trim x } } rest hs rfl

/-- Blank lines do nothing. -/
theorem blanks_run {L : Lang} (ls rest : List Str) (st : PState L) (hp : st.sec ≠ .plan) (h : ∀ l ∈ ls, trimEnd l = []) :
    PState.runLines st (ls ++ rest) = PState.runLines st rest := by
  induction ls with
  | nil => rfl
  | cons l ls ih =>
    rw [List.cons_append, PState.runLines_blank st l _ (PState.takeWhile_not_plan _ hp _ _) (h l (by simp))]
    exact ih fun l hl => h l (by simp [hl])

/-- A plan section without relations. -/
theorem plan_blank {L : Lang} (t : PState L) (ls : List Str) (h : ∀ l ∈ ls, trimEnd l = []) :
    PState.runLines t ls = .ok t := by
  induction ls with
  | nil => exact PState.runLines_nil _
  | cons f ls ih =>
    have htw : ls.takeWhile (PState.continues t.sec f) = [] := by
      cases ls with
      | nil => rfl
      | cons l ls =>
        have : PState.continues t.sec f l = false := by
          cases hc : PState.continues t.sec f l with
          | false => rfl
          | true => exact absurd (h l (by simp)) (PState.continues_not_header _ _ _ hc).2.1
        rw [List.takeWhile_cons, this]
        rfl
    rw [PState.runLines_blank t f ls htw (h f (by simp))]
    exact ih fun l hl => h l (by simp [hl])

theorem spelled_blank {gs : List (List Str)} {ts : List Str} (h : Grammar.Spelled gs [] ts) :
    ∀ l ∈ gs.flatten, trimEnd l = [] := by
  generalize hl : ([] : List (Nat × LineNode SLine SAddendum)) = lines at h
  induction h with
  | nil => simp
  | blank hb _ ih =>
    intro l hm
    rw [List.flatten_cons, List.singleton_append] at hm
    rcases List.mem_cons.1 hm with rfl | hm
    · exact hb
    · exact ih hl l hm
  | node => cases hl

/-- Sections without relations, decided by their declarations. -/
theorem declared_run {text : Str} {v : Option Version} {ops : List Op} {ts : List Str} (h : TextSays text v ops [] ts) :
    (answers [] ops = [] → ∃ sec e, PState.runLines (PState.init : PState planLang) (physLines text) =
      .ok { sec := sec, version := v, ext := (⟨e, run ops⟩ : ExtState), tree := .empty }) ∧
    (answers [] ops ≠ [] → PState.runLines (PState.init : PState planLang) (physLines text) = .err .extensionLine) := by
  obtain ⟨blanks, r1, r2, r3, e, hb, h1, h2, h3⟩ := h
  rw [e, blanks_run blanks r1 _ (by simp [PState.init]) hb]
  -- the plan section
  have plan : ∀ st : PState planLang, st.sec ≠ .plan → ∃ sec, PState.runLines st r3 = .ok { st with sec := sec } := by
    intro st hp
    cases h3 with
    | none => exact ⟨st.sec, PState.runLines_nil _⟩
    | @some f gs _ _ hf hg =>
      have hne : trimEnd f ≠ [] := by rw [hf]; simp
      rw [PState.runLines_cons st f _ (PState.takeWhile_not_plan _ hp _ _) hne,
        parseLine_named st (s := .plan) hf (by simp) (by cases hs : st.sec <;> simp [Sec.rank] <;> exact hp hs)]
      exact ⟨.plan, plan_blank { st with sec := .plan } _ (spelled_blank hg)⟩
  -- the extensions section
  have exts : ∀ st : PState planLang, st.sec.rank < 2 → st.ext = (ExtState.init : ExtState) →
      (answers [] ops = [] → ∃ sec e, PState.runLines st r2 =
        .ok { st with sec := sec, ext := (⟨e, run ops⟩ : ExtState) }) ∧
      (answers [] ops ≠ [] → PState.runLines st r2 = .err .extensionLine) := by
    intro st hr hx
    have hp : st.sec ≠ .plan := by intro hs; rw [hs] at hr; simp [Sec.rank] at hr
    generalize ho : ops = os at h2
    cases h2 with
    | none =>
      subst ho
      refine ⟨fun _ => ?_, fun h => absurd rfl h⟩
      obtain ⟨sec, hrun⟩ := plan st hp
      refine ⟨sec, .extensions, ?_⟩
      rw [hrun, hx]
      rfl
    | @some f ls _ hf hl =>
      subst ho
      have hne : trimEnd f ≠ [] := by rw [hf]; simp
      rw [PState.runLines_cons st f _ (PState.takeWhile_not_plan _ hp _ _) hne,
        parseLine_named st (s := .extensions) hf (by simp) hr]
      simp only [Res.bind]
      rcases ext_run_says hl { st with sec := .extensions } r3 rfl (by show curOf (st.ext : ExtState).expect = _; rw [hx]; rfl) with
        ⟨t, e, h1, h2⟩ | ⟨h1, h2⟩
      · have h1 : StoreRun (st.ext : ExtState).store ops t := h1
        rw [hx] at h1
        obtain ⟨h3, h4⟩ := StoreRun.run (past := []) h1
        refine ⟨fun _ => ?_, fun h => absurd h3 h⟩
        obtain ⟨sec, hrun⟩ := plan { st with sec := .extensions, ext := (⟨e, t⟩ : ExtState) } (by simp)
        refine ⟨sec, e, ?_⟩
        rw [h2, hrun, h4]
        rfl
      · refine ⟨fun h => ?_, fun _ => h1⟩
        refine absurd ?_ (h2 (run ([] ++ ops)))
        show StoreRun (st.ext : ExtState).store ops _
        rw [hx]
        exact storeRun_of_answers h
  generalize hv : v = v' at h1
  cases h1 with
  | none =>
    obtain ⟨h1, h2⟩ := exts PState.init (by simp [PState.init, Sec.rank]) rfl
    exact ⟨h1, h2⟩
  | @some f r ls v w hf hr hn hs =>
    have hne : trimEnd f ≠ [] := by rw [hf]; simp
    rw [PState.runLines_cons _ f _ (PState.takeWhile_not_plan _ (by simp [PState.init]) _ _) hne,
      parseLine_version _ hf hr hn rfl]
    simp only [Res.bind]
    rw [version_run_says hs { (PState.init : PState planLang) with version := some v, sec := .version } r2 rfl rfl]
    obtain ⟨h1, h2⟩ := exts { (PState.init : PState planLang) with version := some w, sec := .version } (by simp [Sec.rank]) rfl
    exact ⟨h1, h2⟩

/-! ## The order of declarations -/

theorem sameAnchor_symm {x y : Op} (h : SameAnchor x y) : SameAnchor y x := by
  cases x <;> cases y <;> simp only [SameAnchor] at *
  · exact h.symm
  · exact ⟨h.1.symm, h.2.symm⟩

/-- Declarations are free of errors exactly if they can be recorded, no anchor is declared twice, and the
URN of each is declared before. -/
theorem answers_sound_iff (ops : List Op) : answers [] ops = [] ↔
    Sound ops := by
  rw [answers_nil_iff]
  simp only [List.nil_append]
  constructor
  · intro h
    have hrec : ∀ op ∈ ops, Recordable op := by
      intro op hm
      obtain ⟨l1, l2, e⟩ := List.append_of_mem hm
      have := h l1 op l2 e
      cases op with
      | urn => trivial
      | unmapped => cases this
      | ext k u a n => exact ((answer_ext_none _ _ _ _ _).1 this).1
    refine ⟨hrec, ?_, ?_⟩
    · rw [List.pairwise_iff_forall_sublist]
      intro x y hs hxy
      obtain ⟨l1, l2, e, h1, h2⟩ := List.append_sublist_iff (l₁ := [x]) (l₂ := [y]) |>.1 hs
      obtain ⟨m1, m2, e2⟩ := List.append_of_mem (List.singleton_sublist.1 h2)
      have hans := h (l1 ++ m1) y m2 (by rw [e, e2, List.append_assoc])
      have hx : x ∈ l1 ++ m1 := List.mem_append_left _ (List.singleton_sublist.1 h1)
      cases x with
      | urn n a =>
        cases y with
        | urn m b =>
          have hab : a = b := hxy
          subst hab
          simp only [answer, Option.map_eq_none_iff] at hans
          exact (firstUrn_none_iff _ _).1 hans n hx
        | _ => exact hxy
      | ext k u a n =>
        cases y with
        | ext l v b m =>
          obtain ⟨rfl, rfl⟩ := hxy
          have h3 := ((answer_ext_none _ _ _ _ _).1 hans).2.1
          exact (hrec (.ext k u a n) (by rw [e]; exact List.mem_append_left _ (List.singleton_sublist.1 h1)))
            ((firstExt_none_iff _ _ _).1 h3 u n hx)
        | _ => exact hxy
      | unmapped => exact hxy
    · intro past k u a n rest e
      have h3 := ((answer_ext_none _ _ _ _ _).1 (h _ _ _ e)).2.2
      rw [ne_eq, firstUrn_none_iff] at h3
      exact Classical.not_forall.1 h3 |>.imp fun m hm => Classical.not_not.1 hm
  · rintro ⟨hrec, hpw, hurn⟩ past op rest e
    rw [e] at hpw
    have hbefore : ∀ x ∈ past, ¬ SameAnchor x op := fun x hx =>
      (List.pairwise_append.1 hpw).2.2 x hx op List.mem_cons_self
    have hr := hrec op (by rw [e]; simp)
    cases op with
    | urn m a =>
      simp only [answer, Option.map_eq_none_iff]
      rw [firstUrn_none_iff]
      intro n hn
      exact hbefore _ hn rfl
    | ext k u a n =>
      rw [answer_ext_none]
      refine ⟨hr, ?_, ?_⟩
      · rw [firstExt_none_iff]
        intro v m hm
        exact absurd ⟨rfl, rfl⟩ (hbefore _ hm)
      · rw [ne_eq, firstUrn_none_iff]
        intro hno
        obtain ⟨m, hm⟩ := hurn past k u a n rest e
        exact hno m hm
    | unmapped => exact absurd hr (by simp [Recordable])

/-- Reordering that declares the URNs first. -/
theorem answers_perm {ops ops' : List Op} (hp : ops.Perm ops') (h : answers [] ops = [])
    (hf : UrnsFirst ops') :
    answers [] ops' = [] ∧ run ops' = run ops := by
  have hu : ∀ past k u a n rest, ops' = past ++ .ext k u a n :: rest → ∀ m, Op.urn m u ∈ ops' → Op.urn m u ∈ past := by
    obtain ⟨us, ds, rfl, h1, h2⟩ := hf
    intro past k u a n rest e m hm
    rcases List.append_eq_append_iff.1 e with ⟨x, rfl, e2⟩ | ⟨x, e1, e2⟩
    · rcases List.mem_append.1 hm with hm | hm
      · exact List.mem_append_left _ hm
      · exact absurd hm (h2 m u)
    · cases x with
      | nil =>
        rw [List.append_nil] at e1
        rw [← e1]
        rcases List.mem_append.1 hm with hm | hm
        · exact hm
        · exact absurd hm (h2 m u)
      | cons y x =>
        simp only [List.cons_append, List.cons.injEq] at e2
        obtain ⟨_, _, h⟩ := h1 y (by rw [e1]; simp)
        rw [← e2.1] at h
        cases h
  have h' : answers [] ops' = [] := by
    rw [answers_sound_iff] at h ⊢
    obtain ⟨h1, h2, h3⟩ := h
    refine ⟨fun op hm => h1 op (hp.mem_iff.2 hm), ?_, ?_⟩
    · exact hp.pairwise h2 fun {x y} hxy hyx => hxy (sameAnchor_symm hyx)
    · intro past k u a n rest e
      have hm : Op.ext k u a n ∈ ops := hp.mem_iff.2 (by rw [e]; simp)
      obtain ⟨l1, l2, e1⟩ := List.append_of_mem hm
      obtain ⟨m, hm⟩ := h3 l1 k u a n l2 e1
      exact ⟨m, hu past k u a n rest e m (hp.mem_iff.1 (by rw [e1]; simp [hm]))⟩
  refine ⟨h', ?_⟩
  have hurns : ∀ a, firstUrn ops' a = firstUrn ops a := by
    intro a
    apply Option.ext
    intro u
    have := (firstUrn_of_ok h' u a).trans (hp.mem_iff.symm.trans (firstUrn_of_ok h u a).symm)
    exact this
  have hexts : ∀ a k, firstExt ops' a k = firstExt ops a k := by
    intro a k
    apply Option.ext
    rintro ⟨u, n⟩
    rw [firstExt_of_ok h', firstExt_of_ok h]
    simp only [hp.mem_iff]
  have e1 : (run ops').urns = (run ops).urns :=
    OMap.find?_ext (Store.ordered_run _).1 (Store.ordered_run _).1
      (fun a => by rw [(Store.run_spec _).1, (Store.run_spec _).1, hurns])
  have e2 : (run ops').exts = (run ops).exts :=
    OMap.find?_ext (Store.ordered_run _).2 (Store.ordered_run _).2
      (fun p => by obtain ⟨a, k⟩ := p; rw [(Store.run_spec _).2, (Store.run_spec _).2, hexts])
  generalize run ops' = s at e1 e2
  generalize run ops = t at e1 e2
  obtain ⟨_, _⟩ := s
  obtain ⟨_, _⟩ := t
  dsimp only at e1 e2
  rw [e1, e2]

/-- The declarations of a plan come after its URNs. -/
theorem planOps_urnsFirst (us : List (Nat × Str)) (ds : List Store.Decl) : UrnsFirst (planOps us ds) := by
  refine ⟨_, _, rfl, ?_, ?_⟩
  · intro op hm
    obtain ⟨p, -, rfl⟩ := List.mem_map.1 hm
    exact ⟨_, _, rfl⟩
  · intro n a hm
    obtain ⟨d, -, h⟩ := List.mem_map.1 hm
    rcases d with _ | ⟨_, _, _, _⟩ <;> cases h

theorem planOps_perm {us us' : List (Nat × Str)} {ds ds' : List Store.Decl} (hu : us.Perm us') (hd : ds.Perm ds') :
    (planOps us ds).Perm (planOps us' ds') := by
  unfold planOps
  exact (hu.map _).append (hd.map _)

section
variable [FTab]

theorem convPlanRels_nil {st : Store} {reg : Registry ExtArgs (List Nat)} {l : List (RNode SLine SAddendum)}
    (h : convPlanRels st reg l = .ok []) : l = [] := by
  cases l with
  | nil => rfl
  | cons t l =>
    unfold convPlanRels at h
    obtain ⟨r, -, h⟩ := Res.bind_ok_iff.1 h
    obtain ⟨rs, -, h⟩ := Res.bind_ok_iff.1 h
    cases h

/-- A text without relations. -/
theorem parsePlan_declared {reg : Registry ExtArgs (List Nat)} {text : Str} {v : Option Version} {ops : List Op}
    {ts : List Str} (h : TextSays text v ops [] ts) :
    (answers [] ops = [] → parsePlan reg text = .ok ⟨v, (run ops).toUrns, (run ops).toDecls, []⟩) ∧
    (answers [] ops ≠ [] → parsePlan reg text = .err (.text .extensionLine)) := by
  obtain ⟨h1, h2⟩ := declared_run h
  unfold parsePlan
  rw [PState.parseSections_eq]
  constructor
  · intro h
    obtain ⟨sec, e, hr⟩ := h1 h
    rw [hr]
    rfl
  · intro h
    rw [h2 h]
    rfl

/-- What precedes the relations of an accepted text, alone. -/
theorem parsePlan_preamble {reg : Registry ExtArgs (List Nat)} {pre body : Str} {p : Plan}
    (hp : pre = [] ∨ pre.getLast? = some '\n')
    (h : parsePlan reg (pre ++ (planHeader ++ ['\n'] ++ body)) = .ok p) :
    parsePlan reg (pre ++ (planHeader ++ ['\n'])) = .ok ⟨p.version, p.urns, p.decls, []⟩ := by
  have hhead : IsHeader (planHeader ++ ['\n']) := ⟨cs!" Plan\n", rfl⟩
  have hne : trimEnd (planHeader ++ ['\n']) ≠ [] := by decide +kernel
  unfold parsePlan at h ⊢
  rw [PState.parseSections_eq] at h ⊢
  rw [physLines_append_complete _ _ hp, physLines_planHeader] at h
  have e : physLines (planHeader ++ ['\n']) = [planHeader ++ ['\n']] := by
    have := physLines_planHeader []
    rwa [List.append_nil] at this
  rw [physLines_append_complete _ _ hp, e]
  obtain ⟨s, hs, hb⟩ := Res.bind_ok_iff.1 h
  have hs := mapErr_ok_inv hs
  obtain ⟨s1, hs1, hsec, hs2⟩ := PState.runLines_split _ _ _ hhead _ _ hs
  rw [PState.runLines_cons _ _ _ (PState.takeWhile_not_plan _ hsec _ _) hne, parseLine_planHeader _ hsec] at hs2
  have htree1 := PState.runLines_tree _ _ _ hs1 hsec
  obtain ⟨sec1, v1, e1, tr1⟩ := s1
  dsimp only at htree1 hsec
  subst htree1
  obtain ⟨hv, he, hsp, hrun⟩ := PState.runLines_plan v1 v1 e1 e1 _ _ _ _ (Nat.le_refl _) hs2
  rw [PState.runLines_append _ _ _ _ hs1 hsec,
    PState.runLines_cons _ _ _ (PState.takeWhile_not_plan _ hsec _ _) hne, parseLine_planHeader _ hsec]
  obtain ⟨rels, hc, rfl⟩ := buildPlan_inv hb
  simp only [Res.bind]
  rw [PState.runLines_nil]
  rw [hv, he]
  rfl

end

end Verif
