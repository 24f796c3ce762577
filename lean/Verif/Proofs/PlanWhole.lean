import Verif.Proofs.PlanLines
import Verif.Proofs.Store
import Verif.Props.Sections
import Verif.Props.Tree
/-!
# What an accepted text says
-/

namespace Verif

set_option autoImplicit false

open ChunkSpec SectionSpec Grammar TreeSpec StoreSpec

theorem reads_urnDecl : Reads (fun (a : IntTok × Str) x => UrnDeclText a.1 a.2 x) pUrnDecl := by
  intro s a r h
  unfold pUrnDecl at h
  simp only [Option.bind_eq_bind, Option.bind_eq_some_iff] at h
  obtain ⟨⟨i, s1⟩, h1, s2, h2, h⟩ := h
  dsimp only at h2 h
  split at h
  · cases h
  next hne =>
  cases h
  obtain ⟨y, e1, hy⟩ := reads_urnAnchor _ _ _ h1
  have e2 := lit_some h2
  obtain ⟨w, t, hw, e3, e4⟩ := skipSp_cut s2
  rw [e3]
  refine ⟨y ++ [':'] ++ w ++ t.takeWhile (· != ' '), ?_, y, w, hy, hw, ?_, ?_, rfl⟩
  · rw [e1, e2, e4]
    simp only [List.append_assoc, List.cons_append, List.nil_append, List.takeWhile_append_dropWhile]
  · intro h0
    apply hne
    dsimp only at h0
    rw [e3, h0]
    rfl
  · intro hm
    have := List.all_takeWhile (p := (· != ' ')) (l := t)
    rw [List.all_eq_true] at this
    simpa using this _ hm

theorem reads_decl :
    Reads (fun (a : IntTok × IntTok × Str) x => DeclText a.1 a.2.1 a.2.2 x) pDecl := by
  intro s a r h
  unfold pDecl at h
  simp only [Option.bind_eq_bind, Option.bind_eq_some_iff] at h
  obtain ⟨⟨i, s1⟩, h1, ⟨j, s2⟩, h2, s3, h3, ⟨n, s4⟩, h4, h⟩ := h
  dsimp only at *
  cases h
  obtain ⟨y, e1, hy⟩ := reads_anchor _ _ _ h1
  obtain ⟨w, t, hw, e2, e2'⟩ := skipSp_cut s1
  rw [e2] at h2
  obtain ⟨z, e3, hz⟩ := reads_urnAnchor _ _ _ h2
  obtain ⟨v, t2, hv, e4, e4'⟩ := skipSp_cut s2
  rw [e4] at h3
  have e5 := lit_some h3
  obtain ⟨u, t3, hu, e6, e6'⟩ := skipSp_cut s3
  rw [e6] at h4
  have hn : t3 = n ++ r ∧ (FunSig n ∨ ∃ m, FunSig m ∧ n = cs!"u!" ++ m) := by
    unfold pExtName at h4
    split at h4
    · next q hr =>
      unfold mapFst at h4
      split at h4
      · next m r2 h5 =>
        cases h4
        obtain ⟨y, e, rfl, hs⟩ := reads_funSig _ _ _ h5
        exact ⟨by rw [lit_some hr, e, List.append_assoc], .inr ⟨_, hs, rfl⟩⟩
      · cases h4
    · obtain ⟨y, e, rfl, hs⟩ := reads_funSig _ _ _ h4
      exact ⟨e, .inl hs⟩
  refine ⟨y ++ w ++ z ++ v ++ [':'] ++ u ++ n, ?_, y, w, z, v, u, hy, hw, hz, hv, hu, hn.2, rfl⟩
  rw [e1, e2', e3, e4', e5, e6', hn.1]
  simp

theorem toU32_u32 {i : IntTok} {a : Nat} (h : i.toU32 = some a) : U32 i a := by
  unfold IntTok.toU32 at h
  split at h
  · cases h
  · next hn =>
    split at h
    · next hl => cases h; exact ⟨by simpa using hn, rfl, hl⟩
    · cases h

theorem splitColon_some {s a b : Str} (h : splitColon s = some (a, b)) : s = a ++ ':' :: b ∧ ':' ∉ a := by
  induction s generalizing a with
  | nil => cases h
  | cons c s ih =>
    unfold splitColon at h
    split at h
    · next hc => cases h; exact ⟨by rw [hc]; rfl, by simp⟩
    · next hc =>
      obtain ⟨⟨a', b'⟩, h1, h2⟩ := Option.map_eq_some_iff.1 h
      cases h2
      obtain ⟨e, hn⟩ := ih h1
      exact ⟨by rw [e]; rfl, by simp [Ne.symm hc, hn]⟩

/-- Declarations accepted one after the other. -/
def StoreRun (s : Store) : List Op → Store → Prop
  | [], t => t = s
  | op :: ops, t => (exec s op).2 = none ∧ StoreRun (exec s op).1 ops t

theorem StoreRun.run {ops : List Op} : ∀ {past : List Op} {t : Store}, StoreRun (StoreSpec.run past) ops t →
    answers past ops = [] ∧ t = StoreSpec.run (past ++ ops) := by
  induction ops with
  | nil => intro past t h; exact ⟨rfl, by rw [List.append_nil]; exact h⟩
  | cons op ops ih =>
    intro past t h
    obtain ⟨h1, h2⟩ := h
    rw [← Store.run_snoc] at h2
    obtain ⟨h3, h4⟩ := ih h2
    refine ⟨?_, by rw [h4, List.append_assoc]; rfl⟩
    unfold answers
    rw [← Store.exec_answer, h1, h3]
    rfl

/-- The title in force. -/
def curOf : ExtExpect → Option (Option Kind)
  | .extensions => none
  | .urns => some none
  | .decls k => some (some k)

theorem indented_body (l : Str) (h : trimEnd l ≠ []) : (indentedLine l).body ≠ [] := by
  intro h0
  have e := indentedLine_cut l
  rw [h0, List.append_nil] at e
  have hw : ∀ c ∈ trimEnd l, isWs c = true := by
    rw [e]
    intro c hc
    rw [(List.mem_replicate.1 hc).2]
    decide
  have := trimEnd_eq_nil_iff (trimEnd l) |>.2 hw
  rw [trimEnd_idem] at this
  exact h this

/-- One line of the extensions section. -/
theorem extLine_says {st st' : ExtState} {l : Str} (hne : trimEnd l ≠ []) (h : st.line (indentedLine l) = .ok st') :
    ∃ ops, StoreRun st.store ops st'.store ∧
      ∀ ls more, ExtSays (curOf st'.expect) ls more → ExtSays (curOf st.expect) (l :: ls) (ops ++ more) := by
  have hcut := indentedLine_cut l
  have hb := indented_body l hne
  have hsub : st.subsection (indentedLine l) = .ok st' → ∃ ops, StoreRun st.store ops st'.store ∧
      ∀ ls more, ExtSays (curOf st'.expect) ls more → ExtSays (curOf st.expect) (l :: ls) (ops ++ more) := by
    intro h
    unfold ExtState.subsection at h
    refine ⟨[], ?_⟩
    split at h
    · next hh =>
      cases h
      refine ⟨rfl, fun ls more hm => .urns ?_ hm⟩
      rw [hcut, hh.1, hh.2]; rfl
    · split at h
      · next hh =>
        cases h
        refine ⟨rfl, fun ls more hm => .title (k := .function) ?_ hm⟩
        rw [hcut, hh.1, hh.2]; rfl
      · split at h
        · next hh =>
          cases h
          refine ⟨rfl, fun ls more hm => .title (k := .type) ?_ hm⟩
          rw [hcut, hh.1, hh.2]; rfl
        · split at h
          · next hh =>
            cases h
            refine ⟨rfl, fun ls more hm => .title (k := .typeVariation) ?_ hm⟩
            rw [hcut, hh.1, hh.2]; rfl
          · cases h
  unfold ExtState.line at h
  rw [if_neg hb] at h
  have ins : ∀ {r : Store × Option InsertError}, st.inserted r = .ok st' →
      r.2 = none ∧ st'.store = r.1 ∧ st'.expect = st.expect := by
    intro r h
    obtain ⟨s, e⟩ := r
    cases e with
    | none => cases h; exact ⟨rfl, rfl, rfl⟩
    | some e => cases h
  split at h
  · exact hsub h
  · next hexp =>
    split at h
    · exact hsub h
    · split at h
      · next hd =>
        unfold ExtState.urn at h
        split at h
        · cases h
        next a u rest hp =>
        split at h
        · cases h
        next hrest =>
        have hrest : rest = [] := Classical.not_not.1 hrest
        subst hrest
        split at h
        · cases h
        next a' ha =>
        obtain ⟨h1, h2, h3⟩ := ins h
        obtain ⟨x, e, hx⟩ := reads_urnDecl _ _ _ hp
        refine ⟨[.urn u a'], ⟨h1, h2⟩, fun ls more hm => ?_⟩
        rw [h3] at hm
        rw [hexp] at hm ⊢
        refine .urn ?_ hx (toU32_u32 ha) hm
        rw [hcut, hd, e, List.append_nil]
        rfl
      · cases h
  · next k hexp =>
    split at h
    · exact hsub h
    · split at h
      · next hd =>
        unfold ExtState.decl at h
        split at h
        · cases h
        next a u n rest hp =>
        split at h
        · cases h
        next hrest =>
        have hrest : rest = [] := Classical.not_not.1 hrest
        subst hrest
        split at h
        · next a' u' ha hu =>
          split at h
          · cases h
          split at h
          · cases h
          next hcol =>
          obtain ⟨h1, h2, h3⟩ := ins h
          obtain ⟨x, e, hx⟩ := reads_decl _ _ _ hp
          refine ⟨[.ext k u' a' n], ⟨h1, h2⟩, fun ls more hm => ?_⟩
          rw [h3] at hm
          rw [hexp] at hm ⊢
          refine .decl ?_ hx (toU32_u32 ha) (toU32_u32 hu) ?_ hm
          · rw [hcut, hd, e, List.append_nil]
            rfl
          · intro hk hm
            apply hcol
            exact ⟨hk, by unfold hasColon; simpa using hm⟩
        · cases h
      · cases h

/-- One line outside the plan section, not blank. -/
theorem parseLine_cases {st st1 : PState planLang} {f : Str} (hs : st.sec ≠ .plan) (hne : trimEnd f ≠ [])
    (hpl : st.parseLine f = .ok st1) :
    (trimEnd f = cs!"=== Plan" ∧ st1 = { st with sec := .plan }) ∨
    (trimEnd f = cs!"=== Extensions" ∧ st.sec ≠ .extensions ∧ st1 = { st with sec := .extensions }) ∨
    (∃ r v, trimEnd f = cs!"=== Version" ++ r ∧ (r = [] ∨ ∃ r', r = ' ' :: r') ∧ versionHeader r = .ok v ∧
      st.sec = .initial ∧ st1 = { st with version := some v, sec := .version }) ∨
    (st.sec = .version ∧ ∃ k x v, st.version = some v ∧ trimEnd f = cs!"  " ++ (k ++ ':' :: x) ∧ ':' ∉ k ∧
      (∀ t, k ≠ ' ' :: ' ' :: t) ∧ ((trim k = cs!"producer" ∧ st1 = { st with version := some { v with producer := trim x } }) ∨
       (trim k = cs!"git_hash" ∧ st1 = { st with version := some { v with gitHash := trim x } }))) ∨
    (st.sec = .extensions ∧ ∃ e : ExtState, ExtState.line st.ext (indentedLine f) = .ok e ∧ st1 = { st with ext := e }) := by
  have hcut := indentedLine_cut f
  have hb := indented_body f hne
  have hblank : ¬ ((indentedLine f).depth = 0 ∧ trim (indentedLine f).body = []) := by
    rintro ⟨hd, ht⟩
    rw [hd] at hcut
    have hcut : trimEnd f = (indentedLine f).body := hcut
    rw [← hcut, ← List.isEmpty_iff, trim_isEmpty_iff, trimEnd_idem] at ht
    exact hne ht
  simp only [PState.parseLine] at hpl
  split at hpl
  · next hhead =>
    rw [hhead.1] at hcut
    have hcut : trimEnd f = (indentedLine f).body := hcut
    split at hpl
    · cases hpl
    next st2 nx hsec =>
    split at hpl
    · cases hpl
    next hrank =>
    cases hpl
    unfold PState.sectionHeader at hsec
    split at hsec
    · next hp =>
      cases hsec
      refine .inr (.inl ⟨by rw [hcut, hp]; rfl, ?_, rfl⟩)
      intro h
      rw [h] at hrank
      exact hrank (Nat.le_refl _)
    · split at hsec
      · next hp =>
        cases hsec
        exact .inl ⟨by rw [hcut, hp]; rfl, rfl⟩
      · split at hsec
        · next rest hst =>
          split at hsec
          · next hsp =>
            split at hsec
            · cases hsec
            · next v hv =>
              cases hsec
              refine .inr (.inr (.inl ⟨rest, v, ?_, ?_, hv, ?_, rfl⟩))
              · rw [hcut]; rw [stripPrefix_eq_lit] at hst; exact lit_some hst
              · cases rest with
                | nil => exact .inl rfl
                | cons c r =>
                  refine .inr ⟨r, ?_⟩
                  simp at hsp
                  rw [hsp]
              · cases hh : st.sec <;> rw [hh] at hrank <;> simp [Sec.rank] at hrank ⊢
          · cases hsec
        · cases hsec
  · split at hpl
    · try rw [if_neg hblank] at hpl
      cases hpl
    · next hv =>
      unfold PState.versionLine at hpl
      rw [if_neg hblank] at hpl
      split at hpl
      · next hd =>
        rw [hd] at hcut
        unfold PState.versionDetail at hpl
        split at hpl
        · cases hpl
        · next k x hsp =>
          obtain ⟨e, hk⟩ := splitColon_some hsp
          split at hpl
          · cases hpl
          · next v hver =>
            refine .inr (.inr (.inr (.inl ⟨hv, k, x, v, hver, by rw [hcut, e]; rfl, hk,
              fun t ht => indentedLine_lead f (t ++ ':' :: x) (by rw [e, ht]; rfl), ?_⟩)))
            split at hpl
            · next hkey => cases hpl; exact .inl ⟨hkey, rfl⟩
            · split at hpl
              · next hkey => cases hpl; exact .inr ⟨hkey, rfl⟩
              · cases hpl
      · cases hpl
    · next hx =>
      refine .inr (.inr (.inr (.inr ⟨hx, ?_⟩)))
      have hx2 : planLang.extLine st.ext (indentedLine f) =
        (ExtState.line st.ext (indentedLine f)).mapErr fun _ => () := rfl
      rw [hx2] at hpl
      generalize hl : ExtState.line st.ext (indentedLine f) = r at hpl
      cases r with
      | err e => cases hpl
      | panic => cases hpl
      | ok e => cases hpl; exact ⟨e, rfl, rfl⟩
    · next hp => exact absurd hp hs

/-- `runLines` on a nonempty list outside the plan section. -/
theorem runLines_cons_cases {st st' : PState planLang} {f : Str} {ls : List Str} (hs : st.sec ≠ .plan)
    (h : PState.runLines st (f :: ls) = .ok st') :
    (trimEnd f = [] ∧ PState.runLines st ls = .ok st') ∨
    (trimEnd f ≠ [] ∧ ∃ st1, st.parseLine f = .ok st1 ∧ PState.runLines st1 ls = .ok st') := by
  have htw := PState.takeWhile_not_plan _ hs f ls
  have hdrop : ls.dropWhile (PState.continues st.sec f) = ls := by
    have := List.takeWhile_append_dropWhile (p := PState.continues st.sec f) (l := ls)
    rw [htw] at this; exact this
  unfold PState.runLines at h
  rw [htw, hdrop] at h
  have hfl : [f].flatten = f := by simp
  simp only [hfl] at h
  split at h
  · next he =>
    rw [trim_isEmpty_iff, trimEnd_trimNl] at he
    exact .inl ⟨he, h⟩
  · next he =>
    rw [trim_isEmpty_iff, trimEnd_trimNl] at he
    rw [PState.parseLine_trimNl] at h
    split at h
    · cases h
    · cases h
    · next st1 hst => exact .inr ⟨he, st1, hst, h⟩

/-- What the lines from a state on contribute. -/
def PlanRun (st st' : PState planLang) (ls : List Str) : Prop :=
  ∃ lines tails, PlanPart ls lines tails ∧
    TreeBuilder.addLines (ρ := planLang.Rel) (α := planLang.Add) st.tree lines = .ok st'.tree ∧
    st'.ext = st.ext ∧ st'.version = st.version

def ExtRun (st st' : PState planLang) (ls : List Str) : Prop :=
  ∃ ops r3 lines tails, ExtPart r3 ls ops ∧ PlanPart r3 lines tails ∧
    StoreRun (st.ext : ExtState).store ops (st'.ext : ExtState).store ∧
    TreeBuilder.addLines (ρ := planLang.Rel) (α := planLang.Add) st.tree lines = .ok st'.tree ∧
    st'.version = st.version

theorem plan_run {st st' : PState planLang} {f : Str} {ls : List Str} (hf : trimEnd f = cs!"=== Plan")
    (h : PState.runLines { st with sec := .plan } ls = .ok st') : PlanRun st st' (f :: ls) := by
  obtain ⟨gs, lines, tails, h1, h2, h3, -, h5, h6⟩ := runLines_spelled _ _ _ rfl h
  exact ⟨lines, tails, by rw [h1]; exact .some hf h2, h3, h5, h6⟩

/-- Inside the extensions section. -/
theorem ext_body (ls : List Str) (st st' : PState planLang) (hs : st.sec = .extensions)
    (h : PState.runLines st ls = .ok st') :
    ∃ body ops r3 lines tails, ls = body ++ r3 ∧ ExtSays (curOf (st.ext : ExtState).expect) body ops ∧
      PlanPart r3 lines tails ∧ StoreRun (st.ext : ExtState).store ops (st'.ext : ExtState).store ∧
      TreeBuilder.addLines (ρ := planLang.Rel) (α := planLang.Add) st.tree lines = .ok st'.tree ∧
      st'.version = st.version := by
  induction ls generalizing st with
  | nil =>
    unfold PState.runLines at h
    cases h
    exact ⟨[], [], [], [], [], rfl, .nil, .none, rfl, rfl, rfl⟩
  | cons f ls ih =>
    have hnp : st.sec ≠ .plan := by rw [hs]; simp
    rcases runLines_cons_cases hnp h with ⟨hb, h⟩ | ⟨hne, st1, h1, h⟩
    · obtain ⟨body, ops, r3, lines, tails, e, h2, h3⟩ := ih st hs h
      exact ⟨f :: body, ops, r3, lines, tails, by rw [e]; rfl, .blank hb h2, h3⟩
    · rcases parseLine_cases hnp hne h1 with ⟨hf, rfl⟩ | ⟨-, hc, -⟩ | ⟨r, v, -, -, -, hc, -⟩ | ⟨hc, -⟩ | ⟨-, e, he, rfl⟩
      · obtain ⟨lines, tails, h2, h3, h4, h5⟩ := plan_run hf h
        exact ⟨[], [], f :: ls, lines, tails, rfl, .nil, h2, by rw [h4]; rfl, h3, h5⟩
      · exact absurd hs hc
      · rw [hs] at hc; cases hc
      · rw [hs] at hc; cases hc
      · obtain ⟨ops, h2, h3⟩ := extLine_says hne he
        obtain ⟨body, ops2, r3, lines, tails, e2, h4, h5, h6, h7⟩ := ih { st with ext := e } hs h
        refine ⟨f :: body, ops ++ ops2, r3, lines, tails, by rw [e2]; rfl, h3 _ _ h4, h5, ?_, h7⟩
        exact storeRun_append h2 h6
where
  storeRun_append {a b c : Store} {x y : List Op} (h1 : StoreRun a x b) (h2 : StoreRun b y c) :
      StoreRun a (x ++ y) c := by
    induction x generalizing a with
    | nil => cases h1; exact h2
    | cons op x ih => exact ⟨h1.1, ih h1.2⟩

theorem ext_run {st st' : PState planLang} {f : Str} {ls : List Str} (hf : trimEnd f = cs!"=== Extensions")
    (hx : (st.ext : ExtState).expect = .extensions)
    (h : PState.runLines { st with sec := .extensions } ls = .ok st') : ExtRun st st' (f :: ls) := by
  obtain ⟨body, ops, r3, lines, tails, e, h1, h2, h3, h4, h5⟩ := ext_body _ _ _ rfl h
  dsimp only at h1
  rw [hx] at h1
  exact ⟨ops, r3, lines, tails, by rw [e]; exact .some hf h1, h2, h3, h4, h5⟩

theorem PlanRun.toExt {st st' : PState planLang} {ls : List Str} (h : PlanRun st st' ls) : ExtRun st st' ls := by
  obtain ⟨lines, tails, h1, h2, h3, h4⟩ := h
  exact ⟨[], ls, lines, tails, .none, h1, by rw [h3]; rfl, h2, h4⟩

/-- Inside the version section. -/
theorem version_body (ls : List Str) (st st' : PState planLang) (v : Version) (hs : st.sec = .version)
    (hv : st.version = some v) (hx : (st.ext : ExtState).expect = .extensions)
    (h : PState.runLines st ls = .ok st') :
    ∃ body w r2 ops r3 lines tails, ls = body ++ r2 ∧ VersionSays v body w ∧ ExtPart r3 r2 ops ∧
      PlanPart r3 lines tails ∧ StoreRun (st.ext : ExtState).store ops (st'.ext : ExtState).store ∧
      TreeBuilder.addLines (ρ := planLang.Rel) (α := planLang.Add) st.tree lines = .ok st'.tree ∧
      st'.version = some w := by
  induction ls generalizing st v with
  | nil =>
    unfold PState.runLines at h
    cases h
    exact ⟨[], v, [], [], [], [], [], rfl, .nil, .none, .none, rfl, rfl, hv⟩
  | cons f ls ih =>
    have hnp : st.sec ≠ .plan := by rw [hs]; simp
    rcases runLines_cons_cases hnp h with ⟨hb, h⟩ | ⟨hne, st1, h1, h⟩
    · obtain ⟨body, w, r2, ops, r3, lines, tails, e, h2, h3⟩ := ih st v hs hv hx h
      exact ⟨f :: body, w, r2, ops, r3, lines, tails, by rw [e]; rfl, .blank hb h2, h3⟩
    · rcases parseLine_cases hnp hne h1 with ⟨hf, rfl⟩ | ⟨hf, -, rfl⟩ | ⟨r, v, -, -, -, hc, -⟩ |
        ⟨-, k, x, v', hv', e, hk, hlead, hkey⟩ | ⟨hc, -⟩
      · obtain ⟨ops, r3, lines, tails, h2, h3, h4, h5, h6⟩ := (plan_run hf h).toExt
        exact ⟨[], v, f :: ls, ops, r3, lines, tails, rfl, .nil, h2, h3, h4, h5, by rw [h6, hv]⟩
      · obtain ⟨ops, r3, lines, tails, h2, h3, h4, h5, h6⟩ := ext_run hf hx h
        exact ⟨[], v, f :: ls, ops, r3, lines, tails, rfl, .nil, h2, h3, h4, h5, by rw [h6, hv]⟩
      · rw [hs] at hc; cases hc
      · rw [hv] at hv'
        cases hv'
        rcases hkey with ⟨hkey, rfl⟩ | ⟨hkey, rfl⟩
        · obtain ⟨body, w, r2, ops, r3, lines, tails, e2, h2, h3⟩ := ih { st with version := some { v with producer := trim x } } _ hs rfl hx h
          exact ⟨f :: body, w, r2, ops, r3, lines, tails, by rw [e2]; rfl, .producer e hk hlead hkey h2, h3⟩
        · obtain ⟨body, w, r2, ops, r3, lines, tails, e2, h2, h3⟩ := ih { st with version := some { v with gitHash := trim x } } _ hs rfl hx h
          exact ⟨f :: body, w, r2, ops, r3, lines, tails, by rw [e2]; rfl, .gitHash e hk hlead hkey h2, h3⟩
      · rw [hs] at hc; cases hc

end Verif

namespace Verif

set_option autoImplicit false

open ChunkSpec SectionSpec Grammar TreeSpec StoreSpec

/-- Before the first section. -/
theorem initial_run (ls : List Str) (st st' : PState planLang) (hs : st.sec = .initial)
    (hv : st.version = none) (hx : (st.ext : ExtState).expect = .extensions)
    (h : PState.runLines st ls = .ok st') :
    ∃ blanks r1 r2 ops r3 lines tails, ls = blanks ++ r1 ∧ (∀ l ∈ blanks, trimEnd l = []) ∧
      VersionPart r2 r1 st'.version ∧ ExtPart r3 r2 ops ∧
      PlanPart r3 lines tails ∧ StoreRun (st.ext : ExtState).store ops (st'.ext : ExtState).store ∧
      TreeBuilder.addLines (ρ := planLang.Rel) (α := planLang.Add) st.tree lines = .ok st'.tree := by
  induction ls with
  | nil =>
    unfold PState.runLines at h
    cases h
    exact ⟨[], [], [], [], [], [], [], rfl, by simp, by rw [hv]; exact .none, .none, .none, rfl, rfl⟩
  | cons f ls ih =>
    have hnp : st.sec ≠ .plan := by rw [hs]; simp
    rcases runLines_cons_cases hnp h with ⟨hb, h⟩ | ⟨hne, st1, h1, h⟩
    · obtain ⟨blanks, r1, r2, ops, r3, lines, tails, e, hbl, h3⟩ := ih h
      refine ⟨f :: blanks, r1, r2, ops, r3, lines, tails, by rw [e]; rfl, ?_, h3⟩
      intro l hl
      rcases List.mem_cons.1 hl with rfl | hl
      · exact hb
      · exact hbl l hl
    · rcases parseLine_cases hnp hne h1 with ⟨hf, rfl⟩ | ⟨hf, -, rfl⟩ | ⟨r, v, hf, hr, hvh, -, rfl⟩ |
        ⟨hc, -⟩ | ⟨hc, -⟩
      · obtain ⟨ops, r3, lines, tails, h2, h3, h4, h5, h6⟩ := (plan_run hf h).toExt
        exact ⟨[], f :: ls, f :: ls, ops, r3, lines, tails, rfl, by simp, by rw [h6, hv]; exact .none, h2, h3, h4, h5⟩
      · obtain ⟨ops, r3, lines, tails, h2, h3, h4, h5, h6⟩ := ext_run hf hx h
        exact ⟨[], f :: ls, f :: ls, ops, r3, lines, tails, rfl, by simp, by rw [h6, hv]; exact .none, h2, h3, h4, h5⟩
      · obtain ⟨body, w, r2, ops, r3, lines, tails, e, h2, h3, h4, h5, h6, h7⟩ :=
          version_body ls { st with version := some v, sec := .version } st' v rfl rfl hx h
        refine ⟨[], f :: ls, r2, ops, r3, lines, tails, rfl, by simp, ?_, h3, h4, h5, h6⟩
        rw [h7, e]
        exact .some hf hr ((C36_header_exact r v).1 hvh) h2
      · rw [hs] at hc; cases hc
      · rw [hs] at hc; cases hc

/-- Without errors every declaration counts. -/
theorem firstUrn_of_ok {ops : List Op} (h : answers [] ops = []) (u : Str) (a : Nat) :
    firstUrn ops a = some u ↔ Op.urn u a ∈ ops := by
  constructor
  · intro hf
    obtain ⟨op, hm, he⟩ := List.exists_of_findSome?_eq_some hf
    cases op with
    | urn n b =>
      dsimp only at he
      split at he
      · next hb => cases he; rw [← hb]; exact hm
      · cases he
    | _ => cases he
  · intro hm
    obtain ⟨l1, l2, e⟩ := List.append_of_mem hm
    rw [e, Store.answers_append] at h
    have h2 := (List.append_eq_nil_iff.1 h).2
    have h3 : answer ([] ++ l1) (Op.urn u a) = none := by
      unfold answers at h2
      have := (List.append_eq_nil_iff.1 h2).1
      revert this
      cases answer ([] ++ l1) (Op.urn u a) <;> simp
    simp only [answer, List.nil_append, Option.map_eq_none_iff] at h3
    rw [e]
    unfold firstUrn at h3 ⊢
    rw [List.findSome?_append, h3]
    simp

theorem firstExt_of_ok {ops : List Op} (h : answers [] ops = []) (k : Kind) (u a : Nat) (n : Str) :
    firstExt ops a k = some (u, n) ↔ ∃ m, Op.ext k u a m ∈ ops ∧ legalName k m = some n := by
  constructor
  · intro hf
    obtain ⟨op, hm, he⟩ := List.exists_of_findSome?_eq_some hf
    cases op with
    | ext k' u' b m =>
      dsimp only at he
      split at he
      · next hb =>
        obtain ⟨rfl, rfl⟩ := hb
        obtain ⟨n', h1, h2⟩ := Option.map_eq_some_iff.1 he
        cases h2
        exact ⟨m, hm, h1⟩
      · cases he
    | _ => cases he
  · rintro ⟨m, hm, hl⟩
    obtain ⟨l1, l2, e⟩ := List.append_of_mem hm
    rw [e, Store.answers_append] at h
    have h2 := (List.append_eq_nil_iff.1 h).2
    have h3 : answer ([] ++ l1) (Op.ext k u a m) = none := by
      unfold answers at h2
      have := (List.append_eq_nil_iff.1 h2).1
      revert this
      cases answer ([] ++ l1) (Op.ext k u a m) <;> simp
    have h4 : firstExt l1 a k = none := by
      simp only [answer, hl, List.nil_append] at h3
      revert h3
      rcases firstExt l1 a k with _ | ⟨_, _⟩ <;> rcases firstUrn l1 u with _ | _ <;> simp
    rw [e]
    unfold firstExt at h4 ⊢
    rw [List.findSome?_append, h4]
    simp [hl]

variable [FTab]

/-- An accepted plan is what the text says. -/
theorem parsePlan_built {reg : Registry ExtArgs (List Nat)} {text : Str} {p : Plan}
    (h : parsePlan reg text = .ok p) :
    ∃ ops lines tails forest, TextSays text p.version ops lines tails ∧ answers [] ops = [] ∧
      (∀ a u, (a, u) ∈ p.urns ↔ Op.urn u a ∈ ops) ∧
      (∀ k u a n, some (k, u, a, n) ∈ p.decls ↔ ∃ m, Op.ext k u a m ∈ ops ∧ legalName k m = some n) ∧
      none ∉ p.decls ∧
      lines = listings 0 forest ∧ convPlanRels (run ops) reg forest = .ok p.rels ∧
      p.urns = (run ops).toUrns ∧ p.decls = (run ops).toDecls := by
  unfold parsePlan at h
  rw [PState.parseSections_eq] at h
  cases hr : PState.runLines (PState.init : PState planLang) (physLines text) with
  | err e => rw [hr] at h; cases h
  | panic => rw [hr] at h; cases h
  | ok st =>
    rw [hr] at h
    obtain ⟨blanks, r1, r2, ops, r3, lines, tails, e, hb, h1, h2, h3, h4, h5⟩ := initial_run _ _ _ rfl rfl rfl hr
    obtain ⟨hans, hst⟩ := StoreRun.run (past := []) h4
    rw [List.nil_append] at hst
    have h : buildPlan reg st = .ok p := h
    unfold buildPlan at h
    rw [hst] at h
    have hconv : ∃ rels, convPlanRels (run ops) reg st.tree.finish = .ok rels ∧
        p = ⟨st.version, (run ops).toUrns, (run ops).toDecls, rels⟩ := by
      generalize hc : convPlanRels (run ops) reg st.tree.finish = c at h
      cases c with
      | err e => cases h
      | panic => cases h
      | ok rels => cases h; exact ⟨rels, rfl, rfl⟩
    obtain ⟨rels, hc, rfl⟩ := hconv
    have hord := Store.ordered_run ops
    obtain ⟨hu, he⟩ := Store.run_spec ops
    refine ⟨ops, lines, tails, st.tree.finish, ⟨blanks, r1, r2, r3, e, hb, h1, h2, h3⟩, hans, ?_, ?_, ?_, ?_, hc, rfl, rfl⟩
    · intro a u
      rw [← firstUrn_of_ok hans, ← hu a, OMap.find?_iff hord.1]
      rfl
    · intro k u a n
      rw [← firstExt_of_ok hans, ← he a k, OMap.find?_iff hord.2]
      simp only [Store.toDecls, List.mem_map]
      constructor
      · rintro ⟨⟨⟨_, _⟩, _, _⟩, hm, he⟩
        cases he
        exact hm
      · intro hm
        exact ⟨_, hm, rfl⟩
    · simp [Store.toDecls]
    · have hbuild : TreeBuilder.build (ρ := SLine) (α := SAddendum) lines = .ok st.tree.finish := by
        unfold TreeBuilder.build
        have h5' : (TreeBuilder.empty : TreeBuilder SLine SAddendum).addLines lines = .ok st.tree := h5
        rw [h5']
        rfl
      exact (C33_build_iff_listing _ _).1 hbuild

theorem parsePlan_says {reg : Registry ExtArgs (List Nat)} {text : Str} {p : Plan}
    (h : parsePlan reg text = .ok p) :
    ∃ ops lines tails forest, TextSays text p.version ops lines tails ∧ answers [] ops = [] ∧
      (∀ a u, (a, u) ∈ p.urns ↔ Op.urn u a ∈ ops) ∧
      (∀ k u a n, some (k, u, a, n) ∈ p.decls ↔ ∃ m, Op.ext k u a m ∈ ops ∧ legalName k m = some n) ∧
      none ∉ p.decls ∧
      lines = listings 0 forest ∧ convPlanRels (run ops) reg forest = .ok p.rels := by
  obtain ⟨ops, lines, tails, forest, h1, h2, h3, h4, h5, h6, h7, -⟩ := parsePlan_built h
  exact ⟨ops, lines, tails, forest, h1, h2, h3, h4, h5, h6, h7⟩

end Verif
