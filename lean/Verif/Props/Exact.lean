import Verif.Props.Reparse
import Verif.Proofs.Exact
import Verif.Proofs.Neat
/-!
# C36 and C47 of whole plans, exactly
-/

namespace Verif
open StoreSpec TextSpec RelSpec PlanSpec ExactSpec

set_option autoImplicit false

/-- The version of a plan that was read. -/
theorem parsePlan_version [FTab] {reg : Registry ExtArgs (List Nat)} {text : Str} {p : Plan}
    (h : parsePlan reg text = .ok p) : ∀ x, p.version = some x → VersionRead x := by
  obtain ⟨ops, lines, tails, forest, hsays, -⟩ := parsePlan_built h
  obtain ⟨blanks, r1, r2, r3, hphys, -, hv, hx, hpl⟩ := hsays
  exact versionPart_read hv fun l hl =>
    physLines_flat (text := text) (by rw [hphys]; exact List.mem_append_right _ hl)

/-- C36 of whole plans, exactly: of a plan that is fine but for its version, the version comes back, producer
and git hash trimmed, precisely when it is not the default one and no line break is inside its producer or its
git hash. -/
theorem C36_plan_version_iff [UTab] [FTab] (hA : AsciiPrintable) (reg : Registry ExtArgs (List Nat)) (o : Opts)
    (ho : Readable o) (p : Plan) (v : Version) (hv : p.version = some v)
    (h1 : v.major < 2 ^ 32) (h2 : v.minor < 2 ^ 32) (h3 : v.patch < 2 ^ 32)
    (h : PlanOk reg o { p with version := none }) :
    (∃ p', parsePlan reg (textPlan reg o p).text = .ok p' ∧
      p'.version = some { v with producer := trim v.producer, gitHash := trim v.gitHash }) ↔
    v ≠ ⟨0, 0, 0, [], []⟩ ∧ '\n' ∉ trim v.producer ∧ '\n' ∉ trim v.gitHash := by
  obtain ⟨pv, urns, decls, rels⟩ := p
  dsimp only at hv h
  subst hv
  constructor
  · rintro ⟨p', hp, hver⟩
    have hr := parsePlan_version hp _ hver
    refine ⟨?_, hr.producer.1, hr.gitHash.1⟩
    rintro rfl
    obtain ⟨q, hq, -, hqv, -⟩ := planRT hA reg o ho _ h
    have : (textPlan reg o ⟨some ⟨0, 0, 0, [], []⟩, urns, decls, rels⟩).text = (textPlan reg o ⟨none, urns, decls, rels⟩).text := rfl
    rw [this, hq] at hp
    cases hp
    rw [hver] at hqv
    cases hqv
  · rintro ⟨hne, hp, hg⟩
    obtain ⟨q, hq, -, hqv, -⟩ := planRT hA reg o ho ⟨some v, urns, decls, rels⟩
      ⟨by rintro x ⟨⟩; exact ⟨h1, h2, h3, hp, hg⟩, h.accepted, h.sound, h.rels⟩
    refine ⟨q, hq, ?_⟩
    rw [hqv]
    exact if_neg hne

example : letI := asciiTab; letI := halfTab
    PlanOk sampleReg .default { samplePlan with version := none } ∧ samplePlan.version ≠ none := by
  letI := asciiTab; letI := halfTab
  have := samplePlan_ok .default rfl
  exact ⟨⟨by rintro x ⟨⟩, this.accepted, this.sound, this.rels⟩, by decide⟩

/-- The text of a plan after its version. -/
def textBody [UTab] [FTab] (reg : Registry ExtArgs (List Nat)) (o : Opts) (p : Plan) : Str :=
  writeExts p.store o.indent ++ ((if p.store.isEmpty then [] else cs!"\n") ++ (planHeader ++ '\n' ::
    ((textPlanRels ⟨p.store, o, reg⟩ p.rels).text ++ cs!"\n")))

theorem textPlan_body [UTab] [FTab] (reg : Registry ExtArgs (List Nat)) (o : Opts) (p : Plan) :
    (textPlan reg o p).text = writeVersion o.indent p.version ++ textBody reg o p := by
  simp [textPlan, textBody]

theorem textBody_head [UTab] [FTab] (reg : Registry ExtArgs (List Nat)) (o : Opts) (p : Plan) :
    ∃ c r, c ≠ 'V' ∧ textBody reg o p = '=' :: '=' :: '=' :: ' ' :: c :: r := by
  unfold textBody writeExts
  cases p.store.isEmpty with
  | true => exact ⟨'P', _, by decide, rfl⟩
  | false => exact ⟨'E', _, by decide, rfl⟩

/-- The same text but for the version: the version has the same text. -/
theorem version_apart {x : Version} {b b' : Str} {c c' : Char} {r r' : Str} (hc' : c' ≠ 'V')
    (hb : b = '=' :: '=' :: '=' :: ' ' :: c :: r) (hb' : b' = '=' :: '=' :: '=' :: ' ' :: c' :: r')
    (h : writeVersion cs!"  " (keptVersion (some x)) ++ b' = writeVersion cs!"  " (some x) ++ b) :
    (x.producer ≠ [] → trim x.producer ≠ []) ∧ (x.gitHash ≠ [] → trim x.gitHash ≠ []) := by
  obtain ⟨i, j, k, g, p⟩ := x
  dsimp only
  by_cases hx : (⟨i, j, k, g, p⟩ : Version) = Version.empty
  · cases hx
    exact ⟨fun h => absurd rfl h, fun h => absurd rfl h⟩
  have hk : keptVersion (some ⟨i, j, k, g, p⟩) = some ⟨i, j, k, trim g, trim p⟩ := if_neg hx
  rw [hk] at h
  by_cases he : (⟨i, j, k, trim g, trim p⟩ : Version) = Version.empty
  · simp only [writeVersion, if_pos he, if_neg hx, versionPrefix, hb', List.nil_append, List.cons_append,
      List.cons.injEq, true_and] at h
    exact absurd h.1 hc'
  · have hp : p = [] → trim p = [] := by rintro rfl; rfl
    have hg : g = [] → trim g = [] := by rintro rfl; rfl
    simp only [writeVersion, if_neg he, if_neg hx, trim_trim, List.append_assoc] at h
    replace h := List.append_cancel_left (List.append_cancel_left (List.append_cancel_left (List.append_cancel_left
      (List.append_cancel_left (List.append_cancel_left (List.append_cancel_left (List.append_cancel_left h)))))))
    subst hb hb'
    by_cases h1 : trim p = [] <;> by_cases h2 : p = [] <;> by_cases h3 : trim g = [] <;> by_cases h4 : g = [] <;>
      simp_all

/-- C47, exactly: formatting what was read gives the same text again precisely when neither the producer nor the
git hash is white space only, and either types are written for the literals that need them only or no limit
uses the deprecated fields. -/
theorem C47_canonical_iff [UTab] [FTab] (hA : AsciiPrintable) (reg : Registry ExtArgs (List Nat)) (o : Opts)
    (ho : Readable o) (p : Plan) (h : PlanOk reg o p) :
    (∃ p', parsePlan reg (textPlan reg o p).text = .ok p' ∧ (textPlan reg o p').text = (textPlan reg o p).text) ↔
    (∀ x, p.version = some x → (x.producer ≠ [] → trim x.producer ≠ []) ∧ (x.gitHash ≠ [] → trim x.gitHash ≠ [])) ∧
    (o.litTypes = .required ∨ ∀ r ∈ p.rels, ¬ OldTop r) := by
  obtain ⟨p', h1, h2, h3, h4, h5, -⟩ := planRT hA reg o ho p h
  obtain ⟨l, hl1, hl2, hl3⟩ := h2.rels
  have hst : p.store.Ordered := by rw [plan_store]; exact Store.ordered_run _
  have hok : ∀ q ∈ l, TopOk ⟨p.store, o, reg⟩ q.1 := by
    intro q hq
    rw [plan_store]
    exact h.rels _ (by rw [hl1]; exact List.mem_map_of_mem hq)
  have hnew : ∀ q ∈ l, ¬ OldTop q.2 := fun q hq =>
    not_oldTop ((plan_image h1).rels _ (by rw [hl2]; exact List.mem_map_of_mem hq))
  constructor
  · rintro ⟨q, hq, ht⟩
    rw [h1] at hq
    cases hq
    rw [textPlan_body, textPlan_body, h3, ho.2.2.1] at ht
    have hver : ∀ x, p.version = some x → (x.producer ≠ [] → trim x.producer ≠ []) ∧ (x.gitHash ≠ [] → trim x.gitHash ≠ []) := by
      intro x hx
      obtain ⟨c, r, -, hb⟩ := textBody_head reg o p
      obtain ⟨c', r', hc', hb'⟩ := textBody_head reg o p'
      rw [hx] at ht
      exact version_apart hc' hb hb' ht
    refine ⟨hver, Classical.byContradiction fun hn => ?_⟩
    have hlit : o.litTypes = .always := by
      cases hq : o.litTypes with
      | never => exact absurd hq ho.2.1
      | required => exact absurd (.inl hq) hn
      | always => rfl
    have hold : ∃ q ∈ l, OldTop q.1 := by
      refine Classical.byContradiction fun hno => hn (.inr ?_)
      intro r hr hor
      rw [hl1] at hr
      obtain ⟨q, hq, rfl⟩ := List.mem_map.1 hr
      exact hno ⟨q, hq, hor⟩
    rw [writeVersion_kept cs!"  " p.version hver] at ht
    replace ht := congrArg List.length (List.append_cancel_left ht)
    have hlt := (longerTops hA (env := ⟨p.store, o, reg⟩) hst ho hlit l hl3 hok hnew).2 hold
    rw [← hl1, ← hl2] at hlt
    unfold textBody at ht
    rw [h5] at ht
    simp only [List.length_append, List.length_cons, Out.size] at ht hlt
    omega
  · rintro ⟨hv, hm⟩
    refine ⟨p', h1, ?_⟩
    rw [textPlan_body, textPlan_body, h3, writeVersion_kept o.indent p.version hv]
    unfold textBody
    rw [h5]
    have := sameTops hA (env := ⟨p.store, o, reg⟩) hst ho l (by
      intro q hq
      exact hm.imp id fun hm => ⟨hm _ (by rw [hl1]; exact List.mem_map_of_mem hq), hnew q hq⟩) hl3 hok
    rw [← hl1, ← hl2] at this
    rw [this]

example : letI := asciiTab; letI := halfTab
    PlanOk sampleReg .default samplePlan := samplePlan_ok .default rfl

/-- C58, for all options that keep the text readable: what is read and plain has settled after one round. -/
theorem C58_settles_any [UTab] [FTab] (hA : AsciiPrintable) (reg : Registry ExtArgs (List Nat)) (o : Opts)
    (ho : Readable o) (text : Str) (p : Plan) (h : parsePlan reg text = .ok p) (hp : PlainPlan reg o p) :
    ∃ p', parsePlan reg (textPlan reg o p).text = .ok p' ∧ (textPlan reg o p').text = (textPlan reg o p).text := by
  obtain ⟨h1, h2⟩ := planOk_of_parse h hp
  refine (C47_canonical_iff hA reg o ho p h1).2 ⟨?_, .inr fun r hr => not_oldTop ((plan_image h).rels r hr)⟩
  intro x hx
  have := h2 x hx
  exact ⟨fun h => by rwa [this.producer.2], fun h => by rwa [this.gitHash.2]⟩

/-- C58: after one round a plan that was read and is plain does not change any more: the text of the plan that is
read the second time is read as exactly that plan. -/
theorem C58_second_round [UTab] [FTab] (hA : AsciiPrintable) (reg : Registry ExtArgs (List Nat)) (o : Opts)
    (ho : Readable o) (text : Str) (p : Plan) (h : parsePlan reg text = .ok p) (hp : PlainPlan reg o p) :
    ∃ p', parsePlan reg (textPlan reg o p).text = .ok p' ∧ parsePlan reg (textPlan reg o p').text = .ok p' := by
  obtain ⟨p', h1, h2⟩ := C58_settles_any hA reg o ho text p h hp
  exact ⟨p', h1, by rw [h2]; exact h1⟩

/-- Declarations that were read are written as they are. -/
theorem read_exports [FTab] {reg : Registry ExtArgs (List Nat)} {text : Str} {p : Plan} (h : parsePlan reg text = .ok p) :
    p.urns = p.store.toUrns ∧ p.decls = p.store.toDecls := by
  obtain ⟨ops, lines, tails, forest, hsays, ha, -, -, -, -, -, hu, hd⟩ := parsePlan_built h
  obtain ⟨v, urns, decls, rels⟩ := p
  dsimp only at hu hd hsays ⊢
  obtain ⟨blanks, r1, r2, r3, hphys, -, hv, hx, -⟩ := hsays
  have hflat : ∀ l ∈ r1, '\n' ∉ trimEnd l := fun l hl => physLines_flat (text := text) (by rw [hphys]; exact List.mem_append_right _ hl)
  have hflat2 : ∀ l ∈ r2, '\n' ∉ trimEnd l := by
    cases hv with
    | none => exact hflat
    | some _ _ _ _ => intro l hl; exact hflat l (by simp [hl])
  have hread : ∀ op ∈ ops, OpRead op := by
    cases hx with
    | none => intro op h; cases h
    | some _ hs => exact extSays_read hs fun l hl => hflat2 l (by simp [hl])
  subst hu hd
  have e := plan_store ⟨v, (run ops).toUrns, (run ops).toDecls, rels⟩
  rw [(history_export (sound_of_read ha hread) v rels).1] at e
  rw [e]
  exact ⟨rfl, rfl⟩

/-- C58, exactly: a plan that was read and is plain is read again as precisely the same plan, to the last field,
unless its version is the default one, a mapping keeps all columns, a reference in the list of a project points at
an expression of the same list, or a join puts out all columns of both inputs although its type has fewer. -/
theorem C58_exact_iff [UTab] [FTab] (hA : AsciiPrintable) (reg : Registry ExtArgs (List Nat)) (o : Opts)
    (ho : Readable o) (text : Str) (p : Plan) (h : parsePlan reg text = .ok p) (hp : PlainPlan reg o p) :
    parsePlan reg (textPlan reg o p).text = .ok p ↔
      p.version ≠ some ⟨0, 0, 0, [], []⟩ ∧ ∀ r ∈ p.rels, NeatTop reg r := by
  obtain ⟨hok, hver⟩ := planOk_of_parse h hp
  obtain ⟨p', h1, -, h3, -, h5, h6, h7, l, hl1, hl2, hl3⟩ := planRT hA reg o ho p hok
  obtain ⟨hu, hd⟩ := read_exports h
  have hi := plan_image h
  have hi' := plan_image h1
  have hrun : run (history p') = run (history p) := by rw [← plan_store, ← plan_store, h5]
  have hv : p'.version = p.version ↔ p.version ≠ some ⟨0, 0, 0, [], []⟩ := by
    rw [h3]
    cases hpv : p.version with
    | none => simp [keptVersion]
    | some v =>
      have hr := hver v hpv
      have e : keptVersion (some v) = if v = ⟨0, 0, 0, [], []⟩ then none else some v := by
        obtain ⟨i, j, k, g, q⟩ := v
        have h1 : trim q = q := hr.producer.2
        have h2 : trim g = g := hr.gitHash.2
        simp only [keptVersion, h1, h2]
      rw [e]
      by_cases h0 : v = ⟨0, 0, 0, [], []⟩
      · rw [if_pos h0, h0]
        simp
      · rw [if_neg h0]
        simpa using h0
  have key : ∀ q ∈ l, q.1 = q.2 ↔ NeatTop reg q.1 := by
    intro q hq
    have m1 : q.1 ∈ p.rels := by rw [hl1]; exact List.mem_map_of_mem hq
    have m2 : q.2 ∈ p'.rels := by rw [hl2]; exact List.mem_map_of_mem hq
    have i2 := hi'.rels _ m2
    rw [hrun] at i2
    exact top_unique (env := ⟨run (history p), o, reg⟩) (hl3 q hq).1 (hok.rels _ m1) (hi.rels _ m1) i2 (hl3 q hq).2
  have hrels : p.rels = p'.rels ↔ ∀ r ∈ p.rels, NeatTop reg r := by
    rw [hl1, hl2, List.map_inj_left]
    constructor
    · intro h r hr
      obtain ⟨q, hq, rfl⟩ := List.mem_map.1 hr
      exact (key q hq).1 (h q hq)
    · intro h q hq
      exact (key q hq).2 (h _ (List.mem_map_of_mem hq))
  rw [h1]
  obtain ⟨v, us, ds, rs⟩ := p
  obtain ⟨v', us', ds', rs'⟩ := p'
  dsimp only at hu hd h6 h7 hv hrels ⊢
  subst h6 h7
  rw [← hv, ← hrels]
  constructor
  · intro e
    injection e with e
    injection e with e1 _ _ e2
    exact ⟨e1, e2.symm⟩
  · rintro ⟨rfl, rfl⟩
    rw [← hu, ← hd]

open ReparseSample in
example : letI := asciiTab; letI := halfTab
    parsePlan sampleReg (textPlan sampleReg .default plan).text = .ok plan := by
  letI := asciiTab; letI := halfTab
  refine (C58_exact_iff asciiTab_printable sampleReg .default readable_default text plan read isPlain).2 ⟨by decide, ?_⟩
  intro r hr
  simp only [plan, List.mem_cons, List.not_mem_nil, or_false] at hr
  subst hr
  refine ⟨?_, ⟨trivial, trivial⟩, trivial⟩
  show mapping _ ≠ some (identity 2)
  decide

namespace ExactSample

/-- A table of one column. -/
def table : Rel := .node (.read (some ⟨some .direct, 0⟩) (some ⟨[cs!"a"], some ⟨[.simple .i64 .required 0], 0, .required⟩⟩)
  none (.named [cs!"t"] 0) none 0) []

theorem table_plain : letI := asciiTab; letI := halfTab
    PlainRel ⟨.empty, .default, sampleReg⟩ table := by
  letI := asciiTab; letI := halfTab
  have hs : ∀ n ∈ [cs!"a", cs!"t"], Spellable n := by
    intro n hn
    simp only [List.mem_cons, List.not_mem_nil, or_false] at hn
    rcases hn with rfl | rfl <;> exact SamplePlan.spellable _ (by decide +kernel)
  refine ⟨⟨?_, ?_, nofun⟩, trivial⟩
  · intro x hx
    cases hx
    refine ⟨fun n hn => hs n (by revert hn; simp; grind), ?_⟩
    intro y hy t ht
    cases hy
    rw [List.mem_singleton] at ht
    subst ht
    trivial
  · exact fun n hn => hs n (by revert hn; simp; grind)

def five : Expr := .literal ⟨some (.int .i64 5), false, 0⟩
def yes : Expr := .literal ⟨some (.bool true), false, 0⟩

def version : Plan := ⟨some ⟨0, 0, 0, [], []⟩, [], [], [.rel table]⟩
def project : Plan := ⟨none, [], [], [.rel (.node (.project (some ⟨some (.emit [1, 1]), 0⟩) [five] none) [some table])]⟩
def join : Plan := ⟨none, [], [], [.rel (.node (.join (some ⟨some .direct, 0⟩) (.known .leftSemi) (some yes) none none)
  [some table, some table])]⟩

end ExactSample

open ExactSample in
/-- C58 is not exact for a version of zeros, which is left out, for a project that points at its own expression,
which is written twice and then there twice, and for a semi-join that puts out both sides, which loses one. -/
theorem C58_exact_fails : letI := asciiTab; letI := halfTab
    (parsePlan sampleReg cs!"=== Version 0.0.0\n=== Plan\nRead[t => a:i64]\n" = .ok version ∧
      PlainPlan sampleReg .default version ∧ parsePlan sampleReg (textPlan sampleReg .default version).text ≠ .ok version) ∧
    (parsePlan sampleReg cs!"=== Plan\nProject[$1, 5]\n  Read[t => a:i64]\n" = .ok project ∧
      PlainPlan sampleReg .default project ∧ parsePlan sampleReg (textPlan sampleReg .default project).text ≠ .ok project) ∧
    (parsePlan sampleReg cs!"=== Plan\nJoin[&LeftSemi, true => $0, $1]\n  Read[t => a:i64]\n  Read[t => a:i64]\n" = .ok join ∧
      PlainPlan sampleReg .default join ∧ parsePlan sampleReg (textPlan sampleReg .default join).text ≠ .ok join) := by
  letI := asciiTab; letI := halfTab
  have r1 : parsePlan sampleReg cs!"=== Version 0.0.0\n=== Plan\nRead[t => a:i64]\n" = .ok version := by
    unfold version table; cbv
  have r2 : parsePlan sampleReg cs!"=== Plan\nProject[$1, 5]\n  Read[t => a:i64]\n" = .ok project := by
    unfold project table five; cbv
  have r3 : parsePlan sampleReg cs!"=== Plan\nJoin[&LeftSemi, true => $0, $1]\n  Read[t => a:i64]\n  Read[t => a:i64]\n" = .ok join := by
    unfold join table yes; cbv
  have p1 : PlainPlan sampleReg .default version := by
    intro r hr
    cases List.mem_singleton.1 hr
    exact table_plain
  have p2 : PlainPlan sampleReg .default project := by
    intro r hr
    cases List.mem_singleton.1 hr
    refine ⟨⟨?_, ⟨by decide, ?_⟩, nofun⟩, table_plain, trivial⟩
    · intro e he
      cases List.mem_singleton.1 he
      intro v hv
      cases hv
      trivial
    · intro i hi
      have : i = 1 := by simpa [shown, mapping] using hi
      subst this
      decide
  have p3 : PlainPlan sampleReg .default join := by
    intro r hr
    cases List.mem_singleton.1 hr
    refine ⟨⟨?_, ?_, nofun, nofun⟩, table_plain, table_plain, trivial⟩
    · intro t ht
      cases ht
      refine ⟨⟨by decide, ?_⟩, by decide, by decide⟩
      intro i hi
      have : i = 0 := by simpa [shown, mapping, identity, widths, width, joinColumns, joinSides, outWidth, directWidth, common, table] using hi
      subst this
      decide
    · intro e he
      cases he
      intro v hv
      cases hv
      trivial
  refine ⟨⟨r1, p1, ?_⟩, ⟨r2, p2, ?_⟩, ⟨r3, p3, ?_⟩⟩
  · rw [Ne, C58_exact_iff asciiTab_printable sampleReg .default readable_default _ _ r1 p1]
    exact fun h => h.1 rfl
  · rw [Ne, C58_exact_iff asciiTab_printable sampleReg .default readable_default _ _ r2 p2]
    intro h
    have := (h.2 _ (List.mem_singleton.2 rfl)).1.2
    revert this
    decide
  · rw [Ne, C58_exact_iff asciiTab_printable sampleReg .default readable_default _ _ r3 p3]
    intro h
    have := (h.2 _ (List.mem_singleton.2 rfl)).1.2 rfl
    revert this
    decide

end Verif
