import Verif.Proofs.Declare
import Verif.Props.SamplePlan
/-!
C79: what precedes the relations of a text is accepted exactly if its declarations are sound, and then
their order does not matter.
-/

namespace Verif

set_option autoImplicit false

open StoreSpec Grammar DeclareSpec UnrelSpec

/-! ## C79 -/

/-- C79.  Declarations give no error exactly if each can be recorded, no anchor is declared twice and each
follows its URN. -/
theorem C79_sound (ops : List Op) : answers [] ops = [] ↔ Sound ops := answers_sound_iff ops

/-- C79.  A text that says a version and declarations and no relations is accepted exactly if the
declarations are sound; it is refused for a line of the extensions section otherwise, and never panics. -/
theorem C79_decided [FTab] (reg : Registry ExtArgs (List Nat)) (text : Str) (v : Option Version) (ops : List Op)
    (ts : List Str) (h : TextSays text v ops [] ts) :
    (Sound ops → parsePlan reg text = .ok ⟨v, (run ops).toUrns, (run ops).toDecls, []⟩) ∧
    (¬ Sound ops → parsePlan reg text = .err (.text .extensionLine)) := by
  rw [← C79_sound]
  exact parsePlan_declared h

/-- C79.  Exactly the texts that say so are read as a plan without relations. -/
theorem C79_accepted [FTab] (reg : Registry ExtArgs (List Nat)) (text : Str) (p : Plan) (hr : p.rels = []) :
    parsePlan reg text = .ok p ↔
      ∃ ops ts, TextSays text p.version ops [] ts ∧ Sound ops ∧ p.urns = (run ops).toUrns ∧
        p.decls = (run ops).toDecls := by
  constructor
  · intro h
    obtain ⟨ops, lines, tails, forest, h1, h2, -, -, -, h3, h4, h5, h6⟩ := parsePlan_built h
    rw [hr] at h4
    have hf := convPlanRels_nil h4
    subst hf
    subst h3
    exact ⟨ops, tails, h1, (C79_sound ops).1 h2, h5, h6⟩
  · rintro ⟨ops, ts, h1, h2, h3, h4⟩
    rw [(C79_decided reg text p.version ops ts h1).1 h2, ← h3, ← h4, ← hr]

/-- C79, reading: the declarations before the relations may be reordered as long as URNs come first. -/
theorem C79_order [FTab] (reg : Registry ExtArgs (List Nat)) (pre pre' body : Str) (v : Option Version)
    (ops ops' : List Op) (ts ts' : List Str) (p : Plan)
    (hp : pre = [] ∨ pre.getLast? = some '\n') (hp' : pre' = [] ∨ pre'.getLast? = some '\n')
    (hs : TextSays (pre ++ cs!"=== Plan\n") v ops [] ts) (hs' : TextSays (pre' ++ cs!"=== Plan\n") v ops' [] ts')
    (hperm : ops.Perm ops') (hu : UrnsFirst ops')
    (h : parsePlan reg (pre ++ (cs!"=== Plan\n" ++ body)) = .ok p) :
    parsePlan reg (pre' ++ (cs!"=== Plan\n" ++ body)) = .ok p := by
  have h0 : parsePlan reg (pre ++ cs!"=== Plan\n") = .ok ⟨p.version, p.urns, p.decls, []⟩ := parsePlan_preamble hp h
  have hsound : answers [] ops = [] := by
    refine Classical.byContradiction fun hn => ?_
    rw [(parsePlan_declared hs).2 hn] at h0
    cases h0
  obtain ⟨h1, h2⟩ := answers_perm hperm hsound hu
  have h3 := (parsePlan_declared (reg := reg) hs).1 hsound
  rw [h0] at h3
  have h4 := (parsePlan_declared (reg := reg) hs').1 h1
  rw [h2] at h4
  obtain ⟨pv, pu, pd, pr⟩ := p
  dsimp only at h3
  cases h3
  exact parsePlan_swap hp hp' h h4 ⟨fun _ _ _ _ h => h, fun _ _ _ _ h => .inl h⟩

/-- C79, writing: the URNs and the declarations of a plan that loads without errors may be reordered; the
text and the errors are the same. -/
theorem C79_written [UTab] [FTab] (reg : Registry ExtArgs (List Nat)) (o : Opts) (p q : Plan)
    (hv : q.version = p.version) (hr : q.rels = p.rels) (hu : p.urns.Perm q.urns) (hd : p.decls.Perm q.decls)
    (hs : Sound (planOps p.urns p.decls)) : textPlan reg o q = textPlan reg o p := by
  have h0 := (C79_sound _).2 hs
  obtain ⟨h1, h2⟩ := answers_perm (planOps_perm hu hd) h0 (planOps_urnsFirst _ _)
  have e : Store.fromExtensions q.urns q.decls = Store.fromExtensions p.urns p.decls := by
    rw [Store.fromExtensions_spec, Store.fromExtensions_spec, h0, h1, h2]
  unfold textPlan Plan.store
  rw [e, hv, hr]

/-! ### Examples -/

namespace DeclareSample

theorem urnLine {l : Str} {ls : List Str} {ops : List Op} {a : Nat} {u : Str} (h1 : (trimEnd l).take 2 = cs!"  ")
    (h2 : pUrnDecl ((trimEnd l).drop 2) = some ((⟨false, a⟩, u), [])) (ha : a < 2 ^ 32) (h : ExtSays (some none) ls ops) :
    ExtSays (some none) (l :: ls) (.urn u a :: ops) := by
  obtain ⟨y, e, hy⟩ := reads_urnDecl _ _ _ h2
  rw [List.append_nil] at e
  refine .urn (x := (trimEnd l).drop 2) ?_ (by rw [e]; exact hy) ⟨rfl, rfl, ha⟩ h
  rw [← h1, List.take_append_drop]

theorem declLine {k : Kind} {l : Str} {ls : List Str} {ops : List Op} {a b : Nat} {n : Str} (h1 : (trimEnd l).take 2 = cs!"  ")
    (h2 : pDecl ((trimEnd l).drop 2) = some ((⟨false, a⟩, ⟨false, b⟩, n), [])) (ha : a < 2 ^ 32) (hb : b < 2 ^ 32)
    (hn : k ≠ .function → ':' ∉ n) (h : ExtSays (some (some k)) ls ops) :
    ExtSays (some (some k)) (l :: ls) (.ext k b a n :: ops) := by
  obtain ⟨y, e, hy⟩ := reads_decl _ _ _ h2
  rw [List.append_nil] at e
  refine .decl (x := (trimEnd l).drop 2) ?_ (by rw [e]; exact hy) ⟨rfl, rfl, ha⟩ ⟨rfl, rfl, hb⟩ hn h
  rw [← h1, List.take_append_drop]

def pre : Str := cs!"=== Extensions\nURNs:\n  @1: /f\n  @2: /g\nFunctions:\n  #10 @1: equal:any\n  #11 @2: not\nTypes:\n  #10 @2: u!point\n"
/-- Types first, then URNs in the other order; blank lines, spaces and a repeated title. -/
def pre' : Str := cs!"=== Extensions\nURNs:\n  @2: /g\n\nURNs:\n  @ 1:  /f\nTypes:\n  # 10 @ 2: u!point\nFunctions:\n  # 11 @2: not\n  #10 @1: equal:any\n"
def body : Str := cs!"Filter[equal($0, 5):boolean? => $0]\n  Read[db.t => a:i64]\n"

def ops : List Op := [.urn cs!"/f" 1, .urn cs!"/g" 2, .ext .function 1 10 cs!"equal:any", .ext .function 2 11 cs!"not",
  .ext .type 2 10 cs!"u!point"]
def ops' : List Op := [.urn cs!"/g" 2, .urn cs!"/f" 1, .ext .type 2 10 cs!"u!point", .ext .function 2 11 cs!"not",
  .ext .function 1 10 cs!"equal:any"]

theorem perm : ops.Perm ops' := by decide +kernel

theorem urnsFirst : UrnsFirst ops' :=
  ⟨[.urn cs!"/g" 2, .urn cs!"/f" 1], _, rfl, by
    intro op h
    simp only [List.mem_cons, List.not_mem_nil, or_false] at h
    rcases h with rfl | rfl <;> exact ⟨_, _, rfl⟩, by simp⟩

theorem says : TextSays (pre ++ cs!"=== Plan\n") none ops [] [] := by
  refine ⟨[], _, _, [cs!"=== Plan\n"], rfl, by simp, .none,
    .some (h := cs!"=== Extensions\n") (ls := [cs!"URNs:\n", cs!"  @1: /f\n", cs!"  @2: /g\n", cs!"Functions:\n",
      cs!"  #10 @1: equal:any\n", cs!"  #11 @2: not\n", cs!"Types:\n", cs!"  #10 @2: u!point\n"]) (by decide +kernel) ?_,
    .some (gs := []) (by decide +kernel) .nil⟩
  refine .urns (by decide +kernel) ?_
  refine urnLine (by decide +kernel) (by decide +kernel) (by decide) ?_
  refine urnLine (by decide +kernel) (by decide +kernel) (by decide) ?_
  refine .title (k := .function) (by decide +kernel) ?_
  refine declLine (by decide +kernel) (by decide +kernel) (by decide) (by decide) (by simp) ?_
  refine declLine (by decide +kernel) (by decide +kernel) (by decide) (by decide) (by simp) ?_
  refine .title (k := .type) (by decide +kernel) ?_
  exact declLine (by decide +kernel) (by decide +kernel) (by decide) (by decide) (by decide) .nil

theorem says' : TextSays (pre' ++ cs!"=== Plan\n") none ops' [] [] := by
  refine ⟨[], _, _, [cs!"=== Plan\n"], rfl, by simp, .none,
    .some (h := cs!"=== Extensions\n") (ls := [cs!"URNs:\n", cs!"  @2: /g\n", cs!"\n", cs!"URNs:\n", cs!"  @ 1:  /f\n",
      cs!"Types:\n", cs!"  # 10 @ 2: u!point\n", cs!"Functions:\n", cs!"  # 11 @2: not\n", cs!"  #10 @1: equal:any\n"])
      (by decide +kernel) ?_,
    .some (gs := []) (by decide +kernel) .nil⟩
  refine .urns (by decide +kernel) ?_
  refine urnLine (by decide +kernel) (by decide +kernel) (by decide) ?_
  refine .blank (by decide +kernel) (.urns (by decide +kernel) ?_)
  refine urnLine (by decide +kernel) (by decide +kernel) (by decide) ?_
  refine .title (k := .type) (by decide +kernel) ?_
  refine declLine (by decide +kernel) (by decide +kernel) (by decide) (by decide) (by decide) ?_
  refine .title (k := .function) (by decide +kernel) ?_
  refine declLine (by decide +kernel) (by decide +kernel) (by decide) (by decide) (by simp) ?_
  exact declLine (by decide +kernel) (by decide +kernel) (by decide) (by decide) (by simp) .nil

theorem sound : Sound ops := (C79_sound _).1 (by decide +kernel)

/-- A second declaration of the same anchor. -/
theorem unsound : ¬ Sound (ops ++ [.ext .type 1 10 cs!"line"]) := fun h => by
  have := (C79_sound _).2 h
  revert this
  decide +kernel

end DeclareSample

-- the declarations alone are accepted
example [FTab] (reg : Registry ExtArgs (List Nat)) :
    parsePlan reg (DeclareSample.pre ++ cs!"=== Plan\n") =
      .ok ⟨none, (run DeclareSample.ops).toUrns, (run DeclareSample.ops).toDecls, []⟩ :=
  (C79_decided reg _ _ _ _ DeclareSample.says).1 DeclareSample.sound

-- a text with relations is read alike with its declarations in another order
example : letI := halfTab
    ∃ p, parsePlan (sampleReg) (DeclareSample.pre ++ (cs!"=== Plan\n" ++ DeclareSample.body)) = .ok p ∧ p.rels ≠ [] ∧
      parsePlan (sampleReg) (DeclareSample.pre' ++ (cs!"=== Plan\n" ++ DeclareSample.body)) = .ok p := by
  letI := halfTab
  have h : (match parsePlan sampleReg (DeclareSample.pre ++ (cs!"=== Plan\n" ++ DeclareSample.body)) with
      | .ok p => p.rels.length
      | _ => 0) = 1 := by
    decide +kernel
  have h : ∃ p, parsePlan sampleReg (DeclareSample.pre ++ (cs!"=== Plan\n" ++ DeclareSample.body)) = .ok p ∧ p.rels ≠ [] := by
    generalize parsePlan sampleReg (DeclareSample.pre ++ (cs!"=== Plan\n" ++ DeclareSample.body)) = r at h
    cases r with
    | ok p => exact ⟨p, rfl, fun e => by dsimp only at h; rw [e] at h; cases h⟩
    | err e => cases h
    | panic => cases h
  obtain ⟨p, h1, h2⟩ := h
  exact ⟨p, h1, h2, C79_order sampleReg _ _ _ none _ _ _ _ p (by decide +kernel) (by decide +kernel)
    DeclareSample.says DeclareSample.says' DeclareSample.perm DeclareSample.urnsFirst h1⟩

-- URNs have to come first: below its function the URN is too late
example : Sound [.urn cs!"/f" 1, .ext .function 1 10 cs!"equal"] ∧ ¬ Sound [.ext .function 1 10 cs!"equal", .urn cs!"/f" 1] := by
  rw [← C79_sound, ← C79_sound]
  decide +kernel

-- a plan with its declarations in two orders
example : letI := asciiTab; letI := halfTab
    textPlan sampleReg .default ⟨none, [(2, cs!"/g"), (1, cs!"/f")],
        [some (.type, 2, 10, cs!"point"), some (.function, 1, 10, cs!"equal")], []⟩ =
      textPlan sampleReg .default ⟨none, [(1, cs!"/f"), (2, cs!"/g")],
        [some (.function, 1, 10, cs!"equal"), some (.type, 2, 10, cs!"point")], []⟩ := by
  letI := asciiTab; letI := halfTab
  exact C79_written _ _ _ _ rfl rfl (by decide +kernel) (by decide +kernel) ((C79_sound _).1 (by decide +kernel))

/-- C79: an empty line ends a subsection of the declarations, whichever it was, and declares nothing: an indented
line after it is refused, and the lines that follow are taken alike. -/
theorem C79_empty_line (st st' : ExtState) (hs : st.store = st'.store) (d : Nat) :
    (∃ e, st.line ⟨d, []⟩ = .ok e ∧ st'.line ⟨d, []⟩ = .ok e ∧ e.store = st.store ∧
      ∀ l : Indented, l.body ≠ [] → l.depth ≠ 0 → e.line l = .err .unexpected) := by
  refine ⟨⟨.extensions, st.store⟩, by simp [ExtState.line], by simp [ExtState.line, hs], rfl, ?_⟩
  intro l hb hd
  simp [ExtState.line, ExtState.subsection, hb, hd]

example : (⟨.urns, .empty⟩ : ExtState).line ⟨1, cs!"@  1: a"⟩ ≠ .err .unexpected := by decide +kernel

end Verif
