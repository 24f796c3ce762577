import Verif.Proofs.UnrelatedText
import Verif.Props.SamplePlan

/-!
C62: declarations that have nothing to do with a plan do not matter to it.
-/

set_option autoImplicit false

namespace Verif

open StoreSpec TextSpec UnrelSpec

/-! ## C62 -/

/-- C62, reading: if a text is accepted, then so is the text that starts with other declarations, provided
they include those of the first text and give no further declaration a name that the first text gives to
one of the same kind. The relations are the same; version, URNs and declarations are the new ones. -/
theorem C62_text [FTab] (reg : Registry ExtArgs (List Nat)) (pre pre' body : Str) (p d : Plan)
    (hp : pre = [] ∨ pre.getLast? = some '\n') (hp' : pre' = [] ∨ pre'.getLast? = some '\n')
    (h : parsePlan reg (pre ++ (cs!"=== Plan\n" ++ body)) = .ok p)
    (h' : parsePlan reg (pre' ++ cs!"=== Plan\n") = .ok d) (w : DeclsWiden p.decls d.decls) :
    parsePlan reg (pre' ++ (cs!"=== Plan\n" ++ body)) = .ok ⟨d.version, d.urns, d.decls, p.rels⟩ :=
  parsePlan_swap hp hp' h h' w

/-- C62, writing: further declarations whose names the plan does not use for others of the same kind change
nothing behind the header of the plan section, whatever the URNs are, if the relations were written without
an error. -/
theorem C62_writing [UTab] [FTab] (reg : Registry ExtArgs (List Nat)) (o : Opts) (p : Plan) (us : List (Nat × Str))
    (more : List Store.Decl) (hu : Unrelated p.decls more)
    (h : (textPlanRels ⟨p.store, o, reg⟩ p.rels).errs = []) :
    textPlanRels ⟨Plan.store ⟨p.version, us, p.decls ++ more, p.rels⟩, o, reg⟩ p.rels =
      textPlanRels ⟨p.store, o, reg⟩ p.rels := by
  have hw := widens_append p.urns us p.decls more hu
  have hs : Shows p.store (Plan.store ⟨p.version, us, p.decls ++ more, p.rels⟩) := fun k a na hl =>
    hw.lookup (planStore_ordered ..) (planStore_ordered ..) hl
  exact hs.planRels o reg p.rels h

/-- C62, whole texts: the texts end alike from the header of the plan section on. -/
theorem C62_written_text [UTab] [FTab] (reg : Registry ExtArgs (List Nat)) (o : Opts) (p : Plan) (us : List (Nat × Str))
    (more : List Store.Decl) (hu : Unrelated p.decls more) (h : (textPlan reg o p).errs = []) :
    ∃ pre pre' body, (textPlan reg o p).text = pre ++ (cs!"=== Plan\n" ++ body) ∧
      (textPlan reg o ⟨p.version, us, p.decls ++ more, p.rels⟩).text = pre' ++ (cs!"=== Plan\n" ++ body) ∧
      body = (textPlanRels ⟨p.store, o, reg⟩ p.rels).text ++ cs!"\n" := by
  have he : (textPlanRels ⟨p.store, o, reg⟩ p.rels).errs = [] := by
    simp [textPlan] at h
    exact h.2
  have hw := C62_writing reg o p us more hu he
  let q : Plan := ⟨p.version, us, p.decls ++ more, p.rels⟩
  refine ⟨writeVersion o.indent p.version ++ (writeExts p.store o.indent ++ if p.store.isEmpty then [] else cs!"\n"),
    writeVersion o.indent q.version ++ (writeExts q.store o.indent ++ if q.store.isEmpty then [] else cs!"\n"), _,
    ?_, ?_, rfl⟩
  · simp [textPlan, planHeader]
  · simp only [textPlan, hw]
    simp [planHeader, q]

/-! ### Examples -/

namespace UnrelSample

def body : Str := cs!"Filter[equal($0, 5):boolean? => $0]\n  Read[db.t => a:i64]\n"
def pre : Str := cs!"=== Extensions\nURNs:\n  @  1: /f.yaml\nFunctions:\n  # 10 @  1: equal:any\n\n"
/-- A version, another URN, a type called `equal` and another function. -/
def pre' : Str := cs!"=== Version 0.63.1\n=== Extensions\nURNs:\n  @  1: /f.yaml\n  @  2: /g.yaml\nFunctions:\n  # 10 @  1: equal:any\n  # 11 @  2: not_equal:any\nTypes:\n  # 10 @  2: equal\n\n"
/-- Another function of the same name. -/
def preClash : Str := cs!"=== Extensions\nURNs:\n  @  1: /f.yaml\nFunctions:\n  # 10 @  1: equal:any\n  # 11 @  1: equal:i64\n\n"

def decls : List Store.Decl := [some (.function, 1, 10, cs!"equal:any")]
def decls' : List Store.Decl :=
  [some (.function, 1, 10, cs!"equal:any"), some (.type, 2, 10, cs!"equal"), some (.function, 2, 11, cs!"not_equal:any")]

def declsOf (r : Res PlanErr Plan) : Option (List Store.Decl × Nat) :=
  match r with
  | .ok p => some (p.decls, p.rels.length)
  | _ => none

theorem widen : DeclsWiden decls decls' where
  keeps k u a n h := by
    simp only [decls, List.mem_cons, List.not_mem_nil, or_false] at h
    rw [h]
    simp [decls']
  fresh k u a n h := by
    simp only [decls', List.mem_cons, List.not_mem_nil, or_false, Option.some.injEq, Prod.mk.injEq] at h
    rcases h with ⟨rfl, rfl, rfl, rfl⟩ | ⟨rfl, rfl, rfl, rfl⟩ | ⟨rfl, rfl, rfl, rfl⟩
    · left
      simp [decls]
    · right
      intro v b m hm
      simp [decls] at hm
    · right
      intro v b m hm
      simp only [decls, List.mem_cons, List.not_mem_nil, or_false, Option.some.injEq, Prod.mk.injEq] at hm
      rw [hm.2.2.2, sameBase_iff]
      decide +kernel

/-- The further declarations of `pre'`. -/
def more : List Store.Decl := [some (.function, 2, 11, cs!"not_equal:any"), some (.type, 2, 10, cs!"u!equal")]

theorem unrelated : Unrelated decls more := by
  intro k u a n n' v b m m' h hn hd hm
  simp only [decls, List.mem_cons, List.not_mem_nil, or_false, Option.some.injEq, Prod.mk.injEq] at hd
  obtain ⟨rfl, rfl, rfl, rfl⟩ := hd
  simp only [more, List.mem_cons, List.not_mem_nil, or_false, Option.some.injEq, Prod.mk.injEq] at h
  rcases h with ⟨_, rfl, rfl, rfl⟩ | ⟨h, _⟩
  · have e1 : cs!"not_equal:any" = n' := Option.some.inj hn
    have e2 : cs!"equal:any" = m' := Option.some.inj hm
    rw [← e1, ← e2, sameBase_iff]
    decide +kernel
  · cases h

end UnrelSample

open UnrelSample

set_option synthInstance.maxSize 1000

/-- The text is accepted with either start, and the relations are the same. -/
example : letI := asciiTab; letI := halfTab
    ∃ p d : Plan, parsePlan sampleReg (pre ++ (cs!"=== Plan\n" ++ body)) = .ok p ∧ p.rels ≠ [] ∧ d.urns.length = 2 ∧
      parsePlan sampleReg (pre' ++ (cs!"=== Plan\n" ++ body)) = .ok ⟨d.version, d.urns, d.decls, p.rels⟩ := by
  letI := asciiTab; letI := halfTab
  have h1 : declsOf (parsePlan sampleReg (pre ++ (cs!"=== Plan\n" ++ body))) = some (decls, 1) := by decide +kernel
  have h2 : declsOf (parsePlan sampleReg (pre' ++ cs!"=== Plan\n")) = some (decls', 0) := by decide +kernel
  have h3 : (match parsePlan sampleReg (pre' ++ cs!"=== Plan\n") with | .ok d => d.urns.length | _ => 0) = 2 := by
    decide +kernel
  cases e1 : parsePlan sampleReg (pre ++ (cs!"=== Plan\n" ++ body)) with
  | err _ => rw [e1] at h1; cases h1
  | panic => rw [e1] at h1; cases h1
  | ok p =>
    cases e2 : parsePlan sampleReg (pre' ++ cs!"=== Plan\n") with
    | err _ => rw [e2] at h2; cases h2
    | panic => rw [e2] at h2; cases h2
    | ok d =>
      rw [e1] at h1
      rw [e2] at h2 h3
      have h1 : (p.decls, p.rels.length) = (decls, 1) := Option.some.inj h1
      have h2 : (d.decls, d.rels.length) = (decls', 0) := Option.some.inj h2
      have w : DeclsWiden p.decls d.decls := by
        rw [(Prod.mk.inj h1).1, (Prod.mk.inj h2).1]
        exact widen
      refine ⟨p, d, rfl, ?_, h3, C62_text sampleReg pre pre' body p d (Or.inr (by decide)) (Or.inr (by decide)) e1 e2 w⟩
      intro h
      have := congrArg Prod.snd h1
      rw [h] at this
      cases this

/-- A plan with that filter. -/
def UnrelSample.plan : Plan where
  version := none
  urns := [(1, cs!"/f.yaml")]
  decls := decls
  rels := [.rel (.node
    (.filter (some ⟨some .direct, 0⟩)
      (some (.call 10 [.value (.selection (.field 0 none)), .value (.literal ⟨some (.int .i64 5), false, 0⟩)] []
        (some (.simple .boolean .nullable 0)))) none)
    [some (.node (.read (some ⟨some .direct, 0⟩) (some ⟨[cs!"a"],
      some ⟨[.simple .i64 .required 0], 0, .required⟩⟩) none (.named [cs!"db", cs!"t"] 0) none 0) [])])]

/-- It is written the same with the further declarations. -/
example : letI := asciiTab; letI := halfTab
    textPlanRels ⟨Plan.store ⟨none, [], decls ++ more, plan.rels⟩, .default, sampleReg⟩ plan.rels =
      ⟨cs!"Filter[equal($0, 5):boolean? => $0]\n  Read[db.t => a:i64]", []⟩ := by
  letI := asciiTab; letI := halfTab
  have h : textPlanRels ⟨plan.store, .default, sampleReg⟩ plan.rels =
      ⟨cs!"Filter[equal($0, 5):boolean? => $0]\n  Read[db.t => a:i64]", []⟩ := by decide +kernel
  rw [← h]
  exact C62_writing sampleReg .default plan [] more unrelated (by rw [h])

/-- The condition on the names is needed: with a second function `equal` the text is rejected, and the
plan is written with the signature. -/
theorem C62_related_matters : letI := asciiTab; letI := halfTab
    declsOf (parsePlan sampleReg (pre ++ (cs!"=== Plan\n" ++ body))) = some (decls, 1) ∧
    declsOf (parsePlan sampleReg (preClash ++ cs!"=== Plan\n")) = some (decls ++ [some (.function, 1, 11, cs!"equal:i64")], 0) ∧
    declsOf (parsePlan sampleReg (preClash ++ (cs!"=== Plan\n" ++ body))) = none ∧
    textPlanRels ⟨Plan.store { plan with decls := decls ++ [some (.function, 1, 11, cs!"equal:i64")] }, .default,
      sampleReg⟩ plan.rels = ⟨cs!"Filter[equal:any($0, 5):boolean? => $0]\n  Read[db.t => a:i64]", []⟩ := by
  decide +kernel

end Verif
