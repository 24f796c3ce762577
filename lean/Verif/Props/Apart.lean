import Verif.Proofs.Apart
import Verif.Props.Unrelated

/-!
C63: the relations of a plan are read and written independently of each other.
-/

set_option autoImplicit false
set_option synthInstance.maxSize 1000

namespace Verif

open TextSpec

/-! ## C63 -/

/-- C63, reading: a plan section can be cut in front of every line that is not indented. The whole is
accepted exactly if both parts are, with the same start, and its relations are those of the first part
followed by those of the second. -/
theorem C63_text [FTab] (reg : Registry ExtArgs (List Nat)) (pre a b : Str) (c : Char) (p : Plan)
    (hp : pre = [] ∨ pre.getLast? = some '\n') (ha : a = [] ∨ a.getLast? = some '\n') (hc : isWs c = false) :
    parsePlan reg (pre ++ (cs!"=== Plan\n" ++ (a ++ c :: b))) = .ok p ↔
      ∃ q r, parsePlan reg (pre ++ (cs!"=== Plan\n" ++ a)) = .ok q ∧
        parsePlan reg (pre ++ (cs!"=== Plan\n" ++ c :: b)) = .ok r ∧
        p = ⟨q.version, q.urns, q.decls, q.rels ++ r.rels⟩ :=
  parsePlan_append hp ha hc

/-- Both parts have the version and the declarations of the whole. -/
theorem C63_same_start [FTab] (reg : Registry ExtArgs (List Nat)) (pre a b : Str) (q r : Plan)
    (hp : pre = [] ∨ pre.getLast? = some '\n')
    (hq : parsePlan reg (pre ++ (cs!"=== Plan\n" ++ a)) = .ok q)
    (hr : parsePlan reg (pre ++ (cs!"=== Plan\n" ++ b)) = .ok r) :
    q.version = r.version ∧ q.urns = r.urns ∧ q.decls = r.decls := by
  obtain ⟨v, e, t, ⟨sec, hs, h1⟩, h2, h3⟩ := (parsePlan_iff hp).1 hq
  obtain ⟨v', e', t', ⟨sec', hs', h1'⟩, h2', h3'⟩ := (parsePlan_iff hp).1 hr
  rw [h1] at h1'
  cases h1'
  obtain ⟨r1, -, rfl⟩ := buildPlan_inv h3
  obtain ⟨r2, -, rfl⟩ := buildPlan_inv h3'
  exact ⟨rfl, rfl, rfl⟩

/-- C63, writing: the text of relations in a row is the texts of its parts with an empty line between
them, and so are the errors. -/
theorem C63_written [UTab] [FTab] (reg : Registry ExtArgs (List Nat)) (o : Opts) (st : Store) (l m : List PlanRel)
    (hl : l ≠ []) (hm : m ≠ []) :
    (textPlanRels ⟨st, o, reg⟩ (l ++ m)).text =
      (textPlanRels ⟨st, o, reg⟩ l).text ++ cs!"\n\n" ++ (textPlanRels ⟨st, o, reg⟩ m).text ∧
    (textPlanRels ⟨st, o, reg⟩ (l ++ m)).errs =
      (textPlanRels ⟨st, o, reg⟩ l).errs ++ (textPlanRels ⟨st, o, reg⟩ m).errs := by
  induction l with
  | nil => exact absurd rfl hl
  | cons r l ih =>
    cases l with
    | nil =>
      cases m with
      | nil => exact absurd rfl hm
      | cons s m => simp [textPlanRels]
    | cons s l =>
      have := ih (by simp)
      simp only [List.cons_append] at this
      simp [textPlanRels, this]

/-! ### An example -/

/-- Two relations, each also a plan of its own; the second uses a column that the first does not have. -/
example : letI := asciiTab; letI := halfTab
    ∃ p q r, parsePlan sampleReg (UnrelSample.pre ++ (cs!"=== Plan\n" ++
        (cs!"Read[t => a:i64]\n\n" ++ cs!"Filter[equal($1, 5):boolean? => $0]\n  Read[db.t => a:i64, b:i64]\n"))) = .ok p ∧
      parsePlan sampleReg (UnrelSample.pre ++ (cs!"=== Plan\n" ++ cs!"Read[t => a:i64]\n\n")) = .ok q ∧
      parsePlan sampleReg (UnrelSample.pre ++ (cs!"=== Plan\n" ++
        cs!"Filter[equal($1, 5):boolean? => $0]\n  Read[db.t => a:i64, b:i64]\n")) = .ok r ∧
      p.rels = q.rels ++ r.rels ∧ q.rels.length = 1 ∧ r.rels.length = 1 := by
  letI := asciiTab; letI := halfTab
  have h1 : UnrelSample.declsOf (parsePlan sampleReg (UnrelSample.pre ++ (cs!"=== Plan\n" ++
        (cs!"Read[t => a:i64]\n\n" ++ cs!"Filter[equal($1, 5):boolean? => $0]\n  Read[db.t => a:i64, b:i64]\n")))) =
      some (UnrelSample.decls, 2) := by decide +kernel
  have h2 : UnrelSample.declsOf (parsePlan sampleReg (UnrelSample.pre ++ (cs!"=== Plan\n" ++ cs!"Read[t => a:i64]\n\n"))) =
      some (UnrelSample.decls, 1) := by decide +kernel
  cases e1 : parsePlan sampleReg (UnrelSample.pre ++ (cs!"=== Plan\n" ++
        (cs!"Read[t => a:i64]\n\n" ++ cs!"Filter[equal($1, 5):boolean? => $0]\n  Read[db.t => a:i64, b:i64]\n"))) with
  | err _ => rw [e1] at h1; cases h1
  | panic => rw [e1] at h1; cases h1
  | ok p =>
    obtain ⟨q, r, hq, hr, hp⟩ := (C63_text sampleReg UnrelSample.pre cs!"Read[t => a:i64]\n\n"
      cs!"ilter[equal($1, 5):boolean? => $0]\n  Read[db.t => a:i64, b:i64]\n" 'F' p (Or.inr (by decide))
      (Or.inr (by decide)) (by decide)).1 e1
    rw [hq] at h2
    rw [e1] at h1
    have h1 : (p.decls, p.rels.length) = (UnrelSample.decls, 2) := Option.some.inj h1
    have h2 : (q.decls, q.rels.length) = (UnrelSample.decls, 1) := Option.some.inj h2
    have h3 : p.rels = q.rels ++ r.rels := by rw [hp]
    refine ⟨p, q, r, rfl, hq, hr, h3, (Prod.mk.inj h2).2, ?_⟩
    have h4 := congrArg List.length h3
    rw [List.length_append, (Prod.mk.inj h1).2, (Prod.mk.inj h2).2] at h4
    omega

/-- The cut has to be in front of a line that is not indented: here the whole is accepted, but the
second part is not. -/
theorem C63_cut_inside_fails : letI := asciiTab; letI := halfTab
    UnrelSample.declsOf (parsePlan sampleReg (cs!"=== Plan\nFilter[true => $0]\n" ++ cs!"  Read[t => a:i64]\n")) = some ([], 1) ∧
    UnrelSample.declsOf (parsePlan sampleReg (cs!"=== Plan\n" ++ cs!"  Read[t => a:i64]\n")) = none := by
  decide +kernel

end Verif
