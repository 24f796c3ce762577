import Verif.Proofs.CrashText
import Verif.Props.Accept
/-!
# C86: exactly which texts make the parser panic
-/

namespace Verif

open PestSpec ChunkSpec SectionSpec Grammar TreeSpec StoreSpec DeclareSpec AcceptSpec MeaningSpec CrashSpec TemporalSpec

set_option autoImplicit false

/-- C86.  Reading a type panics exactly at the places listed in `TyCrashes`. -/
theorem C86_types {st : Store} (hst : st.Ordered) (s : STy) : convTy st s = .panic ↔ TyCrashes st s :=
  convTy_crash hst s

/-- C86.  A type is refused with an error exactly if it neither means anything nor panics. -/
theorem C86_types_refused {st : Store} (hst : st.Ordered) (s : STy) :
    (∃ e, convTy st s = .err e) ↔ (∀ t, ¬ TyMeans st s t) ∧ ¬ TyCrashes st s := by
  rw [← convTy_crash hst s]
  simp only [← convTy_means hst s]
  cases convTy st s <;> simp

variable [FTab]

/-- C86.  Reading an expression panics exactly at the places listed in `ExprCrashes`. -/
theorem C86_expressions {st : Store} (hst : st.Ordered) (s : SExpr) : convExpr st s = .panic ↔ ExprCrashes st s :=
  convExpr_crash hst s

/-- C86.  Reading the trees of a plan panics exactly if a tree panics and the ones before it mean something. -/
theorem C86_trees {st : Store} (hst : st.Ordered) (reg : Registry ExtArgs (List Nat)) (l : List (RNode SLine SAddendum)) :
    convPlanRels st reg l = .panic ↔ First (fun t => ∃ r, TopMeans st reg t r) (TopCrashes st reg) l :=
  convPlanRels_crash hst reg l

/-- C86.  The parser panics on a text exactly if a declaration does and everything before it is fine, or if all sections
are fine and a relation panics. -/
theorem C86_panics (reg : Registry ExtArgs (List Nat)) (text : Str) :
    parsePlan reg text = .panic ↔ DeclsCrash text ∨ RelsCrash reg text := by
  rw [← sections_crash]
  unfold parsePlan
  rw [PState.parseSections_eq]
  constructor
  · intro h
    cases hr : PState.runLines (PState.init : PState planLang) (physLines text) with
    | err e => rw [hr] at h; cases h
    | panic => exact .inl rfl
    | ok st =>
      rw [hr] at h
      have h : buildPlan reg st = .panic := h
      obtain ⟨ops, lines, h1, h2, h3, h4⟩ := (runLines_reads text _ _ _).1 ⟨st, hr, rfl, rfl, rfl⟩
      unfold buildPlan at h
      rw [h3] at h
      have hc : convPlanRels (run ops) reg st.tree.finish = .panic := by
        generalize convPlanRels (run ops) reg st.tree.finish = c at h
        cases c with
        | err e => cases h
        | panic => rfl
        | ok rels => cases h
      exact .inr ⟨_, ops, lines, _, h1, (C79_sound ops).1 h2, h4, (convPlanRels_crash (Store.ordered_run ops) reg _).1 hc⟩
  · rintro (h | ⟨v, ops, lines, forest, h1, h2, h3, h4⟩)
    · rw [h]; rfl
    · obtain ⟨st, hr, e1, e2, e3⟩ := (runLines_reads text v (run ops) forest).2 ⟨ops, lines, h1, (C79_sound ops).2 h2, rfl, h3⟩
      rw [hr]
      show buildPlan reg st = .panic
      unfold buildPlan
      rw [e2, e3, (convPlanRels_crash (Store.ordered_run ops) reg _).2 h4]
      rfl

/-- C86.  With C85 this settles every text: an error comes exactly for those that are neither accepted nor panic. -/
theorem C86_refused (reg : Registry ExtArgs (List Nat)) (text : Str) :
    (∃ e, parsePlan reg text = .err e) ↔
    (¬ ∃ p : Plan, ∃ ops lines forest, TextReads text p.version ops lines ∧ Sound ops ∧ lines = listings 0 forest ∧
      All2 (TopMeans (run ops) reg) forest p.rels ∧ Recorded ops p.urns p.decls) ∧
    ¬ DeclsCrash text ∧ ¬ RelsCrash reg text := by
  rw [← not_or, ← C86_panics]
  simp only [← C85_accepted]
  cases parsePlan reg text <;> simp

namespace CrashSample

omit [FTab] in
theorem versionPart_mem {r2 r1 : List Str} {v : Option Version} (h : VersionPart r2 r1 v) {l : Str} (hl : l ∈ r2) : l ∈ r1 := by
  cases h with
  | none => exact hl
  | some => exact List.mem_cons_of_mem _ (List.mem_append_right _ hl)

/-- A declaration with an anchor of 33 bits, below a sound one. -/
def decl : Str := cs!"\n=== Extensions\nURNs:\n  @1: urn:a\nFunctions:\n  #4294967296 @1: f\n"

example : DeclsCrash decl := by
  refine ⟨[cs!"\n"], _, _, none, cs!"=== Extensions\n", [cs!"URNs:\n", cs!"  @1: urn:a\n", cs!"Functions:\n"],
    [.urn cs!"urn:a" 1], cs!"  #4294967296 @1: f\n", cs!"#4294967296 @1: f", [], rfl, by simp; decide +kernel, .none, rfl,
    by decide +kernel, ?_, (C79_sound _).1 (by decide +kernel), by decide +kernel, ?_⟩
  · refine .urns (by decide +kernel) (DeclareSample.urnLine (by decide +kernel) (by decide +kernel) (by decide) ?_)
    exact .title (k := .function) (by decide +kernel) .nil
  · obtain ⟨y, e, hy⟩ := reads_decl cs!"#4294967296 @1: f" (⟨false, 4294967296⟩, ⟨false, 1⟩, cs!"f") [] (by decide +kernel)
    rw [List.append_nil] at e
    exact .decl (k := .function) (e ▸ hy) (.inl (fun n h => absurd h.2.2 (by rw [← h.2.1]; decide)))

/-- The anchor fits, and something follows the name: the rule of the grammar stops at the space. -/
example : DeclCrashes (under none [cs!"URNs:\n", cs!"  @1: urn:a\n", cs!"Types:\n"]) cs!"#1 @1: f x" :=
  .declTail (k := .type) (c := ' ') (r := cs!"x") ((C83_rules _ _ _).2 (by decide +kernel))

/-- A column too wide, after a relation that is fine. -/
def rels : Str := cs!"=== Plan\nRead[t => a:i64]\nFilter[$2147483648 => $0]\n  Read[t => a:i64]\n"

example : letI := halfTab
    RelsCrash {} rels := by
  letI := halfTab
  rcases (C86_panics {} rels).1 (by rfl) with h | h
  · obtain ⟨bl, _, _, _, hd, ls, _, l, _, rest, e, _, hv, rfl, hh, _⟩ := h
    have hm : hd ∈ physLines rels := by
      rw [e]
      exact List.mem_append_right _ (versionPart_mem hv (List.mem_cons_self ..))
    revert hh
    have : ∀ l ∈ physLines rels, trimEnd l ≠ cs!"=== Extensions" := by decide +kernel
    exact fun hh => absurd hh (this _ hm)
  · exact h

/-- The same reference behind a relation that is refused. -/
def refused : Str := cs!"=== Plan\nRead[t => a:i64]\n  Read[t => a:i64]\nFilter[$2147483648 => $0]\n  Read[t => a:i64]\n"

example : letI := halfTab
    ¬ DeclsCrash refused ∧ ¬ RelsCrash {} refused := by
  letI := halfTab
  exact ((C86_refused {} refused).1 ⟨_, rfl⟩).2

-- nor does an accepted text panic
example : letI := halfTab
    ¬ DeclsCrash AcceptSample.text ∧ ¬ RelsCrash {} AcceptSample.text := by
  letI := halfTab
  rw [← not_or, ← C86_panics, AcceptSample.text_reads]
  simp

-- a parameter without a meaning panics only if it is not the last
example : TyCrashes (run []) (.user cs!"p" none none .required (some [.ty (.user cs!"q" none none .required none), .int ⟨false, 1⟩])) ∧
    ¬ TyCrashes (run []) (.user cs!"p" none none .required (some [.ty (.user cs!"q" none none .required none)])) := by
  rw [← C86_types (Store.ordered_run []), ← C86_types (Store.ordered_run [])]
  exact ⟨rfl, by intro h; cases h⟩

-- an error in a clause panics, one in the last expression does not
example : letI := asciiTab
    ExprCrashes (run []) (.ifThen [(.call cs!"f" none none [] (.simple cs!"i64" .required), .ref ⟨false, 0⟩)] (.ref ⟨false, 0⟩)) ∧
    ¬ ExprCrashes (run []) (.ifThen [(.ref ⟨false, 0⟩, .ref ⟨false, 0⟩)] (.call cs!"f" none none [] (.simple cs!"i64" .required))) := by
  letI := asciiTab
  rw [← C86_expressions (Store.ordered_run []), ← C86_expressions (Store.ordered_run [])]
  exact ⟨rfl, by intro h; cases h⟩

end CrashSample

end Verif
