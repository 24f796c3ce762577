import Verif.Proofs.Canonical
import Verif.Props.Sample
/-!
# A plan for the examples

It has a version, declarations, a root relation and a second relation, and nearly every kind of
relation; columns are repeated, dropped and reordered.
-/

namespace Verif
open StoreSpec TextSpec RelSpec PlanSpec

set_option autoImplicit false

namespace SamplePlan

def i64 : Ty := .simple .i64 .required 0
def bool : Ty := .simple .boolean .nullable 0
def emitOnly (m : List Int) : Option Common := some ⟨some (.emit m), 0⟩
def direct : Option Common := some ⟨some .direct, 0⟩

/-- A table read that puts out its second column twice, and not the first. -/
def readTable : Rel := .node (.read (emitOnly [1, 1, 2])
  (some ⟨[cs!"a", cs!"my col", cs!"c"], some ⟨[i64, bool, i64], 0, .required⟩⟩) none (.named [cs!"db", cs!"t"] 0) none 0) []

/-- A virtual table with two rows. -/
def readRows : Rel := .node (.read direct (some ⟨[cs!"n"], some ⟨[i64], 0, .required⟩⟩) none
  (.virtual [[number 1], [number (-2)]] 0) none 0) []

def call (f : Nat) (l : List Expr) (t : Ty) : Expr := .call f (l.map .value) [] (some t)

/-- Four columns. -/
def joined : Rel := .node (.join none (.known .inner) (some (call 10 [inputRef 2, inputRef 3] bool)) none none)
  [some readTable, some readRows]

/-- An enhancement, an optimization, and a mapping that drops a column. -/
def filtered : Rel := .node (.filter (emitOnly [0, 3, 2]) (some (call 10 [inputRef 0, inputRef 3] bool))
  (some ⟨some (note 7), [note 8, note 9]⟩)) [some joined]

/-- Expressions among references. -/
def projected : Rel := .node (.project (emitOnly [3, 1, 1, 4]) [call 11 [inputRef 1] i64, number 5] none) [some filtered]

/-- Two grouping sets, one measure. -/
def aggregated : Rel := .node (.aggregate (emitOnly [2, 0, 1]) [inputRef 1, inputRef 0]
  [⟨[1, 0], []⟩, ⟨[], []⟩] [⟨some ⟨11, [.value (inputRef 3)], [], some i64, 0⟩, 0⟩] none) [some projected]

def sorted : Rel := .node (.sort direct [⟨some (inputRef 2), some (.direction (.known .descNullsLast))⟩,
  ⟨some (inputRef 0), some (.direction (.known .ascNullsFirst))⟩] none) [some aggregated]

def fetched : Rel := .node (.fetch none (some (.deprecated 10)) (some (.expr (number 3))) none) [some sorted]

def leaf : Rel := .node (.ext .leaf none (some (note 4))) []
def crossed : Rel := .node (.cross (emitOnly [1]) none) [some leaf, some readRows]
def united : Rel := .node (.set direct (.known .unionAll) none) [some leaf, some crossed, some readRows]

end SamplePlan

open SamplePlan

def samplePlan : Plan where
  version := some ⟨0, 63, 1, cs!"0123456789abcdef0123456789abcdef01234567", cs!"a producer"⟩
  urns := [(2, cs!"/functions.yaml")]
  decls := [some (.function, 2, 11, cs!"sum:i64"), some (.function, 2, 10, cs!"equal")]
  rels := [.root [cs!"x", cs!"it's"] (some fetched), .rel united]

namespace SamplePlan

def store : Store := run (history samplePlan)

theorem declared_equal : ∃ n, Declared store .function 10 n ∧ FunctionName n :=
  ⟨cs!"equal", ⟨2, by decide +kernel⟩, cs!"equal", by decide, .inl rfl⟩

theorem declared_sum : ∃ n, Declared store .function 11 n ∧ FunctionName n :=
  ⟨cs!"sum:i64", ⟨2, by decide +kernel⟩, cs!"sum", by decide, .inr (.inr ⟨cs!"i64",
    .one _ ⟨false, 'i', cs!"64", rfl, by decide, by decide⟩, rfl⟩)⟩

section
variable [UTab] [FTab]

theorem ref_faithful (i : Nat) (h : i < 2 ^ 31) : Faithful store (inputRef i) := by
  show InI32 (i : Int)
  unfold InI32
  omega

theorem number_faithful (i : Int) (h : -2 ^ 63 ≤ i ∧ i < 2 ^ 63) : Faithful store (number i) :=
  ⟨rfl, _, rfl, by show InI64 i; unfold InI64; omega⟩

theorem call_faithful {f : Nat} (hf : ∃ n, Declared store .function f n ∧ FunctionName n) (hb : f < 2 ^ 32) (l : List Expr)
    (hl : ∀ e ∈ l, Faithful store e) (t : Ty) (ht : Writable store t) : Faithful store (call f l t) := by
  refine ⟨hb, rfl, hf, ?_, ht⟩
  induction l with
  | nil => trivial
  | cons e l ih => exact ⟨hl e (by simp), ih fun x hx => hl x (by simp [hx])⟩

theorem equal_faithful (i j : Nat) (hi : i < 2 ^ 31) (hj : j < 2 ^ 31) :
    Faithful store (call 10 [inputRef i, inputRef j] bool) := by
  refine call_faithful declared_equal (by decide) _ ?_ _ rfl
  intro e he
  simp only [List.mem_cons, List.not_mem_nil, or_false] at he
  rcases he with rfl | rfl
  · exact ref_faithful _ hi
  · exact ref_faithful _ hj

theorem sum_faithful (i : Nat) (hi : i < 2 ^ 31) : Faithful store (call 11 [inputRef i] i64) := by
  refine call_faithful declared_sum (by decide) _ ?_ _ rfl
  intro e he
  simp only [List.mem_cons, List.not_mem_nil, or_false] at he
  rw [he]
  exact ref_faithful _ hi

end

/-- The printer's surroundings. -/
def env (o : Opts) : Env := ⟨store, o, sampleReg⟩

theorem spellable (n : Str) (h : letI := asciiTab; unescape (escape n) = n) : @Spellable asciiTab n := by
  letI := asciiTab
  rw [← unescape_escape_iff]
  exact h

theorem adv_none {o : Opts} [UTab] [FTab] : AdvOk (env o) none := by
  intro x hx
  cases hx

theorem inRange {n : Nat} {m : List Int} (h : n + m.length ≤ 2 ^ 31 ∧ (m.all fun i => decide (0 ≤ i ∧ i < (n : Int))) = true) :
    InRange n m := by
  refine ⟨h.1, fun i hi => ?_⟩
  simpa using List.all_eq_true.1 h.2 i hi

section
variable {o : Opts}

theorem readTable_ok : letI := asciiTab; letI := halfTab; Supported (env o) readTable := by
  letI := asciiTab; letI := halfTab
  refine .node _ [] rfl (by simp) ⟨rfl, rfl, ⟨[(cs!"a", i64), (cs!"my col", bool), (cs!"c", i64)], rfl, ?_⟩,
    ⟨by simp, ?_, rfl, rfl, ?_⟩, adv_none⟩
  · intro c hc
    simp only [List.mem_cons, List.not_mem_nil, or_false] at hc
    rcases hc with rfl | rfl | rfl <;> exact ⟨spellable _ (by decide +kernel), rfl⟩
  · intro c hc
    simp only [List.mem_cons, List.not_mem_nil, or_false] at hc
    rcases hc with rfl | rfl <;> exact spellable _ (by decide +kernel)
  · intro m hm i hi
    cases hm
    simp only [List.mem_cons, List.not_mem_nil, or_false] at hi
    unfold InI32
    omega

theorem readRows_ok : letI := asciiTab; letI := halfTab; Supported (env o) readRows := by
  letI := asciiTab; letI := halfTab
  refine .node _ [] rfl (by simp) ⟨rfl, rfl, ⟨[(cs!"n", i64)], rfl, ?_⟩,
    ⟨rfl, ?_, by simp, rfl⟩, adv_none⟩
  · intro c hc
    simp only [List.mem_cons, List.not_mem_nil, or_false] at hc
    rw [hc]
    exact ⟨spellable _ (by decide +kernel), rfl⟩
  · intro r hr e he
    simp only [List.mem_cons, List.not_mem_nil, or_false] at hr
    rcases hr with rfl | rfl <;> (simp only [List.mem_cons, List.not_mem_nil, or_false] at he; rw [he]; exact number_faithful _ (by decide))

theorem several {op : RelOp} (l : List Rel) (ws : List Nat) [UTab] [FTab] (hr : ∀ r ∈ l, Supported (env o) r)
    (hw : l.map (width sampleReg) = ws) (h1 : Arity op l.length) (h2 : OpOk (env o) ws op) :
    Supported (env o) (.node op (l.map some)) := by
  refine .node op l h1 hr ?_
  rw [← hw] at h2
  exact h2

theorem joined_ok : letI := asciiTab; letI := halfTab; Supported (env o) joined := by
  letI := asciiTab; letI := halfTab
  refine several [readTable, readRows] [3, 1] ?_ (by decide +kernel) rfl ⟨rfl, ⟨.inner, rfl, by decide, inRange (by decide +kernel), by decide +kernel, fun _ => rfl⟩,
    ⟨_, rfl, equal_faithful _ _ (by decide) (by decide)⟩, by simp, adv_none⟩
  intro r hr
  simp only [List.mem_cons, List.not_mem_nil, or_false] at hr
  rcases hr with rfl | rfl
  · exact readTable_ok
  · exact readRows_ok

theorem single {op : RelOp} {r : Rel} {n : Nat} [UTab] [FTab] (hr : Supported (env o) r) (hw : width sampleReg r = n) (h1 : Arity op 1)
    (h2 : OpOk (env o) [n] op) : Supported (env o) (.node op [some r]) := by
  refine .node op [r] h1 ?_ (by rw [← hw] at h2; exact h2)
  intro x hx
  simp only [List.mem_cons, List.not_mem_nil, or_false] at hx
  rw [hx]
  exact hr

theorem filtered_ok : letI := asciiTab; letI := halfTab; Supported (env o) filtered := by
  letI := asciiTab; letI := halfTab
  refine single joined_ok (n := 4) (by decide +kernel) rfl ⟨rfl, ⟨_, rfl, equal_faithful _ _ (by decide) (by decide)⟩,
    inRange (by decide +kernel), ?_⟩
  intro x hx
  cases hx
  refine ⟨?_, ?_⟩
  · intro d hd
    cases hd
    exact note_ok rfl _ _ (by decide)
  · intro d hd
    simp only [List.mem_cons, List.not_mem_nil, or_false] at hd
    rcases hd with rfl | rfl <;> exact note_ok rfl _ _ (by decide)

theorem projected_ok : letI := asciiTab; letI := halfTab; Supported (env o) projected := by
  letI := asciiTab; letI := halfTab
  refine single filtered_ok (n := 3) (by decide +kernel) rfl ⟨rfl, ?_, inRange (by decide +kernel), adv_none⟩
  intro e he
  simp only [List.mem_cons, List.not_mem_nil, or_false] at he
  rcases he with rfl | rfl
  · exact ⟨sum_faithful _ (by decide), fun i hi => by cases hi⟩
  · exact ⟨number_faithful _ (by decide), fun i hi => by cases hi⟩

theorem aggregated_ok : letI := asciiTab; letI := halfTab; Supported (env o) aggregated := by
  letI := asciiTab; letI := halfTab
  refine single projected_ok (n := 4) (by decide +kernel) rfl ⟨rfl, ⟨?_, ?_, ?_, ?_, ?_, ?_⟩, inRange (by decide +kernel), adv_none⟩
  · intro g hg
    simp only [List.mem_cons, List.not_mem_nil, or_false] at hg
    rcases hg with rfl | rfl <;> exact ⟨rfl, by decide⟩
  · intro e he
    simp only [List.mem_cons, List.not_mem_nil, or_false] at he
    rcases he with rfl | rfl <;> exact ref_faithful _ (by decide)
  · intro m hm
    simp only [List.mem_cons, List.not_mem_nil, or_false] at hm
    rw [hm]
    exact ⟨_, _, _, rfl, sum_faithful 3 (by decide)⟩
  · intro i hi e he
    refine ⟨[some (inputRef 0), some (inputRef 1)], by simp [groupSets, setOf], ?_⟩
    have : e = inputRef 1 ∨ e = inputRef 0 := by simpa using List.mem_of_getElem? he
    rcases this with rfl | rfl <;> simp
  · intro m hm e he
    simp only [List.mem_cons, List.not_mem_nil, or_false] at hm
    subst hm
    cases he
    rintro ⟨s, hs, he⟩
    simp [groupSets, setOf] at hs
    rcases hs with rfl | rfl <;> simp [inputRef] at he
  · intro e l h
    simp [groupSets] at h

theorem sorted_ok : letI := asciiTab; letI := halfTab; Supported (env o) sorted := by
  letI := asciiTab; letI := halfTab
  refine single aggregated_ok (n := 3) (by decide +kernel) rfl ⟨rfl, by simp, ?_, inRange (by decide +kernel), adv_none⟩
  intro f hf
  simp only [List.mem_cons, List.not_mem_nil, or_false] at hf
  rcases hf with rfl | rfl <;> exact ⟨_, _, rfl, ref_faithful _ (by decide), by decide, by decide⟩

theorem fetched_ok (ho : o.litTypes = .required) : letI := asciiTab; letI := halfTab; Supported (env o) fetched := by
  letI := asciiTab; letI := halfTab
  refine single sorted_ok (n := 3) (by decide +kernel) rfl ⟨rfl, ?_, ?_, inRange (by decide +kernel), adv_none⟩
  · intro x hx
    cases hx
    exact ⟨by decide, by decide⟩
  · intro x hx
    cases hx
    exact .inl ⟨ho, _, rfl, by decide, by decide⟩

theorem leaf_ok : letI := asciiTab; letI := halfTab; Supported (env o) leaf := by
  letI := asciiTab; letI := halfTab
  refine .node _ [] rfl (by simp) ⟨rfl, rfl, note 4, cs!"Note", ⟨[.integer 4], [], [.named cs!"c" i64]⟩, rfl, rfl, rfl, by decide,
    ⟨⟨?_, trivial⟩, by simp, by simp, ?_⟩⟩
  · show InI64 4; unfold InI64; decide
  · intro c hc
    simp only [List.mem_cons, List.not_mem_nil, or_false] at hc
    rw [hc]
    exact ⟨spellable _ (by decide +kernel), rfl⟩

theorem crossed_ok : letI := asciiTab; letI := halfTab; Supported (env o) crossed := by
  letI := asciiTab; letI := halfTab
  refine several [leaf, readRows] [1, 1] ?_ (by decide +kernel) rfl ⟨rfl, inRange (by decide +kernel), adv_none⟩
  intro r hr
  simp only [List.mem_cons, List.not_mem_nil, or_false] at hr
  rcases hr with rfl | rfl
  · exact leaf_ok
  · exact readRows_ok

theorem united_ok : letI := asciiTab; letI := halfTab; Supported (env o) united := by
  letI := asciiTab; letI := halfTab
  refine several [leaf, crossed, readRows] [1, 1, 1] ?_ (by decide +kernel) (by show 2 ≤ 3; decide) ⟨rfl, ⟨_, rfl, by decide⟩, by decide +kernel,
    inRange (by decide +kernel), adv_none⟩
  intro r hr
  simp only [List.mem_cons, List.not_mem_nil, or_false] at hr
  rcases hr with rfl | rfl | rfl
  · exact leaf_ok
  · exact crossed_ok
  · exact readRows_ok

end

end SamplePlan

theorem samplePlan_ok (o : Opts) (ho : o.litTypes = .required) : letI := asciiTab; letI := halfTab; PlanOk sampleReg o samplePlan := by
  letI := asciiTab; letI := halfTab
  have hv : run (history samplePlan) = ⟨[(2, cs!"/functions.yaml")],
    [((10, .function), (2, cs!"equal")), ((11, .function), (2, cs!"sum:i64"))]⟩ := by decide +kernel
  refine ⟨?_, by decide +kernel, ⟨?_, ?_, ?_⟩, ?_⟩
  · intro x hx
    cases hx
    decide +kernel
  · rw [hv]
    intro e he
    simp only [List.mem_cons, List.not_mem_nil, or_false] at he
    rw [he]
    exact ⟨by decide, by decide, by decide, by decide, by intro c hc; cases hc; decide⟩
  · intro e he
    have := he
    rw [hv] at he
    simp only [List.mem_cons, List.not_mem_nil, or_false] at he
    rcases he with rfl | rfl
    · exact ⟨by decide, cs!"equal", by decide, .inl rfl⟩
    · exact ⟨by decide, cs!"sum", by decide, .inr (.inr ⟨cs!"i64", .one _ ⟨false, 'i', cs!"64", rfl, by decide, by decide⟩, rfl⟩)⟩
  · rw [hv]
    intro e he
    simp only [List.mem_cons, List.not_mem_nil, or_false] at he
    rcases he with rfl | rfl <;> exact ⟨cs!"/functions.yaml", by simp⟩
  · intro r hr
    simp only [samplePlan, List.mem_cons, List.not_mem_nil, or_false] at hr
    rcases hr with rfl | rfl
    · refine ⟨?_, fetched_ok ho⟩
      intro n hn
      simp only [List.mem_cons, List.not_mem_nil, or_false] at hn
      rcases hn with rfl | rfl <;> exact spellable _ (by decide +kernel)
    · exact united_ok

end Verif
