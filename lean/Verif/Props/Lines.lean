import Verif.Proofs.PlanWhole
import Verif.Props.Plan
import Verif.Props.Sections
/-!
# What an accepted text says
-/

namespace Verif

set_option autoImplicit false

open ChunkSpec SectionSpec Grammar TreeSpec StoreSpec

/-! ## C48 -/

/-- C48, for what stands before a possible tail: a line that is accepted starts with the spelling, by the
rules of the grammar, of the relation or addendum that it is taken for; nothing else may stand in front.
The line of a virtual table has no tail. -/
theorem C48_line_spelled_partial (top : Bool) (s : Str) (n : LineNode SLine SAddendum)
    (h : (if top then topLine s else nodeLine s) = some n) :
    ∃ x tail, s = x ++ tail ∧ NodeText n x ∧ (¬ top → ∀ d, DepthOk d n) ∧ TailOk n tail := by
  cases top with
  | true =>
    obtain ⟨x, tail, e, h1, h2⟩ := topLine_grammar h
    exact ⟨x, tail, e, h1, by simp, h2⟩
  | false =>
    obtain ⟨x, tail, e, h1, h2⟩ := nodeLine_grammar h
    exact ⟨x, tail, e, h1, fun _ => nodeLine_depth h, h2⟩

/-- C48 fails in general: whatever follows the closing bracket of a read, a filter or a root is ignored. -/
theorem C48_tail_ignored (tail : Str) :
    topLine (cs!"Read[t => a:i64]" ++ tail) = topLine cs!"Read[t => a:i64]" ∧
    nodeLine (cs!"Filter[$0 => $0]" ++ tail) = nodeLine cs!"Filter[$0 => $0]" ∧
    topLine (cs!"Root[x]" ++ tail) = topLine cs!"Root[x]" ∧
    (topLine cs!"Read[t => a:i64]").isSome = true ∧ (nodeLine cs!"Filter[$0 => $0]").isSome = true ∧
    (topLine cs!"Root[x]").isSome = true := by
  refine ⟨rfl, rfl, rfl, by decide +kernel, by decide +kernel, by decide +kernel⟩

/-- How an accepted line may start. -/
def lineStarts : List Str :=
  [cs!"Root[", cs!"Read[", cs!"Read:Extension[", cs!"Read:Virtual[", cs!"Filter[", cs!"Project[", cs!"Aggregate[",
    cs!"Sort[", cs!"Fetch[", cs!"Join[", cs!"Set[", cs!"Cross[", cs!"ExtensionLeaf:", cs!"ExtensionSingle:",
    cs!"ExtensionMulti:", cs!"+"]

/-- C48: a line with any other beginning is rejected. -/
theorem C48_unknown_rejected (s : Str) (h : ∀ k ∈ lineStarts, ¬ k <+: s) : topLine s = none ∧ nodeLine s = none := by
  have key : ∀ n x tail, s = x ++ tail → NodeText n x → False := by
    intro n x tail e hx
    subst e
    cases hx with
    | relation hr =>
      cases hr with
      | ext =>
        rename_i k _ _ _ _ _ _ _ _ _ _ _
        cases k <;> simp [lineStarts, kindKw] at h
      | _ => simp [lineStarts] at h
    | addendum ha =>
      obtain ⟨w, n, y, -, -, -, rfl⟩ := ha
      simp [lineStarts] at h
  constructor
  · cases ht : topLine s with
    | none => rfl
    | some n =>
      obtain ⟨x, tail, e, h1, -⟩ := topLine_grammar ht
      exact (key n x tail e h1).elim
  · cases ht : nodeLine s with
    | none => rfl
    | some n =>
      obtain ⟨x, tail, e, h1, -⟩ := nodeLine_grammar ht
      exact (key n x tail e h1).elim

-- what is rejected is not empty, and neither is what is accepted
example : (∀ k ∈ lineStarts, ¬ k <+: cs!"Frobnicate[$0]") ∧ ∃ k ∈ lineStarts, k <+: cs!"Cross[$0]" := by decide +kernel

/-! ## C55 -/

/-- C55: a plan that comes from a text is what the text says, and nothing else.  The text is made of blank
lines, a version section, an extensions section and a plan section, each of them optional; its
declarations are free of conflicts and are exactly those of the plan; and its relation lines are the
listing of the trees that the relations of the plan are made from. -/
theorem C55_plan_is_text [FTab] (reg : Registry ExtArgs (List Nat)) (text : Str) (p : Plan)
    (h : parsePlan reg text = .ok p) :
    ∃ ops lines tails forest, TextSays text p.version ops lines tails ∧ answers [] ops = [] ∧
      (∀ a u, (a, u) ∈ p.urns ↔ Op.urn u a ∈ ops) ∧
      (∀ k u a n, some (k, u, a, n) ∈ p.decls ↔ ∃ m, Op.ext k u a m ∈ ops ∧ legalName k m = some n) ∧
      none ∉ p.decls ∧ lines = listings 0 forest ∧ convPlanRels (run ops) reg forest = .ok p.rels :=
  parsePlan_says h

-- a text with all three sections is accepted
example : letI := asciiTab; letI := halfTab
    ∃ p', parsePlan sampleReg (textPlan sampleReg .default samplePlan).text = .ok p' :=
  letI := asciiTab; letI := halfTab
  let ⟨p', h, _⟩ := (C46_plan_round_trip asciiTab_printable _ _ readable_default _ (samplePlan_ok _ rfl) samplePlan_complete).2
  ⟨p', h⟩

/-- Whether a text is accepted with as many relations, and whether a test holds for them. -/
def acceptedWith (text : Str) (f : Plan → Bool) : Bool :=
  letI := halfTab
  match parsePlan {} text with
  | .ok p => f p
  | _ => false

/-- C48 for whole plans: text behind a relation and the items of a list that nothing asks for disappear.
Behind a virtual table they are noticed. -/
theorem C48_garbage_accepted :
    (letI := halfTab
    parsePlan {} cs!"=== Plan\nRead[t => a:i64] where a < 5\n  - and more\n" = parsePlan {} cs!"=== Plan\nRead[t => a:i64]\n") ∧
    acceptedWith cs!"=== Plan\nRead[t => a:i64]\n" (fun p => p.rels.length == 1) = true ∧
    acceptedWith cs!"=== Plan\nRead:Virtual[(1) => a:i64] where a < 5\n" (fun _ => true) = false ∧
    acceptedWith cs!"=== Plan\nRead:Virtual[(1) => a:i64]\n" (fun _ => true) = true := by
  refine ⟨by rfl, ?_⟩
  decide +kernel

/-! ## C50 -/

/-- The string in the first row of a plan that is one virtual table. -/
def firstString (p : Plan) : Option Str :=
  match p.rels with
  | [.rel (.node (.read _ _ _ (.virtual ((.literal ⟨some (.string s), _, _⟩ :: _) :: _) _) _ _) _)] => some s
  | _ => none

/-- A virtual table with a string that goes on in a continuation line. -/
def brokenString : Str := cs!"=== Plan\nRead:Virtual[('a\n  - b') => c:string]\n"

/-- C50 fails: a string may be broken by a continuation line, and then keeps the line end and the
white space before it; Windows line ends or trailing spaces change its value. -/
theorem C50_line_end_in_string :
    acceptedWith brokenString (fun p => firstString p == some cs!"a\n  - b") = true ∧
    acceptedWith (toCrlf brokenString) (fun p => firstString p == some cs!"a\r\n  - b") = true ∧
    acceptedWith cs!"=== Plan\nRead:Virtual[('a  \n  - b') => c:string]\n"
      (fun p => firstString p == some cs!"a  \n  - b") = true := by
  decide +kernel

/-- C50 fails: a blank line in front of a continuation line makes an accepted plan unreadable. -/
theorem C50_blank_before_dash :
    acceptedWith cs!"=== Plan\nRead:Virtual[\n  - (1)\n  - => c:i64]\n" (fun p => p.rels.length == 1) = true ∧
    acceptedWith cs!"=== Plan\nRead:Virtual[\n\n  - (1)\n  - => c:i64]\n" (fun _ => true) = false := by
  decide +kernel

/-- Between the items of a virtual table line ends and spaces before them may be of any kind. -/
example : letI := halfTab
    parsePlan {} cs!"=== Plan\nRead:Virtual[  \n  -   (1),\r\n  - (2)  \r\n  - => c:i64]  \n" =
      parsePlan {} cs!"=== Plan\nRead:Virtual[\n  - (1),\n  - (2)\n  - => c:i64]\n" := by rfl

end Verif
