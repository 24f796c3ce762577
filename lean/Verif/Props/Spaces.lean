import Verif.Proofs.SpacePlan
import Verif.Props.SamplePlan
/-!
# Property C78: the width of spaces inside of a line

Outside of quotes, a run of spaces reads as one space reads: a line, and a whole plan, is read alike whatever the width
of those runs.  The indentation of a line and what stands between quotes do count, and so does the difference between
no space and one.
-/

set_option autoImplicit false

namespace Verif
open SpaceSpec ChunkSpec SectionSpec

/-- **C78.** Two lines that differ at most in the width of runs of spaces outside of quotes are read alike, at the top
of a plan and below: both are refused, or both give the same relation, row or addendum. -/
theorem C78_line (a b : Str) (h : SameButSpaces a b) : topLine a = topLine b ∧ nodeLine a = nodeLine b := by
  have hs : squeeze a = squeeze b := h
  rw [← topLine_squeeze a, ← topLine_squeeze b, ← nodeLine_squeeze a, ← nodeLine_squeeze b, hs]
  exact ⟨rfl, rfl⟩

/-- **C78.** Two texts that agree up to the header of the plan, and whose lines from there on have the same indentation
and differ at most in the width of runs of spaces outside of quotes, are read alike: to the same plan, or with the
same error. -/
theorem C78_plan [FTab] (reg : Registry ExtArgs (List Nat)) (a b hdr : Str) (pre ls ls' : List Str)
    (ha : physLines a = pre ++ hdr :: ls) (hb : physLines b = pre ++ hdr :: ls') (hpre : ∀ l ∈ pre, ¬ Names .plan l)
    (hh : Names .plan hdr) (hl : AllAlike ls ls') (hn : ∀ l ∈ ls, ¬ IsHeader l) :
    parsePlan reg a = parsePlan reg b :=
  parsePlan_alike reg ha hb hpre hh hl hn

/-- Wide spaces, and quotes whose spaces are kept. -/
example : SameButSpaces cs!"Filter[$0  =>   $0]" cs!"Filter[$0 => $0]" := by
  show squeeze _ = squeeze _; decide

example : (topLine cs!"Filter[$0  =>   $0]").isSome = true := by decide +kernel

/-- Between quotes every space counts. -/
example : SameButSpaces cs!"Filter['a  b'   => $0]" cs!"Filter['a  b' =>   $0]" ∧
    ¬ SameButSpaces cs!"Filter['a  b' => $0]" cs!"Filter['a b' => $0]" := by
  refine ⟨?_, fun h => ?_⟩
  · show squeeze _ = squeeze _; decide
  · have : squeeze _ = squeeze _ := h
    revert this; decide

/-- **C78.** That a space is there at all does count, even next to a comma: the rule for the expressions of a group
takes spaces before its first comma and not before the others. -/
theorem C78_comma_space :
    (topLine cs!"Aggregate[$0 , $1, $2 => $0]").isSome = true ∧ topLine cs!"Aggregate[$0, $1 , $2 => $0]" = none := by
  decide +kernel

namespace SpaceSample

def tight : Str := cs!"=== Plan\nRoot[a]\n  Filter[$0 => $0]\n    Read[t => a:i64] \n"
def wide : Str := cs!"=== Plan\nRoot[a]\n  Filter[$0    =>  $0]\n    Read[t =>     a:i64]  \n"

theorem alike : AllAlike [cs!"Root[a]\n", cs!"  Filter[$0 => $0]\n", cs!"    Read[t => a:i64] \n"]
    [cs!"Root[a]\n", cs!"  Filter[$0    =>  $0]\n", cs!"    Read[t =>     a:i64]  \n"] := by
  refine .cons ⟨0, cs!"Root[a]\n", _, rfl, rfl, by decide, by show squeeze _ = squeeze _; decide, false, rfl⟩
    (.cons ⟨2, cs!"Filter[$0 => $0]\n", cs!"Filter[$0    =>  $0]\n", rfl, rfl, by decide,
      by show squeeze _ = squeeze _; decide, false, rfl⟩
    (.cons ⟨4, cs!"Read[t => a:i64] \n", cs!"Read[t =>     a:i64]  \n", rfl, rfl, by decide,
      by show squeeze _ = squeeze _; decide, false, rfl⟩ .nil))

/-- The wide text is read as the tight one, and that one is read. -/
example : letI := halfTab; parsePlan sampleReg tight = parsePlan sampleReg wide ∧ ∃ p, parsePlan sampleReg tight = .ok p := by
  letI := halfTab
  refine ⟨C78_plan sampleReg tight wide cs!"=== Plan\n" [] _ _ (by unfold tight; cbv) (by unfold wide; cbv) (by simp)
    (by show trimEnd _ = _; decide) alike ?_, _, by unfold tight; cbv⟩
  intro l hl
  simp only [List.mem_cons, List.not_mem_nil, or_false] at hl
  rcases hl with rfl | rfl | rfl <;> (rintro ⟨r, hr⟩; simp at hr)

end SpaceSample

end Verif
