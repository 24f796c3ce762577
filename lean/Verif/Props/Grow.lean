import Verif.Proofs.GrowReg
import Verif.Props.Plan
/-!
# Property C75: registering more
-/

namespace Verif
open StoreSpec TextSpec RelSpec PlanSpec PanicSpec

set_option autoImplicit false

/-- C75: what a text is read as is not changed by further registrations, whether they are accepted or refused, unless
it was refused because something is not registered. -/
theorem C75_read_grows [FTab] (h l : List (Ns × Ext ExtArgs (List Nat))) (text : Str)
    (hn : ∀ n, parsePlan (registryAfter h) text ≠ .err (.rel (.unregistered n))) :
    parsePlan (registryAfter (h ++ l)) text = parsePlan (registryAfter h) text := by
  refine firm_plan (Registry.within_after h l) text fun e he hu => ?_
  cases e with
  | unregistered n => exact hn n he
  | _ => exact hu

/-- C75: a plan that is written without errors is written the same after further registrations. -/
theorem C75_written_grows [UTab] [FTab] (h l : List (Ns × Ext ExtArgs (List Nat))) (o : Opts) (p : Plan)
    (hc : (textPlan (registryAfter h) o p).errs = []) :
    textPlan (registryAfter (h ++ l)) o p = textPlan (registryAfter h) o p :=
  grow_plan (Registry.within_after h l) o p hc

namespace GrowSample

/-- `Note` as an enhancement. -/
def first : List (Ns × Ext ExtArgs (List Nat)) := [(.enhancement, ⟨cs!"Note", cs!"t/Note", noteHandler cs!"t/Note" []⟩)]

/-- `Note` again, which is refused, and `Hint`. -/
def more : List (Ns × Ext ExtArgs (List Nat)) :=
  [(.enhancement, ⟨cs!"Note", cs!"t/Other", noteHandler cs!"t/Other" []⟩),
   (.enhancement, ⟨cs!"Hint", cs!"t/Hint", noteHandler cs!"t/Hint" []⟩)]

def noted : Str := cs!"=== Plan\nRead[t => a:i64]\n  + Enh:Note[7]\n"

def hinted : Str := cs!"=== Plan\nRead[t => a:i64]\n  + Enh:Hint[7]\n"

/-- What is read from `noted`, if it is a plan with one relation. -/
def payload (r : Res PlanErr Plan) : List AnyMsg :=
  match r with
  | .ok ⟨_, _, _, [.rel (.node (.read _ _ _ _ (some ⟨some e, _⟩) _) _)]⟩ => [e]
  | _ => []

/-- What is missing for a text. -/
def lacking (r : Res PlanErr Plan) : List Str :=
  match r with
  | .err (.rel (.unregistered n)) => [n]
  | _ => []

end GrowSample

open GrowSample in
/-- The second registration changes nothing for `Note`, and is what makes `Hint` readable. -/
example : letI := halfTab
    payload (parsePlan (registryAfter first) noted) = [note 7] ∧
    payload (parsePlan (registryAfter (first ++ more)) noted) = [note 7] ∧
    lacking (parsePlan (registryAfter first) hinted) = [cs!"Hint"] ∧
    payload (parsePlan (registryAfter (first ++ more)) hinted) = [⟨cs!"t/Hint", [7]⟩] := by
  refine ⟨?_, ?_, ?_, ?_⟩ <;> decide +kernel

open GrowSample in
/-- The same in the other direction: without `Hint` the payload is an error. -/
example : letI := asciiTab; letI := halfTab
    let p := fun e => (⟨none, [], [], [.rel (.node (.filter none (some (.literal ⟨some (.bool true), false, 0⟩)) (some ⟨some e, []⟩))
      [some SamplePlan.readRows])]⟩ : Plan)
    (textPlan (registryAfter first) .default (p (note 7))).errs = [] ∧
    (textPlan (registryAfter first) .default (p ⟨cs!"t/Hint", [7]⟩)).errs ≠ [] ∧
    (textPlan (registryAfter (first ++ more)) .default (p ⟨cs!"t/Hint", [7]⟩)).errs = [] := by
  refine ⟨?_, ?_, ?_⟩ <;> decide +kernel

end Verif
