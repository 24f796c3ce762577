import Verif.Proofs.HazardsFree
import Verif.Props.SamplePlan
/-!
# Property C49 for whole plan texts
-/

namespace Verif

set_option autoImplicit false

open StoreSpec TextSpec Grammar HazardSpec

/-- C49, what is true of it: the parser panics only on a text that has one of the listed hazards: a
declaration followed by something else or with a number that is not an anchor, or a line of the plan
with a number out of range, a type that is not implemented, a repeated argument, or a part that does
not convert and is followed by others. -/
theorem C49_panics_explained_partial [FTab] (reg : Registry ExtArgs (List Nat)) (text : Str)
    (h : parsePlan reg text = .panic) : ExtHazard text ∨ PlanHazard text :=
  parsePlan_panic h

/-- C49: none of the hazards is harmless; an accepted text has a reading without any. -/
theorem C49_accepted_without_hazard [FTab] (reg : Registry ExtArgs (List Nat)) (text : Str) (p : Plan)
    (h : parsePlan reg text = .ok p) :
    ∃ ops lines tails, TextSays text p.version ops lines tails ∧ answers [] ops = [] ∧
      ∀ l ∈ lines, ¬ NodeHazard (run ops) l.2 :=
  parsePlan_safe h

/-- C49: a line of the extensions section is never both a declaration and a hazard of the first
sort: declarations are read to their end. -/
theorem C49_declarations_read_whole (i j : IntTok) (n u x y : Str) :
    (DeclText i j n x → pDecl x = some ((i, j, n), [])) ∧ (UrnDeclText i u y → pUrnDecl y = some ((i, u), [])) :=
  ⟨pDecl_complete, pUrnDecl_complete⟩

/-- Whether a text makes the parser panic. -/
def planPanics [FTab] (text : Str) : Bool :=
  match parsePlan {} text with
  | .panic => true
  | _ => false

/-- C49 fails: each sort of hazard makes the parser panic on some text. -/
theorem C49_every_hazard_panics : letI := halfTab
    ∀ text ∈ [
      cs!"=== Extensions\nURNs:\n  @  1: /urn tail\n",
      cs!"=== Extensions\nURNs:\n  @ 4294967296: /urn\n",
      cs!"=== Extensions\nURNs:\n  @  1: /urn\nFunctions:\n  #  1 @  1: f(\n",
      cs!"=== Extensions\nURNs:\n  @  1: /urn\nFunctions:\n  # -1 @  1: f\n",
      cs!"=== Plan\nFilter[$2147483648 => $0]\n  Read[t => a:i64]\n",
      cs!"=== Plan\nFilter[$0 => $2147483648]\n  Read[t => a:i64]\n",
      cs!"=== Plan\nProject[9223372036854775808]\n  Read[t => a:i64]\n",
      cs!"=== Plan\nRead[t => a:u8]\n",
      cs!"=== Plan\nRead[t => a:struct<i64>]\n",
      cs!"=== Plan\nFilter[g():boolean => $0]\n  Read[t => a:i64]\n",
      cs!"=== Plan\nFetch[limit=1, limit=2 => $0]\n  Read[t => a:i64]\n"],
    planPanics text = true := by
  decide +kernel

/-- The same unknown function is an error where nothing is left to be read. -/
example : letI := halfTab
    (match parsePlan {} cs!"=== Plan\nProject[g():boolean]\n  Read[t => a:i64]\n" with
      | .err _ => true | _ => false) = true := by decide +kernel

/-- The hazard of the first text. -/
example : ExtHazard cs!"=== Extensions\nURNs:\n  @  1: /urn tail\n" := by
  refine ⟨[], _, [cs!"URNs:\n"], cs!"  @  1: /urn tail\n", [], by rfl, by rfl, ?_, ?_⟩
  · intro b hb r
    rw [List.mem_singleton.1 hb, show trimEnd cs!"URNs:\n" = cs!"URNs:" from by decide]
    simp
  · rw [show trimEnd cs!"  @  1: /urn tail\n" = cs!"  " ++ (cs!"@  1: /urn" ++ cs!" tail") from by decide]
    refine .urnTail (i := ⟨false, 1⟩) (u := cs!"/urn") ?_ ?_
    · exact ⟨cs!"@  1", cs!" ", ⟨cs!"  ", cs!"1", by simp [Sp], .pos ⟨by simp, by simp [Digit], rfl⟩, rfl⟩,
        by simp [Sp], by simp, by decide, rfl⟩
    · intro j v hv
      have := pUrnDecl_complete hv
      have h2 : pUrnDecl (cs!"@  1: /urn" ++ cs!" tail") = some ((⟨false, 1⟩, cs!"/urn"), cs!" tail") := by rfl
      rw [h2] at this
      cases this

/-- The hypothesis of the second theorem is met, with an anchor and a reference of the largest size. -/
example : letI := halfTab
    (match parsePlan {} (cs!"=== Extensions\nURNs:\n  @ 4294967295: /urn\nFunctions:\n  # 4294967295 @ 4294967295: f\n" ++
        cs!"=== Plan\nFilter[f($2147483647):boolean => $0]\n  Read[t => a:i64]\n") with
      | .ok _ => true | _ => false) = true := by decide +kernel

end Verif
