import Verif.Proofs.Scope
import Verif.Props.SamplePlan
import Verif.Props.Exprs
/-!
C80: the numbers of column references are never compared with the columns there are.
-/

namespace Verif

set_option autoImplicit false

open StoreSpec TextSpec RelSpec PlanSpec ScopeSpec

/-- What a text is written as after it was read, and what is reported. -/
def reread [UTab] [FTab] (reg : Registry ExtArgs (List Nat)) (text : Str) : Option (Str × List Str) :=
  match parsePlan reg text with
  | .ok p => some ((textPlan reg .default p).text, (textPlan reg .default p).errs)
  | _ => none

/-! ## C80 -/

/-- C80 fails in reading, and completely: exchanging the column references of a relation and of everything below it
for any others changes nothing about whether it is accepted, how many columns it has, or why it is refused. -/
theorem C80_unchecked [FTab] (f : IntTok → IntTok) (g : Int → Int) (h : Moves f g) (st : Store)
    (reg : Registry ExtArgs (List Nat)) (t : RNode SLine SAddendum) :
    SameOutcome (convNode st reg t) (convNode st reg (tree f t)) := by
  have := convNode_move h st reg t
  revert this
  cases convNode st reg t <;> cases convNode st reg (tree f t) <;> exact id

/-- C80 fails in reading, for all relations of a plan. -/
theorem C80_plan_unchecked [FTab] (f : IntTok → IntTok) (g : Int → Int) (h : Moves f g) (st : Store)
    (reg : Registry ExtArgs (List Nat)) (l : List (RNode SLine SAddendum)) :
    SameVerdict (convPlanRels st reg l) (convPlanRels st reg (trees f l)) := by
  have := convPlanRels_move h st reg l
  revert this
  cases convPlanRels st reg l <;> cases convPlanRels st reg (trees f l) <;> exact id

/-- C80 fails in formatting for the references inside expressions: whichever columns they name, exactly as much is
reported. -/
theorem C80_expression_silent [UTab] [FTab] (g : Int → Int) (h : List Op) (o : Opts) (e : Expr) :
    (textExpr (run h) o e).errs = [] ↔ (textExpr (run h) o (moveExpr g e)).errs = [] := by
  rw [C38_expression_errors, C38_expression_errors, completeExpr_move]

/-- C80 in part: what formatting does compare.  In a plan that is formatted without an error and without showing
emits, every output mapping picks columns that the relation has, at any depth.  Missing: the mappings of reads of
named tables (`C80_read_silent`), and all references inside expressions (`C80_expression_silent`). -/
theorem C80_mappings_partial [UTab] [FTab] (reg : Registry ExtArgs (List Nat)) (o : Opts) (p : Plan)
    (ho : o.showEmit = false) (h : (textPlan reg o p).errs = []) (op : RelOp) (ins : List (Option Rel))
    (hs : ShownIn p (.node op ins)) (hn : namedRead op = false) (m : List Int) (hm : opMapping op = some m) :
    ∀ i ∈ m, 0 ≤ i ∧ i.toNat < (directColumns ⟨run (history p), o, reg⟩ (writtenWidths ⟨run (history p), o, reg⟩ ins) op).length := by
  have hc := ((textPlan_errs reg o p).1 h).2
  obtain ⟨t, ht, r, hr, hs⟩ := hs
  have hcr : CompleteRel ⟨run (history p), o, reg⟩ r := by
    have := hc t ht
    rcases hr with rfl | ⟨ns, rfl⟩ <;> exact this
  have := (completeRel_shown hs hcr)
  rw [CompleteRel] at this
  have := this.2.1
  unfold ColumnsShown at this
  simp only [hm, ho, hn, Bool.or_self, Bool.false_eq_true, if_false] at this
  intro i hi
  obtain ⟨h0, q, hq, -⟩ := this i hi
  exact ⟨h0, (List.getElem?_eq_some_iff.1 hq).1⟩

/-! ### Examples -/

namespace ScopeSample

/-- Exchanges `$0` and `$7`. -/
def swap (i : Int) : Int := if i = 0 then 7 else if i = 7 then 0 else i

/-- The same for what is written. -/
def swapTok (t : IntTok) : IntTok := if t.toInt = 0 then ⟨false, 7⟩ else if t.toInt = 7 then ⟨false, 0⟩ else t

theorem moves : Moves swapTok swap where
  value i := by
    unfold swapTok
    split
    · next h =>
      have e : i.toI32 = some 0 := by simp [IntTok.toI32, h]
      rw [e]; rfl
    · split
      · next h =>
        have e : i.toI32 = some 7 := by simp [IntTok.toI32, h]
        rw [e]; rfl
      · next h1 h2 =>
        unfold IntTok.toI32
        split
        · simp [swap, h1, h2]
        · rfl
  inj a b h := by unfold swap at h; split at h <;> split at h <;> (try split at h) <;> (try split at h) <;> omega

/-- A read of one column. -/
def read : RNode SLine SAddendum := .mk (.read [cs!"t"] (.implicit [(cs!"a", .simple cs!"i64" .required)])) [] []

/-- A filter on it that uses its column. -/
def filter : RNode SLine SAddendum := .mk (.filter (.ref ⟨false, 0⟩) [⟨false, 0⟩]) [] [read]

/-- A filter on it that uses a column that does not exist. -/
def filter7 : RNode SLine SAddendum := .mk (.filter (.ref ⟨false, 7⟩) [⟨false, 7⟩]) [] [read]

example : tree swapTok filter = filter7 := rfl

end ScopeSample

example : letI := halfTab; SameOutcome (convNode (run []) sampleReg ScopeSample.filter) (convNode (run []) sampleReg ScopeSample.filter7) :=
  letI := halfTab; C80_unchecked _ _ ScopeSample.moves _ _ _

example : letI := halfTab
    (match convNode (run []) sampleReg ScopeSample.filter7 with | .ok r => some r.2 | _ => none) = some 1 := by decide +kernel

/-- C80 fails: a filter on a column that does not exist is read, and written again without an error. -/
theorem C80_filter_silent : letI := asciiTab; letI := halfTab
    let text := cs!"=== Plan\nFilter[$7 => $0]\n  Read[t => a:i64]\n"
    reread sampleReg text = some (text, []) := by decide +kernel

/-- C80 fails: so is a read of a table that puts out a column the table does not have. -/
theorem C80_read_silent : letI := asciiTab; letI := halfTab
    let text := cs!"=== Plan\nRead[t +> a:i64 |> $5]\n"
    reread sampleReg text = some (text, []) := by decide +kernel

/-- C80: an output mapping that picks a column that does not exist is read, but reported in formatting. -/
theorem C80_mapping_reported : letI := asciiTab; letI := halfTab
    reread sampleReg cs!"=== Plan\nFilter[$0 => $5]\n  Read[t => a:i64]\n" =
      some (cs!"=== Plan\nFilter[$0 => !{Emitted}]\n  Read[t => a:i64]\n", [cs!"Emitted"]) := by decide +kernel

end Verif
