import Verif.Proofs.MeaningRels
import Verif.Props.Lines
/-!
# C84: what a text means

`Spec/Meaning.lean` says what each piece of syntax stands for.  Conversion yields a value exactly if this is what the
piece of syntax means; everything else is rejected.
-/

namespace Verif

open StoreSpec Grammar TreeSpec MeaningSpec

set_option autoImplicit false

/-- C84: types. -/
theorem C84_types (ops : List Op) (s : STy) (t : Ty) : convTy (run ops) s = .ok t ↔ TyMeans (run ops) s t :=
  convTy_means (Store.ordered_run ops) s t

/-- C84: literals. -/
theorem C84_literals [FTab] (ops : List Op) (s : SLit) (l : Literal) :
    convLit (run ops) s = .ok l ↔ LitMeans (run ops) s l :=
  convLit_means (Store.ordered_run ops) s l

/-- C84: expressions. -/
theorem C84_expressions [FTab] (ops : List Op) (s : SExpr) (e : Expr) :
    convExpr (run ops) s = .ok e ↔ ExprMeans (run ops) s e :=
  convExpr_means (Store.ordered_run ops) s e

/-- C84: the arguments and columns of extension relations and addenda. -/
theorem C84_arguments [FTab] (ops : List Op) (s : SArgs) (cols : List SCol) (a : ExtArgs) :
    convExtArgs (run ops) s cols = .ok a ↔ ArgsMean (run ops) s cols a :=
  convExtArgs_means (Store.ordered_run ops) s cols a

/-- C84: a line, given its addenda and its inputs. -/
theorem C84_lines [FTab] (ops : List Op) (reg : Registry ExtArgs (List Nat)) (as : List Addendum)
    (kids : List (Rel × Nat)) (line : SLine) (r : Rel) (w : Nat) :
    convLine (run ops) reg as kids line = .ok (r, w) ↔ LineMeans (run ops) reg as line kids r w :=
  convLine_means (Store.ordered_run ops) reg as kids line r w

/-- C84: trees of lines. -/
theorem C84_trees [FTab] (ops : List Op) (reg : Registry ExtArgs (List Nat)) (forest : List (RNode SLine SAddendum))
    (rels : List PlanRel) : convPlanRels (run ops) reg forest = .ok rels ↔ All2 (TopMeans (run ops) reg) forest rels :=
  convPlanRels_means (Store.ordered_run ops) reg forest rels

/-- C84: nothing means two things. -/
theorem C84_one_meaning [FTab] (ops : List Op) (reg : Registry ExtArgs (List Nat)) (t : RNode SLine SAddendum)
    (p q : PlanRel) (hp : TopMeans (run ops) reg t p) (hq : TopMeans (run ops) reg t q) : p = q := by
  have hp := (convPlanRel_means (Store.ordered_run ops) reg t p).2 hp
  have hq := (convPlanRel_means (Store.ordered_run ops) reg t q).2 hq
  rw [hp] at hq
  cases hq
  rfl

/-- C84: a plan that comes from a text is made of what the trees of its lines mean, under the declarations of the
text. -/
theorem C84_plan [FTab] (reg : Registry ExtArgs (List Nat)) (text : Str) (p : Plan) (h : parsePlan reg text = .ok p) :
    ∃ ops lines tails forest, TextSays text p.version ops lines tails ∧ lines = listings 0 forest ∧
      All2 (TopMeans (run ops) reg) forest p.rels := by
  obtain ⟨ops, lines, tails, forest, h1, _, _, _, _, h2, h3⟩ := parsePlan_says h
  exact ⟨ops, lines, tails, forest, h1, h2, (C84_trees ops reg forest p.rels).1 h3⟩

-- the hypothesis is met by the text of the sample plan
example : letI := asciiTab; letI := halfTab
    ∃ p', parsePlan sampleReg (textPlan sampleReg .default samplePlan).text = .ok p' :=
  letI := asciiTab; letI := halfTab
  let ⟨p', h, _⟩ := (C46_plan_round_trip asciiTab_printable _ _ readable_default _ (samplePlan_ok _ rfl) samplePlan_complete).2
  ⟨p', h⟩

namespace MeaningSample

/-- Two functions of one name, up to signatures, and a type. -/
def ops : List Op :=
  [.urn cs!"urn:a" 1, .ext .function 1 3 cs!"add:i8_i8", .ext .function 1 4 cs!"add:i64_i64", .ext .type 1 7 cs!"point"]

def int (n : Nat) : IntTok := ⟨false, n⟩

-- a list of user types, named without anchor
example : TyMeans (run ops) (.list .nullable (.user cs!"point" none none .required none))
    (.list (some (.user 7 [] .required 0)) .nullable 0) := (C84_types _ _ _).1 (by decide +kernel)

-- unsigned integers mean nothing
example (t : Ty) : ¬ TyMeans (run ops) (.simple cs!"u8" .required) t := fun h => by
  cases h with
  | simple h => simp [builtIn] at h

-- an `i8` keeps 32 bits and has them wrapped
example : letI := halfTab
    LitMeans (run ops) ⟨.int (int (2 ^ 32 + 5)), some (.simple cs!"i8" .nullable)⟩ ⟨some (.int .i8 5), true, 0⟩ :=
  letI := halfTab
  ⟨some (.simple .i8 .nullable 0), .some (.simple (by simp [builtIn])), .int32 ⟨by decide, by decide⟩ (by decide)
    ⟨by decide, by decide⟩ (by decide)⟩

-- a name that two functions share needs its signature or an anchor
example : letI := halfTab
    ExprMeans (run ops) (.call cs!"add:i64_i64" none none [.ref (int 0), .lit ⟨.int (int 2), none⟩] (.simple cs!"i64" .required))
      (.call 4 [.value (.selection (.field 0 none)), .value (.literal ⟨some (.int .i64 2), false, 0⟩)] []
        (some (.simple .i64 .required 0))) :=
  letI := halfTab
  (C84_expressions _ _ _).1 (by decide +kernel)

example : letI := halfTab
    ∀ e, ¬ ExprMeans (run ops) (.call cs!"add" none none [] (.simple cs!"i64" .required)) e := by
  letI := halfTab
  intro e h
  have := (C84_expressions ops _ e).2 h
  have no : (match convExpr (run ops) (.call cs!"add" none none [] (.simple cs!"i64" .required)) with
    | .ok _ => true | _ => false) = false := by decide +kernel
  rw [this] at no
  cases no

/-- `Root[x]`, `Filter[$0 => $1, $0]`, `Read[t => a:boolean, b:i64]`. -/
def tree : RNode SLine SAddendum :=
  .mk (.root [cs!"x"]) [] [.mk (.filter (.ref (int 0)) [int 1, int 0]) []
    [.mk (.read [cs!"t"] (.implicit [(cs!"a", .simple cs!"boolean" .required), (cs!"b", .simple cs!"i64" .required)])) [] []]]

example : letI := halfTab
    TopMeans (run ops) {} tree (.root [cs!"x"] (some (.node (.filter (some ⟨some (.emit [1, 0]), 0⟩)
      (some (.selection (.field 0 none))) none) [some (.node (.read (some ⟨some .direct, 0⟩)
        (some ⟨[cs!"a", cs!"b"], some ⟨[.simple .boolean .required 0, .simple .i64 .required 0], 0, .required⟩⟩) none
        (.named [cs!"t"] 0) none 0) [])]))) := by
  letI := halfTab
  exact (convPlanRel_means (Store.ordered_run ops) _ _ _).1 (by rfl)

end MeaningSample

end Verif
