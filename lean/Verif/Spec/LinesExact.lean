import Verif.Spec.Supported
import Verif.Spec.ExprsExact
/-!
# Which lines of filters, projections, sorts, fetches, joins, sets and crosses survive

Like `OpOk`, but exact: what the line of a relation has to be made of for it to be read back.
-/

namespace Verif.RelSpec
open StoreSpec TextSpec

set_option autoImplicit false

/-- Columns are numbered with 31 bits: there are not more of them than that. -/
def Countable (reg : Registry ExtArgs (List Nat)) (ws : List Nat) (op : RelOp) : Prop :=
  ws.sum ≤ 2 ^ 31 ∧ directWidth reg ws op + outWidth reg ws op ≤ 2 ^ 31

/-- Every column put out is one of the `n` direct columns. -/
def Among (n : Nat) (m : List Int) : Prop := ∀ i ∈ m, 0 ≤ i ∧ i < (n : Int)

/-- Sort fields with an expression that survives and one of the four ordered directions. -/
def SurvivesSort [UTab] [FTab] (st : Store) (o : Opts) (f : SortField) : Prop :=
  ∃ e d, f = ⟨some e, some (.direction (.known d))⟩ ∧ SurvivesExpr st o e ∧ d ≠ .unspecified ∧ d ≠ .clustered

/-- Limits and offsets: numbers that are not negative, unless their type is shown, or expressions that survive and are not
numbers. -/
def SurvivesCount [UTab] [FTab] (st : Store) (o : Opts) : Count → Prop
  | .deprecated i => 0 ≤ i ∧ i < 2 ^ 63
  | .expr e => (o.litTypes ≠ .always ∧ ∃ i, e = number i ∧ 0 ≤ i ∧ i < 2 ^ 63) ∨ (SurvivesExpr st o e ∧ ¬ Numeric e)

/-- Columns whose names and types survive. -/
def SurvivesColumns [UTab] (st : Store) (o : Opts) (s : Option NamedStruct) : Prop :=
  ∃ cols : List (Str × Ty), s = some ⟨cols.map (·.1), some ⟨cols.map (·.2), 0, .required⟩⟩ ∧
    ∀ c ∈ cols, Spellable c.1 ∧ SurvivesTy st o.anchors c.2

/-- Lines that survive, for inputs of the widths `ws`. -/
def SurvivesLine [UTab] [FTab] (st : Store) (o : Opts) (ws : List Nat) : RelOp → Prop
  | .read c schema filter (.named names k) _ rest => ws = [] ∧ hints c = 0 ∧ rest = 0 ∧ k = 0 ∧ filter = none ∧
      names ≠ [] ∧ (∀ n ∈ names, Spellable n) ∧ SurvivesColumns st o schema ∧
      -- the mapping is read as it is, even if it names columns that do not exist
      ∀ m, mapping c = some m → ∀ i ∈ m, InI32 i
  | .read c schema filter (.virtual rows k) _ rest => ws = [] ∧ hints c = 0 ∧ rest = 0 ∧ k = 0 ∧ mapping c = none ∧
      (∀ r ∈ rows, ∀ e ∈ r, SurvivesExpr st o e) ∧ (∀ e, filter = some e → SurvivesExpr st o e) ∧ SurvivesColumns st o schema
  | .filter c cond _ => ws.length = 1 ∧ hints c = 0 ∧ (∃ e, cond = some e ∧ SurvivesExpr st o e) ∧
      Among ws.sum (shown ws.sum c)
  | .project c exprs _ => ws.length = 1 ∧ hints c = 0 ∧
      Among (ws.sum + exprs.length) (shown (ws.sum + exprs.length) c) ∧
      -- expressions that are not put out do not matter
      ∀ i ∈ shown (ws.sum + exprs.length) c, ∀ e, (ws.sum : Int) ≤ i → exprs[i.toNat - ws.sum]? = some e → SurvivesExpr st o e ∧
        -- a plain reference is read as the column it refers to
        ∀ j, e = .selection (.field j none) → 0 ≤ j ∧ j < (ws.sum : Int)
  | .sort c sorts _ => ws.length = 1 ∧ hints c = 0 ∧ sorts ≠ [] ∧ (∀ f ∈ sorts, SurvivesSort st o f) ∧
      Among ws.sum (shown ws.sum c)
  | .fetch c count offset _ => ws.length = 1 ∧ hints c = 0 ∧ (∀ x, count = some x → SurvivesCount st o x) ∧
      (∀ x, offset = some x → SurvivesCount st o x) ∧ Among ws.sum (shown ws.sum c)
  | .join c ty cond post _ => ws.length = 2 ∧ hints c = 0 ∧
      (∃ t, ty = .known t ∧ t ≠ .unspecified ∧
        Among (joinColumns t (ws.getD 0 0) (ws.getD 1 0)) (shown (joinColumns t (ws.getD 0 0) (ws.getD 1 0)) c) ∧
        -- the parser takes all columns of both inputs for the direct columns
        (shown (joinColumns t (ws.getD 0 0) (ws.getD 1 0)) c = identity ws.sum →
          joinColumns t (ws.getD 0 0) (ws.getD 1 0) = ws.sum)) ∧
      (∃ e, cond = some e ∧ SurvivesExpr st o e) ∧ ∀ e, post = some e → SurvivesExpr st o e
  | .set c op _ => 2 ≤ ws.length ∧ hints c = 0 ∧ (∃ t, op = .known t ∧ t ≠ .unspecified) ∧
      (∀ w ∈ ws, w = ws.headD 0) ∧ Among (ws.headD 0) (shown (ws.headD 0) c)
  | .cross c _ => ws.length = 2 ∧ hints c = 0 ∧ Among ws.sum (shown ws.sum c)
  | _ => False

/-- The line of a relation is read as a relation that means the same, given the inputs `kids` with their widths; addenda
have lines of their own and are left out here. -/
def LineBack [UTab] [FTab] (env : Env) (kids : List (Rel × Nat)) (op : RelOp) : Prop :=
  ∃ line rest op' ins w, pRelLine (textHeader env.o 0 (relHead env (kids.map fun k => some k.2) op)).text = some (line, rest) ∧
    convLine env.st env.reg [] kids line = .ok (.node op' ins, w) ∧ OpEquiv env.reg (kids.map (·.2)) op op'

/-- The same, and moreover the relation read has these inputs and the width the printed relation has. -/
def LineKept [UTab] [FTab] (env : Env) (kids : List (Rel × Nat)) (op : RelOp) : Prop :=
  ∃ line rest op' ins w, ins = kids.map (fun k => some k.1) ∧ w = outWidth env.reg (kids.map (·.2)) op ∧
    pRelLine (textHeader env.o 0 (relHead env (kids.map fun k => some k.2) op)).text = some (line, rest) ∧
    convLine env.st env.reg [] kids line = .ok (.node op' ins, w) ∧ OpEquiv env.reg (kids.map (·.2)) op op'

/-- The line of a relation at depth `lvl`, without the indentation of its first line. -/
def lineText [UTab] [FTab] (env : Env) (lvl : Nat) (ws : List (Option Nat)) (op : RelOp) : Str :=
  (textHeader env.o lvl (relHead env ws op)).text.drop (indentAt env.o lvl).length

/-- `LineBack` at any depth. -/
def LineBackAt [UTab] [FTab] (env : Env) (lvl : Nat) (kids : List (Rel × Nat)) (op : RelOp) : Prop :=
  ∃ line rest op' ins w, pRelLine (lineText env lvl (kids.map fun k => some k.2) op) = some (line, rest) ∧
    convLine env.st env.reg [] kids line = .ok (.node op' ins, w) ∧ OpEquiv env.reg (kids.map (·.2)) op op'

/-- `LineKept` at any depth. -/
def LineKeptAt [UTab] [FTab] (env : Env) (lvl : Nat) (kids : List (Rel × Nat)) (op : RelOp) : Prop :=
  ∃ line rest op' ins w, ins = kids.map (fun k => some k.1) ∧ w = outWidth env.reg (kids.map (·.2)) op ∧
    pRelLine (lineText env lvl (kids.map fun k => some k.2) op) = some (line, rest) ∧
    convLine env.st env.reg [] kids line = .ok (.node op' ins, w) ∧ OpEquiv env.reg (kids.map (·.2)) op op'

end Verif.RelSpec
