import Verif.Model.Located
import Verif.Spec.PlanLines
/-!
# Where an error is

Stated over physical lines.  A line is counted together with the continuation lines below it
(`ChunkSpec.DashUnder`); its number is the number of its first physical line.
-/

namespace Verif.LocSpec

set_option autoImplicit false

open ChunkSpec Grammar TreeSpec

/-- Trees and lines with contexts. -/
abbrev LNode := RNode (SLine × Ctx) (SAddendum × Ctx)
abbrev LLine := LineNode (SLine × Ctx) (SAddendum × Ctx)

mutual
/-- A tree without its contexts. -/
def forget : LNode → RNode SLine SAddendum
  | .mk r as cs => .mk r.1 (as.map (·.1)) (forgets cs)
/-- Trees without their contexts. -/
def forgets : List LNode → List (RNode SLine SAddendum)
  | [] => []
  | t :: l => forget t :: forgets l
end

/-- A line without its context. -/
def bare : LLine → LineNode SLine SAddendum
  | .relation r => .relation r.1
  | .addendum a => .addendum a.1

/-- The lines `before ++ (f :: run) ++ after` have, after `before`, a line with its continuation lines; `c`
has its number and shows a part of it that starts after its indentation and is not empty. -/
structure At (before : List Str) (f : Str) (run : List Str) (c : Ctx) : Prop where
  no : c.no = before.length + 1
  below : ∀ l ∈ run, DashUnder (depthOf (content f)) (content l)
  shown : ∃ k tail, (f :: run).flatten = List.replicate k ' ' ++ (c.line ++ tail)
  something : c.line ≠ []

/-- A context names a line of the text. -/
def Names (text : Str) (c : Ctx) : Prop :=
  ∃ before f run after, physLines text = before ++ (f :: run) ++ after ∧ At before f run c

/-- Trees whose lines have been read from the text: every context names a line of the text and shows the
spelling of what was read, and the numbers increase from line to line. -/
structure From (text : Str) (forest : List LNode) : Prop where
  names : ∀ x ∈ listings 0 forest, Names text (ctxOf x.2) ∧ NodeText (bare x.2) (ctxOf x.2).line
  increasing : ((listings 0 forest).map fun x => (ctxOf x.2).no).Pairwise (· < ·)

/-- Trees below a tree, itself included. -/
inductive Within : LNode → LNode → Prop
  | self {t : LNode} : Within t t
  | kid {r : SLine × Ctx} {as : List (SAddendum × Ctx)} {ks : List LNode} {k t : LNode} :
      k ∈ ks → Within k t → Within (.mk r as ks) t

/-- Errors that are always about the line of a relation. -/
def OnRelation : RErr → Prop
  | .arity | .inputFields | .widths | .badInteger | .negative | .notGrouping | .rootChildren => True
  | _ => False

/-- Errors that are always about the line of an addendum. -/
def OnAddendum : RErr → Prop
  | .doubleEnhancement | .misplacedExt | .noAddenda | .rootAddenda => True
  | _ => False

/-- The name an error complains about is on the line with this context. -/
def Mentions (t : LNode) (c : Ctx) : RErr → Prop
  | .unregistered name => (t.rel.2 = c ∧ ∃ kind args cols, t.rel.1 = .ext kind name args cols) ∨
      ∃ a ∈ t.addenda, a.2 = c ∧ a.1.name = name
  | _ => True

/-- `t` cannot be converted although everything below it can; `c` is the context of its line or of one of
its addenda. -/
structure Blames [FTab] (st : Store) (reg : Registry ExtArgs (List Nat)) (t : LNode) (e : RErr) (c : Ctx) : Prop where
  below : ∃ ks, convKids st reg (forgets t.children) = .ok ks
  fails : convNode st reg (forget t) = .err e
  where_ : c = t.rel.2 ∨ ∃ a ∈ t.addenda, c = a.2
  relation : OnRelation e → c = t.rel.2
  addendum : OnAddendum e → ∃ a ∈ t.addenda, c = a.2
  mentions : Mentions t c e

/-- Why a top-level tree cannot be converted: a tree below it cannot, or it is a root with addenda, or a root
whose number of inputs is not one. -/
inductive BlamesTop [FTab] (st : Store) (reg : Registry ExtArgs (List Nat)) : LNode → RErr → Ctx → Prop
  | below {t u : LNode} {e : RErr} {c : Ctx} : Within t u → Blames st reg u e c → BlamesTop st reg t e c
  | addenda {names : List Str} {c : Ctx} {a : SAddendum × Ctx} {as : List (SAddendum × Ctx)} {ks : List LNode} :
      BlamesTop st reg (.mk (.root names, c) (a :: as) ks) .rootAddenda a.2
  | children {names : List Str} {c : Ctx} {ks : List LNode} : ks.length ≠ 1 →
      BlamesTop st reg (.mk (.root names, c) [] ks) .rootChildren c

end Verif.LocSpec
