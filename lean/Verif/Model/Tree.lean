import Verif.Model.Base
/-!
# Tree builder

Model of `TreeBuilder` (`src/parser/structural.rs`), generic in the syntax of a relation line
(`ρ`) and of an addendum line (`α`).  Both carry their line number inside `ρ`/`α`.
-/

namespace Verif

/-- structural.rs L68-74 `RelationNode` (`pair` and `line_no` are `rel`). -/
inductive RNode (ρ α : Type) where
  | mk (rel : ρ) (addenda : List α) (children : List (RNode ρ α))
  deriving Repr

namespace RNode
variable {ρ α : Type}

def rel : RNode ρ α → ρ | mk r _ _ => r
def addenda : RNode ρ α → List α | mk _ a _ => a
def children : RNode ρ α → List (RNode ρ α) | mk _ _ c => c

end RNode

/-- structural.rs L91-94 `LineNode`: a relation line has no addenda and no children yet. -/
inductive LineNode (ρ α : Type) where
  | relation (r : ρ)
  | addendum (a : α)
  deriving Repr, DecidableEq

/-- The ways `add_line` can refuse a line (structural.rs L233-276). -/
inductive TreeError where
  | noParent (depth : Nat)
  | topLevelAddendum
  | noParentForAddendum (depth : Nat)
  | addendumAfterChildren
  deriving DecidableEq, Repr

/-- structural.rs L203-210 `TreeBuilder`. -/
structure TreeBuilder (ρ α : Type) where
  current : Option (RNode ρ α)
  completed : List (RNode ρ α)

namespace TreeBuilder
variable {ρ α : Type}

/-- structural.rs `TreeBuilder::default`. -/
def empty : TreeBuilder ρ α := ⟨none, []⟩

/-- structural.rs L213-219 `get_at_depth` followed by an update of the node it returns: walk to
the last child `d` times and apply `f` there.  `none`: there is no such node.  `some (error e)`:
`f` refused. -/
def updateAt (d : Nat) (f : RNode ρ α → Except TreeError (RNode ρ α)) :
    RNode ρ α → Option (Except TreeError (RNode ρ α))
  | .mk r as cs =>
    match d with
    | 0 => some (f (.mk r as cs))
    | d + 1 =>
      match cs.getLast? with
      | none => none
      | some last =>
        match updateAt d f last with
        | none => none
        | some (.error e) => some (.error e)
        | some (.ok last') => some (.ok (.mk r as (cs.dropLast ++ [last'])))

/-- structural.rs L253 `parent.children.push(rel_node)`. -/
def pushChild (c p : RNode ρ α) : Except TreeError (RNode ρ α) :=
  .ok (.mk p.rel p.addenda (p.children ++ [c]))

/-- structural.rs L269-279: an addendum is refused once the parent has children. -/
def pushAddendum (a : α) (p : RNode ρ α) : Except TreeError (RNode ρ α) :=
  if p.children.isEmpty then .ok (.mk p.rel (p.addenda ++ [a]) p.children)
  else .error .addendumAfterChildren

/-- structural.rs L221-282 `add_line`. -/
def addLine (t : TreeBuilder ρ α) (depth : Nat) (n : LineNode ρ α) :
    Except TreeError (TreeBuilder ρ α) :=
  match n with
  | .relation r =>
    if depth = 0 then
      .ok ⟨some (.mk r [] []), t.completed ++ t.current.toList⟩
    else
      match t.current.bind (updateAt (depth - 1) (pushChild (.mk r [] []))) with
      | none => .error (.noParent depth)
      | some (.error e) => .error e
      | some (.ok c) => .ok { t with current := some c }
  | .addendum a =>
    if depth = 0 then .error .topLevelAddendum
    else
      match t.current.bind (updateAt (depth - 1) (pushAddendum a)) with
      | none => .error (.noParentForAddendum depth)
      | some (.error e) => .error e
      | some (.ok c) => .ok { t with current := some c }

/-- structural.rs L288-293 `finish`. -/
def finish (t : TreeBuilder ρ α) : List (RNode ρ α) := t.completed ++ t.current.toList

/-- Feed a list of lines (structural.rs L975-983, plan section). -/
def addLines (t : TreeBuilder ρ α) : List (Nat × LineNode ρ α) → Except TreeError (TreeBuilder ρ α)
  | [] => .ok t
  | (d, n) :: rest =>
    match t.addLine d n with
    | .error e => .error e
    | .ok t' => t'.addLines rest

/-- Trees built from the lines of a plan section. -/
def build (lines : List (Nat × LineNode ρ α)) : Except TreeError (List (RNode ρ α)) :=
  match (empty : TreeBuilder ρ α).addLines lines with
  | .error e => .error e
  | .ok t => .ok t.finish

end TreeBuilder
end Verif
