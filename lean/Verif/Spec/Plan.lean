import Verif.Model.Plan
import Verif.Spec.Exprs
import Verif.Spec.Store
import Verif.Spec.Supported
/-!
# Which extension stores and plans can be written and read back
-/

namespace Verif.PlanSpec

set_option autoImplicit false

/-- A name the extensions section can hold: functions may carry a signature, the others may not. -/
def DeclName (k : Kind) (n : Str) : Prop :=
  match k with
  | .function => FunctionName n
  | _ => isIdentifier n = true

/-- A URN the extensions section can hold: nothing in it ends the URN or the line. -/
def UrnText (u : Str) : Prop :=
  u ≠ [] ∧ ' ' ∉ u ∧ '\n' ∉ u ∧ ∀ c, u.getLast? = some c → isWs c = false

/-- Every URN and every name is grammatical, anchors are 32-bit numbers, and every declaration
refers to a declared URN. -/
structure Sound (s : Store) : Prop where
  urns : ∀ e ∈ s.urns, e.1 < 2 ^ 32 ∧ UrnText e.2
  decls : ∀ e ∈ s.exts, e.1.1 < 2 ^ 32 ∧ DeclName e.1.2 e.2.2
  declared : ∀ e ∈ s.exts, ∃ u, (e.2.1, u) ∈ s.urns

/-! ## Plans -/

open StoreSpec TextSpec RelSpec

/-- Version numbers are 32-bit numbers, and the texts beside them fit on a line each. -/
def VersionOk (v : Option Version) : Prop :=
  ∀ x, v = some x → x.major < 2 ^ 32 ∧ x.minor < 2 ^ 32 ∧ x.patch < 2 ^ 32 ∧
    '\n' ∉ trim x.producer ∧ '\n' ∉ trim x.gitHash

/-- What a version says; no version says the same as an empty one. -/
def versionContent : Option Version → Version
  | none => ⟨0, 0, 0, [], []⟩
  | some v => { v with producer := trim v.producer, gitHash := trim v.gitHash }

/-- The version a plan is read back with: an empty one is not written, texts lose the white space
around them. -/
def keptVersion : Option Version → Option Version
  | none => none
  | some v => if v = ⟨0, 0, 0, [], []⟩ then none else some { v with producer := trim v.producer, gitHash := trim v.gitHash }

/-- The declarations of a plan. -/
def history (p : Plan) : List Op := planOps p.urns p.decls

/-- A relation at the top of a plan that has a faithful text. -/
def TopOk [UTab] [FTab] (env : Env) : PlanRel → Prop
  | .rel r => Supported env r
  | .root names (some r) => (∀ n ∈ names, Spellable n) ∧ Supported env r
  | _ => False

/-- Plans that have a faithful text when formatted with the options `o`: all declarations are
accepted and can be written, and so can all relations. -/
structure PlanOk [UTab] [FTab] (reg : Registry ExtArgs (List Nat)) (o : Opts) (p : Plan) : Prop where
  version : VersionOk p.version
  accepted : answers [] (history p) = []
  sound : Sound (run (history p))
  rels : ∀ r ∈ p.rels, TopOk ⟨run (history p), o, reg⟩ r

/-- The same output names, and relations that mean the same. -/
inductive TopEquiv (reg : Registry ExtArgs (List Nat)) : PlanRel → PlanRel → Prop where
  | rel (r r' : Rel) : Equiv reg r r' → TopEquiv reg (.rel r) (.rel r')
  | root (names : List Str) (r r' : Rel) : Equiv reg r r' → TopEquiv reg (.root names (some r)) (.root names (some r'))

/-- Two plans that mean the same: the same version, the same declarations under the same anchors, and
relations that mean the same in the same order. -/
structure PlanEquiv (reg : Registry ExtArgs (List Nat)) (p p' : Plan) : Prop where
  version : versionContent p.version = versionContent p'.version
  urns : ∀ a, firstUrn (history p) a = firstUrn (history p') a
  decls : ∀ a k, firstExt (history p) a k = firstExt (history p') a k
  rels : ∃ l : List (PlanRel × PlanRel), p.rels = l.map (·.1) ∧ p'.rels = l.map (·.2) ∧ ∀ q ∈ l, TopEquiv reg q.1 q.2

/-! ## Relations by position -/

/-- The relation reached by taking the numbered inputs one after the other. -/
def below : List Nat → Rel → Option Rel
  | [], r => some r
  | i :: path, .node _ ins =>
    match ins[i]? with
    | some (some r) => below path r
    | _ => none

/-- The relation at a position of a plan: one of the relations at the top, then a path. -/
def relAt (p : Plan) (k : Nat) (path : List Nat) : Option Rel :=
  match p.rels[k]? with
  | some (.rel r) => below path r
  | some (.root _ (some r)) => below path r
  | _ => none

/-- The output names of a root relation. -/
def namesAt (p : Plan) (k : Nat) : Option (List Str) :=
  match p.rels[k]? with
  | some (.root ns _) => some ns
  | _ => none

end Verif.PlanSpec
