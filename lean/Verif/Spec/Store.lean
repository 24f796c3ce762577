import Verif.Model.Store
/-!
# Specification of the extension store

What a user expects of a history of declarations, stated directly on the history without
reference to the store: the first acceptable declaration of an anchor wins.
-/

namespace Verif.StoreSpec

/-- One call in a history of declarations. -/
inductive Op where
  | urn (name : Str) (anchor : Nat)
  | ext (kind : Kind) (urn anchor : Nat) (name : Str)
  | unmapped
  deriving DecidableEq, Repr

/-- The call as executed by the model. -/
def exec (s : Store) : Op → Store × Option InsertError
  | .urn n a => s.addUrn n a
  | .ext k u a n => s.addExt k u a n
  | .unmapped => (s, some .missingMappingType)

/-- The store after a history. -/
def run (h : List Op) : Store := h.foldl (fun s op => (exec s op).1) Store.empty

/-- The spelling under which a declared name is known: types may carry a `u!` marker, which is
not part of the name; for the other kinds such a spelling is illegal. -/
def legalName (k : Kind) (n : Str) : Option Str :=
  match k with
  | .type => some (if cs!"u!".isPrefixOf n then n.drop 2 else n)
  | _ => if cs!"u!".isPrefixOf n then none else some n

/-- First URN declared for an anchor. -/
def firstUrn (h : List Op) (a : Nat) : Option Str :=
  h.findSome? fun
    | .urn n b => if b = a then some n else none
    | _ => none

/-- First legal declaration for an anchor and kind: its URN reference and its name. -/
def firstExt (h : List Op) (a : Nat) (k : Kind) : Option (Nat × Str) :=
  h.findSome? fun
    | .ext k' u b n => if b = a ∧ k' = k then (legalName k n).map (u, ·) else none
    | _ => none

/-- What the call `op` must answer after the history `h`. -/
def answer (h : List Op) : Op → Option InsertError
  | .urn n a => (firstUrn h a).map fun prev => .duplicateUrnAnchor a prev n
  | .ext k u a n =>
    match legalName k n with
    | none => some (.invalidName k n)
    | some n =>
      match firstExt h a k, firstUrn h u with
      | some (_, prev), none => some (.duplicateAndMissingUrn k a prev n u)
      | some (_, prev), some _ => some (.duplicateAnchor k a prev n)
      | none, none => some (.missingUrn k a n u)
      | none, some _ => none
  | .unmapped => some .missingMappingType

/-- All the errors of a sequence of calls, in order, given what happened before. -/
def answers (past : List Op) : List Op → List InsertError
  | [] => []
  | op :: rest => (answer past op).toList ++ answers (past ++ [op]) rest

/-- The calls made when a plan's declaration lists are loaded. -/
def planOps (urns : List (Nat × Str)) (decls : List Store.Decl) : List Op :=
  urns.map (fun p => .urn p.2 p.1) ++
  decls.map fun
    | none => .unmapped
    | some (k, u, a, n) => .ext k u a n

end Verif.StoreSpec

namespace Verif.StoreSpec

/-- `written` is an acceptable way to write the declared function name `stored`: with a `:` it
must be the whole name, without one it may leave out the signature. -/
def SpelledBy (stored written : Str) : Prop :=
  stored = written ∨ (':' ∉ written ∧ ∃ sig, stored = written ++ ':' :: sig)

/-- `a` is declared with kind `k` under the name `n`. -/
def Declared (s : Store) (k : Kind) (a : Nat) (n : Str) : Prop :=
  ∃ u, s.findByAnchor k a = .ok (u, n)

/-- The function `a` is what `written` (with an optional explicit anchor) unambiguously means. -/
def Means (s : Store) (written : Str) (explicit : Option Nat) (a : Nat) : Prop :=
  (∃ n, Declared s .function a n ∧ SpelledBy n written) ∧
  match explicit with
  | some b => b = a
  | none => ∀ b n, Declared s .function b n → SpelledBy n written → b = a

/-- `b` is the name `n` without its signature. -/
def BareName (n b : Str) : Prop := ':' ∉ b ∧ (n = b ∨ ∃ sig, n = b ++ ':' :: sig)

/-- Another declaration of the kind has the same name. -/
def Twin (s : Store) (k : Kind) (a : Nat) (n : Str) : Prop := ∃ b, b ≠ a ∧ Declared s k b n

/-- Another function has the same name up to the signature. -/
def Rival (s : Store) (a : Nat) (n : Str) : Prop :=
  ∃ b m x, b ≠ a ∧ Declared s .function b m ∧ BareName n x ∧ BareName m x

end Verif.StoreSpec
