import Verif.Model.Registry
/-!
# What a registry should be

A registration is accepted when no accepted one in the same namespace has its name or its type URL.
-/

namespace Verif

set_option autoImplicit false
variable {A C V α : Type}

/-- Two registrations that exclude each other. -/
abbrev Clash (x y : Ns × Ext A C) : Prop := x.1 = y.1 ∧ (x.2.name = y.2.name ∨ x.2.url = y.2.url)

/-- The accepted registrations of a history, after those already accepted. -/
def acceptedFrom (acc : List (Ns × Ext A C)) : List (Ns × Ext A C) → List (Ns × Ext A C)
  | [] => acc
  | x :: h => if ∃ y ∈ acc, Clash y x then acceptedFrom acc h else acceptedFrom (acc ++ [x]) h

/-- The accepted registrations of a history. -/
def accepted (h : List (Ns × Ext A C)) : List (Ns × Ext A C) := acceptedFrom [] h

/-- The registry after a history of registrations, starting empty. -/
def registryAfter (h : List (Ns × Ext A C)) : Registry A C := h.foldl (fun r x => (r.register x.1 x.2).1) {}

/-! ## Argument access -/

/-- One look at the arguments. -/
inductive Look where
  | positional
  | named (n : Str)
  deriving DecidableEq

/-- Everything a handler looks at. -/
def Reader.looks (a : ArgSet V) : Reader V α → List Look
  | .done _ => []
  | .positional k => .positional :: (k a.positional).looks a
  | .named n k => .named n :: (k (getKey a.named n)).looks a

/-- What a handler itself answers. -/
def Reader.answer (a : ArgSet V) : Reader V α → Except ExtErr α
  | .done r => r
  | .positional k => (k a.positional).answer a
  | .named n k => (k (getKey a.named n)).answer a

end Verif
