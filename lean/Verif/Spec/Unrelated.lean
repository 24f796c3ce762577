import Verif.Spec.Store
/-!
# Specification: declarations that have nothing to do with each other
-/

namespace Verif.UnrelSpec

set_option autoImplicit false

open StoreSpec

/-- The names `n` and `m` are the same up to their signatures, the parts from the first `:` on. -/
def SameBase (n m : Str) : Prop :=
  ∃ b x y, ':' ∉ b ∧ n = b ++ x ∧ m = b ++ y ∧
    (x = [] ∨ ∃ s, x = ':' :: s) ∧ (y = [] ∨ ∃ s, y = ':' :: s)

/-- `s'` declares everything `s` does, and whatever it declares beyond that has, up to its signature,
a name that `s` does not give to any declaration of that kind. -/
structure Widens (s s' : Store) : Prop where
  keeps : ∀ k a u n, s.findByAnchor k a = .ok (u, n) → s'.findByAnchor k a = .ok (u, n)
  fresh : ∀ k a n, Declared s' k a n → Declared s k a n ∨ ∀ b m, Declared s k b m → ¬ SameBase m n

/-- The same for the declarations of plans. -/
structure DeclsWiden (ds ds' : List Store.Decl) : Prop where
  keeps : ∀ k u a n, some (k, u, a, n) ∈ ds → some (k, u, a, n) ∈ ds'
  fresh : ∀ k u a n, some (k, u, a, n) ∈ ds' → some (k, u, a, n) ∈ ds ∨
    ∀ v b m, some (k, v, b, m) ∈ ds → ¬ SameBase m n

/-- None of the declarations `more` shares its name, up to its signature, with a declaration of its kind
in `ds`. -/
def Unrelated (ds more : List Store.Decl) : Prop :=
  ∀ k u a n n' v b m m', some (k, u, a, n) ∈ more → legalName k n = some n' →
    some (k, v, b, m) ∈ ds → legalName k m = some m' → ¬ SameBase m' n'

end Verif.UnrelSpec
