import Verif.Model.Base
/-!
# Ordered maps

Model of `std::collections::BTreeMap` as used by the crate: an association list kept
sorted by key.  Keys carry an injective rank giving the `Ord` order.
-/

namespace Verif

/-- The `Ord` instance of a key type, given by an injective rank into `Nat`. -/
class Key (κ : Type) where
  rank : κ → Nat
  inj : ∀ a b, rank a = rank b → a = b

instance : Key Nat := ⟨id, fun _ _ h => h⟩

/-- `BTreeMap<K, V>`: entries in increasing key order. -/
abbrev OMap (κ α : Type) := List (κ × α)

namespace OMap
variable {κ α : Type} [Key κ]

/-- `BTreeMap::get`. -/
def find? (m : OMap κ α) (k : κ) : Option α :=
  match m with
  | [] => none
  | (k', v) :: rest => if Key.rank k' = Key.rank k then some v else find? rest k

/-- `Entry::Vacant(v) => v.insert(..)`: put a new key at its sorted position.  An occupied
entry is left alone (callers check first, as the Rust code does through `Entry`). -/
def insertNew (m : OMap κ α) (k : κ) (v : α) : OMap κ α :=
  match m with
  | [] => [(k, v)]
  | (k', v') :: rest =>
    if Key.rank k < Key.rank k' then (k, v) :: (k', v') :: rest
    else if Key.rank k' = Key.rank k then (k', v') :: rest
    else (k', v') :: insertNew rest k v

/-- Strictly increasing keys: the representation invariant of a `BTreeMap`. -/
def Sorted (m : OMap κ α) : Prop :=
  m.Pairwise fun a b => Key.rank a.1 < Key.rank b.1

end OMap
end Verif
