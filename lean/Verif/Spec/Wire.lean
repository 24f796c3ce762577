import Verif.Model.Examples
import Verif.Model.Tool
/-!
# Specification: bytes of the protobuf wire format

Written after the description of the format: a varint is a series of bytes with seven bits each, the lowest first, all but the
last with the highest bit set; a field is a key (its number and its wire type in one varint) and a value.
-/

namespace Verif.WireSpec

set_option autoImplicit false

/-- The number of which these bytes carry seven bits each. -/
def sevens : Bytes → Nat
  | [] => 0
  | b :: l => b % 128 + 128 * sevens l

/-- The bytes `bs` are a varint of 64 bits for `n`. -/
def IsVarint (bs : Bytes) (n : Nat) : Prop :=
  ∃ init last, bs = init ++ [last] ∧ (∀ b ∈ init, 128 ≤ b) ∧ last < 128 ∧ init.length ≤ 9 ∧ (init.length = 9 → last < 2) ∧
    n = sevens bs

/-- The bytes are the key of a field. -/
def IsKey (bs : Bytes) (tag wt : Nat) : Prop := 0 < tag ∧ tag < 2 ^ 29 ∧ wt ≤ 5 ∧ IsVarint bs (tag * 8 + wt)

/-- A field with this number, as bytes, of each wire type; fields nest at most `d` deep, itself included. -/
inductive Field : Nat → Nat → Bytes → Prop where
  | number {d tag n : Nat} {k v : Bytes} : IsKey k tag 0 → IsVarint v n → Field (d + 1) tag (k ++ v)
  | eight {d tag : Nat} {k v : Bytes} : IsKey k tag 1 → v.length = 8 → Field (d + 1) tag (k ++ v)
  | bytes {d tag : Nat} {k l v : Bytes} : IsKey k tag 2 → IsVarint l v.length → Field (d + 1) tag (k ++ (l ++ v))
  | group {d tag : Nat} {k e : Bytes} {fs : List (Nat × Bytes)} : IsKey k tag 3 → (∀ f ∈ fs, Field d f.1 f.2) → IsKey e tag 4 →
      Field (d + 1) tag (k ++ ((fs.map (·.2)).flatten ++ e))
  | four {d tag : Nat} {k v : Bytes} : IsKey k tag 5 → v.length = 4 → Field (d + 1) tag (k ++ v)

/-! ## What bytes mean -/

/-- The number of so many bits, in two's complement, whose lowest bits are those of `n`. -/
def Signed (bits n : Nat) (i : Int) : Prop :=
  -(2 ^ bits : Int) ≤ 2 * i ∧ 2 * i < 2 ^ bits ∧ (2 ^ bits : Int) ∣ n - i

/-- Varints one after the other. -/
inductive Varints : Bytes → List Nat → Prop where
  | nil : Varints [] []
  | cons {v w : Bytes} {n : Nat} {ns : List Nat} : IsVarint v n → Varints w ns → Varints (v ++ w) (n :: ns)

/-- These are the strategies of 32 bits for the numbers. -/
inductive Strategies : List Nat → List Int → Prop where
  | nil : Strategies [] []
  | cons {n : Nat} {i : Int} {ns : List Nat} {is : List Int} : Signed 32 n i → Strategies ns is → Strategies (n :: ns) (i :: is)

/-- Bytes that change a message field by field. -/
inductive Updates {M : Type} (Step : M → Bytes → M → Prop) : M → Bytes → M → Prop where
  | nil (m : M) : Updates Step m [] m
  | cons {m m' m'' : M} {b s : Bytes} : Step m b m' → Updates Step m' s m'' → Updates Step m (b ++ s) m''

/-- What a field means for a partition hint: field 1 are strategies, packed or one by one, which are added; field 2 is the
count, of which the last one counts; other fields mean nothing. -/
inductive PartitionStep : PartitionHint → Bytes → PartitionHint → Prop where
  | packed {m : PartitionHint} {k l v : Bytes} {ns : List Nat} {is : List Int} : IsKey k 1 2 → IsVarint l v.length → Varints v ns →
      Strategies ns is → PartitionStep m (k ++ (l ++ v)) ⟨m.strategies ++ is, m.count⟩
  | single {m : PartitionHint} {k v : Bytes} {n : Nat} {i : Int} : IsKey k 1 0 → IsVarint v n → Signed 32 n i →
      PartitionStep m (k ++ v) ⟨m.strategies ++ [i], m.count⟩
  | count {m : PartitionHint} {k v : Bytes} {n : Nat} {i : Int} : IsKey k 2 0 → IsVarint v n → Signed 64 n i →
      PartitionStep m (k ++ v) ⟨m.strategies, i⟩
  | other {m : PartitionHint} {tag : Nat} {b : Bytes} : 2 < tag → Field 100 tag b → PartitionStep m b m

/-- What a field means for a plan hint: field 1 is the hint, in UTF-8, of which the last one counts. -/
inductive PlanStep : PlanHint → Bytes → PlanHint → Prop where
  | hint {m : PlanHint} {k l : Bytes} {t : Str} : IsKey k 1 2 → IsVarint l (utf8 t).length → PlanStep m (k ++ (l ++ utf8 t)) ⟨t⟩
  | other {m : PlanHint} {tag : Nat} {b : Bytes} : 1 < tag → Field 100 tag b → PlanStep m b m

/-- What a field means for a blob read: field 1 is the path, field 2 the limit and field 3 the flag, of which the last ones
count. -/
inductive BlobStep : BlobStoreRead → Bytes → BlobStoreRead → Prop where
  | path {m : BlobStoreRead} {k l : Bytes} {t : Str} : IsKey k 1 2 → IsVarint l (utf8 t).length →
      BlobStep m (k ++ (l ++ utf8 t)) ⟨t, m.limit, m.includeArchived⟩
  | limit {m : BlobStoreRead} {k v : Bytes} {n : Nat} {i : Int} : IsKey k 2 0 → IsVarint v n → Signed 64 n i →
      BlobStep m (k ++ v) ⟨m.path, i, m.includeArchived⟩
  | unset {m : BlobStoreRead} {k v : Bytes} : IsKey k 3 0 → IsVarint v 0 → BlobStep m (k ++ v) ⟨m.path, m.limit, false⟩
  | set {m : BlobStoreRead} {k v : Bytes} {n : Nat} : IsKey k 3 0 → IsVarint v (n + 1) → BlobStep m (k ++ v) ⟨m.path, m.limit, true⟩
  | other {m : BlobStoreRead} {tag : Nat} {b : Bytes} : 3 < tag → Field 100 tag b → BlobStep m b m

end Verif.WireSpec
