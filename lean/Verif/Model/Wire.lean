import Verif.Model.Examples
import Verif.Model.Tool
/-!
# The wire format of the shipped payloads

What `prost` derives for the three messages of `src/extensions/examples.rs` from their `#[prost(..)]` attributes.  `prost`
itself is not part of the repository: the functions on varints, keys, skipped fields and single fields follow its
documented encoding (`prost::encoding`), the fields, their types and their numbers are those of the attributes.
Bytes are numbers; `none` is any `DecodeError`.
-/

namespace Verif

set_option autoImplicit false

namespace Wire

/-! ## Varints and keys -/

/-- `encode_varint`, with at most `k` bytes before the last. -/
def varintN : Nat → Nat → Bytes
  | 0, n => [n]
  | k + 1, n => if n < 128 then [n] else (n % 128 + 128) :: varintN k (n / 128)

/-- `encode_varint` of an `u64`: seven bits a byte, the lowest first. -/
def varint (n : Nat) : Bytes := varintN 9 n

/-- `decode_varint`, with at most `k` bytes before the last; the tenth byte has one bit. -/
def readVarintN : Nat → Bytes → Option (Nat × Bytes)
  | _, [] => none
  | 0, b :: s => if b < 2 then some (b, s) else none
  | k + 1, b :: s =>
    if b < 128 then some (b, s) else (readVarintN k s).map fun r => (b % 128 + 128 * r.1, r.2)

/-- `decode_varint`. -/
def readVarint (s : Bytes) : Option (Nat × Bytes) := readVarintN 9 s

/-- `encode_key`. -/
def key (tag wt : Nat) : Bytes := varint (tag * 8 + wt)

/-- `decode_key`: 32 bits, a known wire type, a number other than zero. -/
def readKey (s : Bytes) : Option (Nat × Nat × Bytes) :=
  (readVarint s).bind fun r =>
    if 2 ^ 32 ≤ r.1 ∨ 5 < r.1 % 8 ∨ r.1 / 8 = 0 then none else some (r.1 / 8, r.1 % 8, r.2)

/-- `advance`: the next `n` bytes and the rest. -/
def splitBytes (n : Nat) (s : Bytes) : Option (Bytes × Bytes) :=
  if s.length < n then none else some (s.take n, s.drop n)

/-- A length and as many bytes. -/
def readDelimited (s : Bytes) : Option (Bytes × Bytes) := (readVarint s).bind fun r => splitBytes r.1 r.2

/-! ## Skipping -/

/-- The loop of `skip_field` over the fields of a group, for the function that skips one of them. -/
def skipGroup (skip : Nat → Nat → Bytes → Option Bytes) (tag : Nat) : Nat → Bytes → Option Bytes
  | 0, _ => none
  | n + 1, s =>
    (readKey s).bind fun r =>
      if r.2.1 = 4 then (if r.1 = tag then some r.2.2 else none)
      else (skip r.1 r.2.1 r.2.2).bind (skipGroup skip tag n)

/-- `skip_field` at `d` levels above the recursion limit. -/
def skipField : Nat → Nat → Nat → Bytes → Option Bytes
  | 0, _, _, _ => none
  | d + 1, tag, wt, s =>
    match wt with
    | 0 => (readVarint s).map (·.2)
    | 1 => (splitBytes 8 s).map (·.2)
    | 2 => (readDelimited s).map (·.2)
    | 3 => skipGroup (skipField d) tag s.length s
    | 5 => (splitBytes 4 s).map (·.2)
    | _ => none

/-- `RECURSION_LIMIT`. -/
def recursionLimit : Nat := 100

/-! ## Fields -/

/-- `i64 as u64`, also of an `i32` first widened to `i64`. -/
def unsign (i : Int) : Nat := (i % 2 ^ 64).toNat

/-- `u64 as i64`. -/
def sign64 (n : Nat) : Int := if n < 2 ^ 63 then n else (n : Int) - 2 ^ 64

/-- `u64 as i32`. -/
def sign32 (n : Nat) : Int := if n % 2 ^ 32 < 2 ^ 31 then (n % 2 ^ 32 : Nat) else ((n % 2 ^ 32 : Nat) : Int) - 2 ^ 32

/-- `int64` fields; the default is not written. -/
def putInt (tag : Nat) (i : Int) : Bytes := if i = 0 then [] else key tag 0 ++ varint (unsign i)

/-- `int64::merge`. -/
def getInt (wt : Nat) (s : Bytes) : Option (Int × Bytes) :=
  if wt ≠ 0 then none else (readVarint s).map fun r => (sign64 r.1, r.2)

/-- `bool` fields. -/
def putBool (tag : Nat) (b : Bool) : Bytes := if b then key tag 0 ++ varint 1 else []

/-- `bool::merge`. -/
def getBool (wt : Nat) (s : Bytes) : Option (Bool × Bytes) :=
  if wt ≠ 0 then none else (readVarint s).map fun r => (decide (r.1 ≠ 0), r.2)

/-- `string` fields. -/
def putString (tag : Nat) (t : Str) : Bytes :=
  if t = [] then [] else key tag 2 ++ varint (utf8 t).length ++ utf8 t

/-- `string::merge`. -/
def getString (wt : Nat) (s : Bytes) : Option (Str × Bytes) :=
  if wt ≠ 2 then none else
    (readDelimited s).bind fun r => (readUtf8 r.1).map fun t => (t, r.2)

/-- The values of a packed field, one after the other. -/
def packed (l : List Int) : Bytes := l.flatMap fun i => varint (unsign i)

/-- Repeated enumerations are packed. -/
def putEnums (tag : Nat) (l : List Int) : Bytes :=
  if l = [] then [] else key tag 2 ++ varint (packed l).length ++ packed l

/-- `merge_loop` over the bytes of a packed field. -/
def unpack : Nat → Bytes → Option (List Int)
  | _, [] => some []
  | 0, _ :: _ => none
  | n + 1, s => (readVarint s).bind fun r => (unpack n r.2).map (sign32 r.1 :: ·)

/-- `int32::merge_repeated`: packed, or one value. -/
def getEnums (wt : Nat) (s : Bytes) : Option (List Int × Bytes) :=
  if wt = 2 then (readDelimited s).bind fun r => (unpack r.1.length r.1).map fun l => (l, r.2)
  else if wt = 0 then (readVarint s).map fun r => ([sign32 r.1], r.2)
  else none

/-! ## Messages -/

/-- `Message::merge`: fields until the bytes end; `field` merges one. -/
def readFields {M : Type} (field : M → Nat → Nat → Bytes → Option (M × Bytes)) : Nat → M → Bytes → Option M
  | _, m, [] => some m
  | 0, _, _ :: _ => none
  | n + 1, m, s =>
    (readKey s).bind fun r => (field m r.1 r.2.1 r.2.2).bind fun x => readFields field n x.1 x.2

/-- `Message::decode`: merge into the default. -/
def readMessage {M : Type} (field : M → Nat → Nat → Bytes → Option (M × Bytes)) (m : M) (s : Bytes) : Option M :=
  readFields field s.length m s

/-- A field the message does not have. -/
def otherField {M : Type} (m : M) (tag wt : Nat) (s : Bytes) : Option (M × Bytes) :=
  (skipField recursionLimit tag wt s).map fun s => (m, s)

/-- extensions/examples.rs L95-104: `merge_field` of `PartitionHint`. -/
def partitionField (m : PartitionHint) (tag wt : Nat) (s : Bytes) : Option (PartitionHint × Bytes) :=
  if tag = 1 then (getEnums wt s).map fun r => (⟨m.strategies ++ r.1, m.count⟩, r.2)
  else if tag = 2 then (getInt wt s).map fun r => (⟨m.strategies, r.1⟩, r.2)
  else otherField m tag wt s

/-- extensions/examples.rs L195-199: `merge_field` of `PlanHint`. -/
def planField (m : PlanHint) (tag wt : Nat) (s : Bytes) : Option (PlanHint × Bytes) :=
  if tag = 1 then (getString wt s).map fun r => (⟨r.1⟩, r.2)
  else otherField m tag wt s

/-- extensions/examples.rs L271-281: `merge_field` of `BlobStoreRead`. -/
def blobField (m : BlobStoreRead) (tag wt : Nat) (s : Bytes) : Option (BlobStoreRead × Bytes) :=
  if tag = 1 then (getString wt s).map fun r => (⟨r.1, m.limit, m.includeArchived⟩, r.2)
  else if tag = 2 then (getInt wt s).map fun r => (⟨m.path, r.1, m.includeArchived⟩, r.2)
  else if tag = 3 then (getBool wt s).map fun r => (⟨m.path, m.limit, r.1⟩, r.2)
  else otherField m tag wt s

/-- extensions/examples.rs L95-104 `PartitionHint`. -/
def partition : Wire PartitionHint where
  encode h := putEnums 1 h.strategies ++ putInt 2 h.count
  decode := readMessage partitionField ⟨[], 0⟩

/-- extensions/examples.rs L195-199 `PlanHint`. -/
def plan : Wire PlanHint where
  encode h := putString 1 h.hint
  decode := readMessage planField ⟨[]⟩

/-- extensions/examples.rs L271-281 `BlobStoreRead`. -/
def blob : Wire BlobStoreRead where
  encode b := putString 1 b.path ++ putInt 2 b.limit ++ putBool 3 b.includeArchived
  decode := readMessage blobField ⟨[], 0, false⟩

end Wire

end Verif
