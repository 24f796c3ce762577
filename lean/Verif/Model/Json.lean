import Verif.Model.Base
/-!
# Merging protobuf descriptors

`src/json.rs`.  Decoding a descriptor blob is a parameter; a file descriptor is its name and an opaque
body.  The libraries that read JSON are parameters too.
-/

namespace Verif

set_option autoImplicit false

/-- `prost_types::FileDescriptorProto`. -/
structure FileDesc (D : Type) where
  name : Str
  body : D

variable {B D : Type}

/-- json.rs L52-56: the inner loop, with the names seen and the files kept so far. -/
def mergeFiles (seen : List Str) (files : List (FileDesc D)) : List (FileDesc D) → List Str × List (FileDesc D)
  | [] => (seen, files)
  | f :: l => if seen.contains f.name then mergeFiles seen files l else mergeFiles (f.name :: seen) (files ++ [f]) l

/-- json.rs L49-57: the outer loop; `none` is a blob that does not decode. -/
def mergeBlobs (decode : B → Option (List (FileDesc D))) (seen : List Str) (files : List (FileDesc D)) :
    List B → Option (List (FileDesc D))
  | [] => some files
  | b :: bs =>
    match decode b with
    | none => none
    | some extra => mergeBlobs decode (mergeFiles seen files extra).1 (mergeFiles seen files extra).2 bs

/-- json.rs L36-57: the files handed to `DescriptorPool::decode`. -/
def mergedFiles (decode : B → Option (List (FileDesc D))) (core : B) (extra : List B) : Option (List (FileDesc D)) :=
  match decode core with
  | none => none
  | some files => mergeBlobs decode (files.map (·.name)) files extra

/-- What json.rs takes from other crates: `pool` is `DescriptorPool::decode` of the encoded files (L59),
`naive` is `serde_json::from_str::<Plan>` (L81), `dynamic` is `DynamicMessage::deserialize` with the
descriptor of `substrait.Plan` (L87-95), encoded again, and `plan` is `Plan::decode` (L97). -/
structure JsonLib (B D P : Type) where
  decode : B → Option (List (FileDesc D))
  core : B
  pool : List (FileDesc D) → Bool
  naive : Str → Option P
  dynamic : List (FileDesc D) → Str → Option (List Nat)
  plan : List Nat → Option P

/-- json.rs L36-60 `build_descriptor_pool`; a pool is the files it was built from. -/
def JsonLib.build {P : Type} (j : JsonLib B D P) (extra : List B) : Option (List (FileDesc D)) :=
  match mergedFiles j.decode j.core extra with
  | none => none
  | some files => if j.pool files then some files else none

/-- json.rs L79-98 `parse_json`. -/
def JsonLib.parse {P : Type} (j : JsonLib B D P) (pool : List (FileDesc D)) (text : Str) : Option P :=
  match j.naive text with
  | some p => some p
  | none =>
    match j.dynamic pool text with
    | none => none
    | some bytes => j.plan bytes

/-- cli.rs L352-356: JSON input with the descriptors of the registry. -/
def JsonLib.read {P : Type} (j : JsonLib B D P) (extra : List B) (text : Str) : Option P :=
  match j.build extra with
  | none => none
  | some pool => j.parse pool text

end Verif
