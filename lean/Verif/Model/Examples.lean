import Verif.Model.ExtArgs
/-!
# Conversions of argument values, the adapter between handlers and payloads, the shipped handlers

The `TryFrom` conversions of `src/extensions/args.rs`, `ExtensionAdapter` of
`src/extensions/registry.rs` and the three handlers of `src/extensions/examples.rs`.

The protobuf encoding (`prost`) is a parameter; `Model/Wire.lean` has it for the shipped messages.
Errors other than those that `ExtErr` names carry a number.
-/

namespace Verif

set_option autoImplicit false

/-! ## Conversions of values -/

/-- extensions/args.rs L557-566: `&str` of a value. -/
def ExtValue.asStr : ExtValue → Option Str
  | .string s => some s
  | _ => none

/-- extensions/args.rs L584-596: `EnumValue` of a value. -/
def ExtValue.asEnum : ExtValue → Option Str
  | .enum s => some s
  | _ => none

/-- extensions/args.rs L598-607: `&TupleValue` of a value. -/
def ExtValue.asTuple : ExtValue → Option (List ExtValue)
  | .tuple vs => some vs
  | _ => none

/-- extensions/args.rs L609-618: `i64` of a value. -/
def ExtValue.asInt : ExtValue → Option Int
  | .integer i => some i
  | _ => none

/-- extensions/args.rs L620-629: `f64` of a value. -/
def ExtValue.asFloat : ExtValue → Option Nat
  | .float f => some f
  | _ => none

/-- extensions/args.rs L631-640: `bool` of a value. -/
def ExtValue.asBool : ExtValue → Option Bool
  | .boolean b => some b
  | _ => none

/-- extensions/args.rs L87-106 `as_direct_reference`. -/
def Expr.directRef : Expr → Option Int
  | .selection (.field i none) => some i
  | _ => none

/-- extensions/args.rs L642-657: `Reference` of a value. -/
def ExtValue.asRef : ExtValue → Option Int
  | .expr e => e.directRef
  | _ => none

/-- extensions/args.rs L135-183: the expression for a scalar. -/
def litExpr (l : Lit) : Expr := .literal ⟨some l, false, 0⟩

/-- extensions/args.rs L659-682: `Expr` of a value; scalars are widened to literals. -/
def ExtValue.asExpr : ExtValue → Option Expr
  | .expr e => some e
  | .integer i => some (litExpr (.int .i64 i))
  | .float f => some (litExpr (.fp64 f))
  | .string s => some (litExpr (.string s))
  | .boolean b => some (litExpr (.bool b))
  | _ => none

/-- extensions/args.rs L271-294 `get_named_tuple`, for a conversion `f` of the elements. -/
def Reader.getNamedTuple {α β : Type} (n : Str) (f : ExtValue → Option β) (k : Option (List β) → Reader ExtValue α) :
    Reader ExtValue α :=
  Reader.getNamed n (fun v => v.asTuple.bind fun vs => vs.mapM f) k

/-! ## The adapter -/

/-- The errors without a name of their own: `TypeUrlMismatch`, `DecodeFailed`, `InvalidArgumentType`,
`InvalidArgument` (extensions/registry.rs L181-228). -/
def errTypeUrl : ExtErr := .other 1
def errDecode : ExtErr := .other 2
def errArgType : ExtErr := .other 3
def errArg : ExtErr := .other 4

/-- `prost::Message` of a type: its encoding. -/
structure Wire (T : Type) where
  encode : T → List Nat
  decode : List Nat → Option T

/-- An encoding from which every message is decoded again. -/
structure MsgCodec (T : Type) extends Wire T where
  law : ∀ t, decode (encode t) = some t

instance (T : Type) : Coe (MsgCodec T) (Wire T) := ⟨MsgCodec.toWire⟩

/-- A type that implements `prost::Name` and `Explainable` (extensions/registry.rs L340-359).
`from_args` may look at the output columns without being noticed, so they are an argument. -/
structure Explain (T : Type) where
  name : Str
  url : Str
  fromArgs : List ExtColumn → Reader ExtValue T
  toArgs : T → List Nat → Except ExtErr ExtArgs

/-- extensions/args.rs L716-724 `ExtensionArgs::parse`. -/
def Explain.parse {T : Type} (x : Explain T) (a : ExtArgs) : Except ExtErr T :=
  parseArgs ⟨a.positional, a.named⟩ (x.fromArgs a.columns)

/-- extensions/any.rs L92-102 `Any::encode`, through registry.rs L251-253. -/
def Explain.toAny {T : Type} (x : Explain T) (c : Wire T) (t : T) : AnyMsg := ⟨x.url, c.encode t⟩

/-- extensions/any.rs L30-42 `AnyRef::decode`, through registry.rs L255-257. -/
def Explain.fromAny {T : Type} (x : Explain T) (c : Wire T) (d : AnyMsg) : Except ExtErr T :=
  if d.typeUrl ≠ x.url then .error errTypeUrl
  else
    match c.decode d.value with
    | some t => .ok t
    | none => .error errDecode

/-- extensions/registry.rs L400-413: `ExtensionAdapter` as a handler. -/
def Explain.ext {T : Type} (x : Explain T) (c : Wire T) : Ext ExtArgs (List Nat) where
  name := x.name
  url := x.url
  handler :=
    { parse := fun a =>
        match x.parse a with
        | .error e => .error e
        | .ok t => .ok (x.toAny c t)
      textify := fun d ctx =>
        match x.fromAny c d with
        | .error e => .error e
        | .ok t => x.toArgs t ctx }

/-! ## The shipped handlers -/

/-- extensions/examples.rs L29-39 `PartitionStrategy`. -/
inductive Strategy where
  | unspecified
  | hash
  | range
  | broadcast
  deriving DecidableEq

/-- extensions/examples.rs L31-38: the discriminants. -/
def Strategy.num : Strategy → Int
  | .unspecified => 0
  | .hash => 1
  | .range => 2
  | .broadcast => 3

/-- `TryFrom<i32>`, derived by `prost::Enumeration` from those. -/
def Strategy.ofNum (i : Int) : Option Strategy :=
  if i = 0 then some .unspecified
  else if i = 1 then some .hash
  else if i = 2 then some .range
  else if i = 3 then some .broadcast
  else none

/-- extensions/examples.rs L43-50 `as_str_name`. -/
def Strategy.name : Strategy → Str
  | .unspecified => cs!"UNSPECIFIED"
  | .hash => cs!"HASH"
  | .range => cs!"RANGE"
  | .broadcast => cs!"BROADCAST"

/-- extensions/examples.rs L53-61 `from_str_name`. -/
def Strategy.ofName (s : Str) : Option Strategy :=
  if s = cs!"UNSPECIFIED" then some .unspecified
  else if s = cs!"HASH" then some .hash
  else if s = cs!"RANGE" then some .range
  else if s = cs!"BROADCAST" then some .broadcast
  else none

/-- extensions/examples.rs L95-104 `PartitionHint`. -/
structure PartitionHint where
  strategies : List Int
  count : Int
  deriving DecidableEq

/-- extensions/examples.rs L125-140: one positional argument. -/
def strategyArg (v : ExtValue) : Except ExtErr Int :=
  match v.asEnum with
  | none => .error errArgType
  | some s =>
    match Strategy.ofName s with
    | some x => .ok x.num
    | none => .error errArg

/-- `Iterator::collect` into a `Result`: the first error, or all values. -/
def collect {α β : Type} (f : α → Except ExtErr β) : List α → Except ExtErr (List β)
  | [] => .ok []
  | a :: l =>
    match f a with
    | .error e => .error e
    | .ok b =>
      match collect f l with
      | .error e => .error e
      | .ok bs => .ok (b :: bs)

/-- extensions/examples.rs L119-165. -/
def partitionHint : Explain PartitionHint where
  name := cs!"PartitionHint"
  url := cs!"type.googleapis.com/example.PartitionHint"
  fromArgs _ := .positional fun ps =>
    Reader.getNamed cs!"count" ExtValue.asInt fun count =>
      .done (match collect strategyArg ps with
        | .error e => .error e
        | .ok l => .ok ⟨l, count.getD 0⟩)
  toArgs h _ := .ok
    { positional := h.strategies.map fun i => .enum ((Strategy.ofNum i).getD .unspecified).name
      named := if h.count ≠ 0 then [(cs!"count", .integer h.count)] else [] }

/-- extensions/examples.rs L195-199 `PlanHint`. -/
structure PlanHint where
  hint : Str
  deriving DecidableEq

/-- extensions/examples.rs L215-239. -/
def planHint : Explain PlanHint where
  name := cs!"PlanHint"
  url := cs!"type.googleapis.com/example.PlanHint"
  fromArgs _ := .positional fun ps =>
    if ps ≠ [] then .done (.error errArg)
    else Reader.expectNamed cs!"hint" ExtValue.asStr fun s => .done (.ok ⟨s⟩)
  toArgs h _ := .ok { named := [(cs!"hint", .string h.hint)] }

/-- extensions/examples.rs L271-281 `BlobStoreRead`. -/
structure BlobStoreRead where
  path : Str
  limit : Int
  includeArchived : Bool
  deriving DecidableEq

/-- extensions/examples.rs L297-340. -/
def blobStoreRead : Explain BlobStoreRead where
  name := cs!"BlobStoreRead"
  url := cs!"type.googleapis.com/example.BlobStoreRead"
  fromArgs cols := .positional fun ps =>
    match ps with
    | [p] =>
      if cols ≠ [] then .done (.error errArg)
      else
        match p.asStr with
        | none => .done (.error errArgType)
        | some path =>
          Reader.getNamed cs!"limit" ExtValue.asInt fun limit =>
            Reader.getNamed cs!"include_archived" ExtValue.asBool fun arch =>
              .done (.ok ⟨path, limit.getD 0, arch.getD false⟩)
    | _ => .done (.error errArg)
  toArgs r _ := .ok
    { positional := [.string r.path]
      named := (if r.limit ≠ 0 then [(cs!"limit", .integer r.limit)] else []) ++
        (if r.includeArchived then [(cs!"include_archived", .boolean true)] else []) }

/-- extensions/examples.rs L343-355 `registry`; `none` where an `expect` panics. -/
def exampleRegistry (c1 : Wire PartitionHint) (c2 : Wire PlanHint) (c3 : Wire BlobStoreRead) :
    Option (Registry ExtArgs (List Nat)) :=
  match Registry.register {} .enhancement (partitionHint.ext c1) with
  | (_, some _) => none
  | (r, none) =>
    match r.register .optimization (planHint.ext c2) with
    | (_, some _) => none
    | (r, none) =>
      match r.register .extensionTable (blobStoreRead.ext c3) with
      | (_, some _) => none
      | (r, none) => some r

end Verif
