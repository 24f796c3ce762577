import Verif.Model.Base
/-!
# The extension registry and access to extension arguments

`src/extensions/registry.rs` and the access part of `src/extensions/args.rs`.  Handlers are opaque
functions; the types of arguments (`A`) and of contexts (`C`) are parameters.
-/

namespace Verif

set_option autoImplicit false

/-- extensions/any.rs L8-12 `Any`; bytes are numbers. -/
structure AnyMsg where
  typeUrl : Str
  value : List Nat
  deriving DecidableEq

/-- extensions/registry.rs L99-108 `ExtensionType`. -/
inductive Ns where
  | relation
  | extensionTable
  | enhancement
  | optimization
  deriving DecidableEq

/-- extensions/registry.rs L181-228 `ExtensionError`, as far as the crate itself builds it; `other`
stands for errors of user code. -/
inductive ExtErr where
  | notFound (name : Str)
  | missing (name : Str)
  | conversion (name : Str)
  | unhandledPositional (n : Nat)
  | unknownNamed (names : List Str)
  | expectedNamedColumn
  | countMismatch (names types : Nat)
  | other (code : Nat)
  deriving DecidableEq

/-- extensions/registry.rs L152-178 `RegistrationError`. -/
inductive RegErr where
  | duplicateName (ns : Ns) (name : Str)
  | conflictingTypeUrl (ns : Ns) (url existing : Str)
  deriving DecidableEq

/-- extensions/registry.rs L374-382 `ExtensionConverter`. -/
structure Handler (A C : Type) where
  parse : A → Except ExtErr AnyMsg
  textify : AnyMsg → C → Except ExtErr A

/-- A Rust type that implements `Extension`: `T::name()`, `T::type_url()` and its handler. -/
structure Ext (A C : Type) where
  name : Str
  url : Str
  handler : Handler A C

/-- extensions/registry.rs L424-437 `ExtensionRegistry`: two hash maps, as association lists with
at most one entry per key.  The descriptor blobs are modelled in `Model/Json.lean`. -/
structure Registry (A C : Type) where
  handlers : List ((Ns × Str) × Handler A C) := []
  urls : List ((Ns × Str) × Str) := []

/-- `HashMap::get`. -/
def hGet {α : Type} (m : List ((Ns × Str) × α)) (k : Ns × Str) : Option α :=
  match m with
  | [] => none
  | (k', v) :: m => if k' = k then some v else hGet m k

/-- `HashMap::insert`. -/
def hInsert {α : Type} (m : List ((Ns × Str) × α)) (k : Ns × Str) (v : α) : List ((Ns × Str) × α) :=
  (k, v) :: m.filter fun e => !decide (e.1 = k)

variable {A C : Type}

/-- extensions/registry.rs L461-494 `register`: the registry afterwards and the error, if any. -/
def Registry.register (r : Registry A C) (ns : Ns) (e : Ext A C) : Registry A C × Option RegErr :=
  if (hGet r.handlers (ns, e.name)).isSome then (r, some (.duplicateName ns e.name))
  else
    match hGet r.urls (ns, e.url) with
    | some existing =>
      if existing ≠ e.name then (r, some (.conflictingTypeUrl ns e.url existing))
      else (⟨hInsert r.handlers (ns, e.name) e.handler, hInsert r.urls (ns, e.url) e.name⟩, none)
    | none => (⟨hInsert r.handlers (ns, e.name) e.handler, hInsert r.urls (ns, e.url) e.name⟩, none)

/-- extensions/registry.rs L592-606 `parse_with_type`. -/
def Registry.parse (r : Registry A C) (ns : Ns) (name : Str) (args : A) : Except ExtErr AnyMsg :=
  match hGet r.handlers (ns, name) with
  | none => .error (.notFound name)
  | some h => h.parse args

/-- extensions/registry.rs L673-700 `decode_with_type_and_context`. -/
def Registry.decode (r : Registry A C) (ns : Ns) (detail : AnyMsg) (ctx : C) : Except ExtErr (Str × A) :=
  match hGet r.urls (ns, detail.typeUrl) with
  | none => .error (.notFound detail.typeUrl)
  | some name =>
    match hGet r.handlers (ns, name) with
    | none => .error (.notFound name)
    | some h =>
      match h.textify detail ctx with
      | .ok args => .ok (name, args)
      | .error e => .error e

/-- Order of Rust strings: byte order, which for UTF-8 is the order of the characters. -/
def strLe : Str → Str → Bool
  | [], _ => true
  | _ :: _, [] => false
  | a :: s, b :: t => if a.toNat < b.toNat then true else if b.toNat < a.toNat then false else strLe s t

/-- `Vec::dedup`. -/
def dedup : List Str → List Str
  | [] => []
  | [a] => [a]
  | a :: b :: l => if a = b then dedup (b :: l) else a :: dedup (b :: l)

/-- extensions/registry.rs L703-718 `extension_names`. -/
def Registry.names (r : Registry A C) (ns : Ns) : List Str :=
  dedup ((r.urls.filterMap fun e => if e.1.1 = ns then some e.2 else none).mergeSort strLe)

/-- extensions/registry.rs L721-723 `has_extension`. -/
def Registry.has (r : Registry A C) (ns : Ns) (name : Str) : Bool := (hGet r.handlers (ns, name)).isSome

/-! ## Access to arguments -/

/-- extensions/args.rs L192-199 `ExtensionArgs` without the output columns; `named` is an
`IndexMap`, in insertion order. -/
structure ArgSet (V : Type) where
  positional : List V := []
  named : List (Str × V) := []

/-- extensions/args.rs L211-215 `ArgsAccess`: what has been looked at. -/
structure Seen where
  handled : List Str := []
  positional : Bool := false

/-- `IndexMap::get`. -/
def getKey {V : Type} (l : List (Str × V)) (n : Str) : Option V :=
  match l with
  | [] => none
  | (k, v) :: l => if k = n then some v else getKey l n

/-- `Explainable::from_args`, which is user code: it can look at the arguments through the two
primitive operations of `ArgsAccess`, in any order and depending on what it saw, and in the end
returns a value or an error. -/
inductive Reader (V α : Type) where
  | done (r : Except ExtErr α)
  | positional (k : List V → Reader V α)
  | named (n : Str) (k : Option V → Reader V α)

variable {V α : Type}

/-- extensions/args.rs L227-244 `positional`, `get_named_arg`. -/
def Reader.run (a : ArgSet V) (s : Seen) : Reader V α → Except ExtErr α × Seen
  | .done r => (r, s)
  | .positional k => (k a.positional).run a { s with positional := true }
  | .named n k =>
    match getKey a.named n with
    | some v => (k (some v)).run a { s with handled := n :: s.handled }
    | none => (k none).run a s

/-- extensions/args.rs L248-262 `get_named`, for a conversion `f`. -/
def Reader.getNamed {β : Type} (n : Str) (f : V → Option β) (k : Option β → Reader V α) : Reader V α :=
  .named n fun v =>
    match v with
    | none => k none
    | some v =>
      match f v with
      | some b => k (some b)
      | none => .done (.error (.conversion n))

/-- extensions/args.rs L294-304 `expect_named`. -/
def Reader.expectNamed {β : Type} (n : Str) (f : V → Option β) (k : β → Reader V α) : Reader V α :=
  Reader.getNamed n f fun v =>
    match v with
    | some b => k b
    | none => .done (.error (.missing n))

/-- extensions/args.rs L307-336 `finish`. -/
def finish (a : ArgSet V) (s : Seen) : Except ExtErr Unit :=
  if s.positional = false ∧ a.positional ≠ [] then .error (.unhandledPositional a.positional.length)
  else
    let un := (a.named.map (·.1)).filter fun n => !s.handled.contains n
    if un = [] then .ok () else .error (.unknownNamed (un.mergeSort strLe))

/-- extensions/args.rs L717-725 `parse`. -/
def parseArgs (a : ArgSet V) (r : Reader V α) : Except ExtErr α :=
  match r.run a {} with
  | (.error e, _) => .error e
  | (.ok v, s) =>
    match finish a s with
    | .error e => .error e
    | .ok _ => .ok v

end Verif
