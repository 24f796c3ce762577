import Verif.Model.Base
/-!
# The command line tool

`src/cli.rs`.  The four formats are parameters (`Codec`); files are modelled as a map from file
identities to contents, paths name identities, so that two paths may name one file.
-/

namespace Verif

set_option autoImplicit false

/-- cli.rs L302-307 `Format`. -/
inductive Fmt where
  | text | json | yaml | protobuf
  deriving DecidableEq

/-- `to_lowercase`, of ASCII letters.  No other character has a lower case that occurs in the
names compared with (the only foreign character with an ASCII lower case letter is the Kelvin
sign, `k`). -/
def lowerChar (c : Char) : Char := if 65 ≤ c.toNat ∧ c.toNat ≤ 90 then Char.ofNat (c.toNat + 32) else c

/-- cli.rs L309-323 `Format::from_str`. -/
def Fmt.ofName (s : Str) : Option Fmt :=
  let l := s.map lowerChar
  if l = cs!"text" then some .text
  else if l = cs!"json" then some .json
  else if l = cs!"yaml" then some .yaml
  else if l = cs!"protobuf" ∨ l = cs!"proto" ∨ l = cs!"pb" then some .protobuf
  else none

/-- `str::split`. -/
def splitOn (d : Char) : Str → List Str
  | [] => [[]]
  | c :: s =>
    if c = d then [] :: splitOn d s
    else match splitOn d s with
      | [] => [[c]]
      | p :: ps => (c :: p) :: ps

/-- `Path::file_name` on Unix: the last component, empty and `.` components skipped, unless `..`. -/
def fileName (path : Str) : Option Str :=
  match ((splitOn '/' path).filter fun p => !(p.isEmpty || p == cs!".")).getLast? with
  | none => none
  | some n => if n = cs!".." then none else some n

/-- The part after the last dot, and the part before it. -/
def lastDot : Str → Option (Str × Str)
  | [] => none
  | c :: s =>
    match lastDot s with
    | some (a, b) => some (c :: a, b)
    | none => if c = '.' then some ([], s) else none

/-- `Path::extension`: none for a name that only begins with a dot. -/
def extension (path : Str) : Option Str :=
  match fileName path with
  | none => none
  | some n =>
    match lastDot n with
    | none => none
    | some ([], _) => none
    | some (_ :: _, e) => some e

/-- cli.rs L327-344 `Format::from_extension`. -/
def Fmt.ofExtension (path : Str) : Option Fmt :=
  if path = cs!"-" then none
  else match extension path with
    | none => none
    | some e =>
      let l := e.map lowerChar
      if l = cs!"substrait" ∨ l = cs!"txt" then some .text
      else if l = cs!"json" then some .json
      else if l = cs!"yaml" ∨ l = cs!"yml" then some .yaml
      else if l = cs!"pb" ∨ l = cs!"proto" ∨ l = cs!"protobuf" then some .protobuf
      else none

abbrev Bytes := List Nat

/-- Reading and writing of plans (type `P`) with options of type `O`, by the rest of the crate and
by serde and prost.  Reading text may panic. -/
structure Codec (P O : Type) where
  readText : Bytes → Res Unit P
  readJson : Bytes → Option P
  readYaml : Bytes → Option P
  readProto : Bytes → Option P
  /-- `format_with_registry`: text and formatting errors -/
  writeText : O → P → Bytes × List Str
  writeJson : P → Option Bytes
  writeYaml : P → Option Bytes
  writeProto : P → Bytes
  defaults : O
  literalTypes : O

/-- Files and streams.  `broken i = some n`: writes to that file fail after `n` bytes. -/
structure World where
  file : Str → Nat
  content : Nat → Option Bytes
  openable : Str → Bool
  creatable : Str → Bool
  broken : Nat → Option Nat
  stdin : Bytes
  stdout : Bytes
  stdoutBroken : Option Nat

/-- Where a reader or writer points. -/
inductive Stream where
  | std
  | file (i : Nat)
  deriving DecidableEq

/-- cli.rs L456-462 `get_reader`: opening reads nothing. -/
def getReader (w : World) (path : Str) : Option Stream :=
  if path = cs!"-" then some .std
  else if w.openable path && (w.content (w.file path)).isSome then some (.file (w.file path))
  else none

/-- Replace the content of one file. -/
def World.set (w : World) (i : Nat) (b : Bytes) : World :=
  { w with content := fun j => if j = i then some b else w.content j }

/-- cli.rs L465-471 `get_writer`: `File::create` creates or truncates. -/
def getWriter (w : World) (path : Str) : Option (Stream × World) :=
  if path = cs!"-" then some (.std, w)
  else if w.creatable path then some (.file (w.file path), w.set (w.file path) [])
  else none

/-- What a reader returns. -/
def World.read (w : World) : Stream → Bytes
  | .std => w.stdin
  | .file i => (w.content i).getD []

/-- cli.rs L444-453: `write_all`, with success. -/
def World.write (w : World) (s : Stream) (b : Bytes) : Bool × World :=
  match s with
  | .std =>
    match w.stdoutBroken with
    | none => (true, { w with stdout := w.stdout ++ b })
    | some n => if b.length ≤ n then (true, { w with stdout := w.stdout ++ b })
      else (false, { w with stdout := w.stdout ++ b.take n })
  | .file i =>
    match w.broken i with
    | none => (true, w.set i ((w.content i).getD [] ++ b))
    | some n => if b.length ≤ n then (true, w.set i ((w.content i).getD [] ++ b))
      else (false, w.set i ((w.content i).getD [] ++ b.take n))

/-- Exit of the process. -/
inductive Exit where
  | success | failure | panic
  deriving DecidableEq

variable {P O : Type}

/-- cli.rs L346-373 `read_plan`. -/
def Codec.read (c : Codec P O) : Fmt → Bytes → Res Unit P
  | .text, b => c.readText b
  | .json, b => match c.readJson b with | some p => .ok p | none => .err ()
  | .yaml, b => match c.readYaml b with | some p => .ok p | none => .err ()
  | .protobuf, b => match c.readProto b with | some p => .ok p | none => .err ()

/-- cli.rs L375-426 `write_plan`, with the exit it leads to (L56-70). -/
def Codec.write (c : Codec P O) (o : O) (f : Fmt) (p : P) (w : World) (s : Stream) : Exit × World :=
  let plain (b : Bytes) := match w.write s b with
    | (true, w) => (Exit.success, w)
    | (false, w) => (Exit.failure, w)
  match f with
  | .text =>
    match w.write s (c.writeText o p).1 with
    | (true, w) => (if (c.writeText o p).2.isEmpty then .success else .failure, w)
    | (false, w) => (.failure, w)
  | .json => match c.writeJson p with | some b => plain b | none => (.failure, w)
  | .yaml => match c.writeYaml p with | some b => plain b | none => (.failure, w)
  | .protobuf => plain (c.writeProto p)

/-- cli.rs L251-300 `Commands`; `verbose` only affects messages. -/
inductive Cmd where
  | convert (input output : Str) (src dst : Option Fmt) (showTypes : Bool)
  | validate (input output : Str)

/-- cli.rs L192-225, L227-247: read, then write. -/
def transfer (c : Codec P O) (w : World) (r s : Stream) (src dst : Fmt) (o : O) : Exit × World :=
  match c.read src (w.read r) with
  | .err _ => (.failure, w)
  | .panic => (.panic, w)
  | .ok p => c.write o dst p w s

/-- cli.rs L162-185 `resolve_input_format`, `resolve_output_format`. -/
def resolveFmt (f : Option Fmt) (path : Str) : Option Fmt :=
  match f with
  | some f => some f
  | none => Fmt.ofExtension path

/-- cli.rs L56-110 `run_with_extensions`, `run_inner`. -/
def runCli (c : Codec P O) (w : World) : Cmd → Exit × World
  | .convert input output src dst showTypes =>
    match getReader w input with
    | none => (.failure, w)
    | some r =>
      match getWriter w output with
      | none => (.failure, w)
      | some (s, w) =>
        match resolveFmt src input with
        | none => (.failure, w)
        | some src =>
          match resolveFmt dst output with
          | none => (.failure, w)
          | some dst => transfer c w r s src dst (if showTypes then c.literalTypes else c.defaults)
  | .validate input output =>
    match getReader w input with
    | none => (.failure, w)
    | some r =>
      match getWriter w output with
      | none => (.failure, w)
      | some (s, w) => transfer c w r s .text .text c.defaults

end Verif
