import Verif.Model.Cli
import Verif.Model.Json
/-!
# What the command line tool should do
-/

namespace Verif

set_option autoImplicit false
variable {P O D : Type}

/-- The letters and their capitals. -/
def capitals : List (Char × Char) := (cs!"abcdefghijklmnopqrstuvwxyz").zip cs!"ABCDEFGHIJKLMNOPQRSTUVWXYZ"

/-- `s` is the name `n`, any of its letters possibly in capitals. -/
inductive InAnyCase : Str → Str → Prop
  | nil : InAnyCase [] []
  | same (c n s) : InAnyCase n s → InAnyCase (c :: n) (c :: s)
  | capital (c d n s) : (c, d) ∈ capitals → InAnyCase n s → InAnyCase (c :: n) (d :: s)

def Cmd.input : Cmd → Str
  | .convert i _ _ _ _ => i
  | .validate i _ => i

def Cmd.output : Cmd → Str
  | .convert _ o _ _ _ => o
  | .validate _ o => o

/-- The format named on the command line, or else the one of the extension; `validate` is text. -/
inductive Cmd.Reads : Cmd → Fmt → Prop
  | explicit (i o d t f) : (Cmd.convert i o (some f) d t).Reads f
  | extension (i o d t f) : Fmt.ofExtension i = some f → (Cmd.convert i o none d t).Reads f
  | validate (i o) : (Cmd.validate i o).Reads .text

inductive Cmd.Writes : Cmd → Fmt → Prop
  | explicit (i o s t f) : (Cmd.convert i o s (some f) t).Writes f
  | extension (i o s t f) : Fmt.ofExtension o = some f → (Cmd.convert i o s none t).Writes f
  | validate (i o) : (Cmd.validate i o).Writes .text

def Cmd.options (c : Codec P O) : Cmd → O
  | .convert _ _ _ _ true => c.literalTypes
  | _ => c.defaults

/-- Bytes and formatting errors of a plan in a format. -/
inductive Renders (c : Codec P O) (o : O) (p : P) : Fmt → Bytes → List Str → Prop
  | text : Renders c o p .text (c.writeText o p).1 (c.writeText o p).2
  | json (b) : c.writeJson p = some b → Renders c o p .json b []
  | yaml (b) : c.writeYaml p = some b → Renders c o p .yaml b []
  | protobuf : Renders c o p .protobuf (c.writeProto p) []

/-- The bytes a format reads as a plan. -/
inductive ReadsAs (c : Codec P O) (b : Bytes) : Fmt → P → Prop
  | text (p) : c.readText b = .ok p → ReadsAs c b .text p
  | json (p) : c.readJson b = some p → ReadsAs c b .json p
  | yaml (p) : c.readYaml b = some p → ReadsAs c b .yaml p
  | protobuf (p) : c.readProto b = some p → ReadsAs c b .protobuf p

/-- Input and output name one file. -/
def Cmd.InPlace (w : World) (cmd : Cmd) : Prop :=
  cmd.input ≠ cs!"-" ∧ cmd.output ≠ cs!"-" ∧ w.file cmd.input = w.file cmd.output

instance (w : World) (cmd : Cmd) : Decidable (cmd.InPlace w) := by unfold Cmd.InPlace; infer_instance

/-- What there is to read once the output is open: nothing if it is the same file. -/
def inputBytes (w : World) (cmd : Cmd) : Bytes :=
  if cmd.input = cs!"-" then w.stdin
  else if cmd.InPlace w then []
  else (w.content (w.file cmd.input)).getD []

/-- The input can be opened and the output created. -/
def Opens (w : World) (cmd : Cmd) : Prop :=
  (cmd.input = cs!"-" ∨ (w.openable cmd.input = true ∧ (w.content (w.file cmd.input)).isSome = true)) ∧
  (cmd.output = cs!"-" ∨ w.creatable cmd.output = true)

instance (w : World) (cmd : Cmd) : Decidable (Opens w cmd) := by unfold Opens; infer_instance

/-- The output takes that many bytes. -/
def Fits (w : World) (cmd : Cmd) (b : Bytes) : Prop :=
  ∀ n, (if cmd.output = cs!"-" then w.stdoutBroken else w.broken (w.file cmd.output)) = some n → b.length ≤ n

/-- The command has a plan to write: these bytes, with these formatting errors. -/
def Yields (c : Codec P O) (w : World) (cmd : Cmd) (b : Bytes) (errs : List Str) : Prop :=
  Opens w cmd ∧ ∃ src dst p, cmd.Reads src ∧ cmd.Writes dst ∧ ReadsAs c (inputBytes w cmd) src p ∧
    Renders c (cmd.options c) p dst b errs

/-- The content of the output afterwards. -/
def outputContent (w : World) (cmd : Cmd) : Option Bytes :=
  if cmd.output = cs!"-" then some w.stdout else w.content (w.file cmd.output)

/-- What was on the output before: files are overwritten, the standard output is continued. -/
def before (w : World) (cmd : Cmd) : Bytes := if cmd.output = cs!"-" then w.stdout else []

/-! ## Merged descriptors -/

/-- The first file of each name. -/
inductive FirstFiles : List (FileDesc D) → List (FileDesc D) → Prop
  | nil : FirstFiles [] []
  | keep (l k f) : FirstFiles l k → (∀ g ∈ l, g.name ≠ f.name) → FirstFiles (l ++ [f]) (k ++ [f])
  | drop (l k f) : FirstFiles l k → (∃ g ∈ l, g.name = f.name) → FirstFiles (l ++ [f]) k

end Verif
