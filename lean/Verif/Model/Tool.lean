import Verif.Model.Cli
import Verif.Model.Plan
/-!
# The command line tool with the text format of this crate

`src/cli.rs` with `parse_with_registry` and `format_with_registry` for the text format; the other three formats
remain parameters.
-/

namespace Verif

set_option autoImplicit false

/-- The UTF-8 encoding of a text (`write_text_output`, cli.rs L443-446). -/
def utf8 (s : Str) : Bytes := s.flatMap fun c => (String.utf8EncodeChar c).map UInt8.toNat

/-- `read_to_string` (cli.rs L429-433): the text with that encoding, if there is one. -/
def readUtf8 (b : Bytes) : Option Str :=
  (ByteArray.mk (b.map UInt8.ofNat).toArray).utf8Decode?.map Array.toList

/-- The formats that other crates read and write. -/
structure Others where
  readJson : Bytes → Option Plan
  readYaml : Bytes → Option Plan
  readProto : Bytes → Option Plan
  writeJson : Plan → Option Bytes
  writeYaml : Plan → Option Bytes
  writeProto : Plan → Bytes

/-- cli.rs L346-426 with an extension registry; L152-160 `create_output_options`.  A panic of the formatter
(dates outside the calendar) counts as an error here. -/
def tool [UTab] [FTab] (reg : Registry ExtArgs (List Nat)) (x : Others) : Codec Plan Opts where
  readText b :=
    match readUtf8 b with
    | none => .err ()
    | some s =>
      match parsePlan reg s with
      | .ok p => .ok p
      | .err _ => .err ()
      | .panic => .panic
  readJson := x.readJson
  readYaml := x.readYaml
  readProto := x.readProto
  writeText o p := (utf8 (textPlan reg o p).text, (textPlan reg o p).errs)
  writeJson := x.writeJson
  writeYaml := x.writeYaml
  writeProto := x.writeProto
  defaults := .default
  literalTypes := { Opts.default with litTypes := .always }

end Verif
