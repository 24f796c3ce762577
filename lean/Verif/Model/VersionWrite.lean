import Verif.Model.Sections
/-!
# Writing the version section (`src/textify/plan.rs`)
-/

namespace Verif

/-- textify/plan.rs L61-91 `write_version`; `indent` is `OutputOptions::indent`. -/
def writeVersion (indent : Str) : Option Version → Str
  | none => []
  | some v =>
    if v = Version.empty then []
    else
      versionPrefix ++ cs!" " ++ dec v.major ++ cs!"." ++ dec v.minor ++ cs!"." ++ dec v.patch ++ cs!"\n" ++
      (if v.producer.isEmpty then [] else indent ++ cs!"producer: " ++ trim v.producer ++ cs!"\n") ++
      (if v.gitHash.isEmpty then [] else indent ++ cs!"git_hash: " ++ trim v.gitHash ++ cs!"\n")

end Verif
