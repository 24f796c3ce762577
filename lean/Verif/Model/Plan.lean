import Verif.Model.ExtSection
import Verif.Model.RelConv
import Verif.Model.VersionWrite
/-!
# Whole plans

Formatting (`src/textify/plan.rs`, `src/lib.rs` L168-205) and parsing (`src/parser/structural.rs`
L963-986, L1210-1234, `src/lib.rs` L77-93) of a plan.  Of `proto::Plan` the version, the URNs, the
declarations and the relations are modelled; the remaining fields are neither written nor read.
-/

namespace Verif

set_option autoImplicit false

/-- `proto::Plan`. -/
structure Plan where
  version : Option Version
  urns : List (Nat × Str)
  decls : List Store.Decl
  rels : List PlanRel

/-! ## Formatting -/

/-- foundation.rs L306-311: the name under which an insertion error is reported. -/
def InsertError.token : InsertError → Str
  | .missingMappingType => cs!"extension"
  | .duplicateUrnAnchor .. => cs!"uri"
  | .duplicateAnchor .. => cs!"extension"
  | .missingUrn .. => cs!"uri"
  | .duplicateAndMissingUrn .. => cs!"uri"
  | .invalidName .. => cs!"extension"

/-- textify/plan.rs L99-107: relations with an empty line between them. -/
def textPlanRels [UTab] [FTab] (env : Env) : List PlanRel → Out
  | [] => .s []
  | [r] => textPlanRel env r
  | r :: s :: l => textPlanRel env r ++ .s cs!"\n\n" ++ textPlanRels env (s :: l)

/-- The declarations of a plan as the printer sees them (textify/plan.rs L27-28). -/
def Plan.store (p : Plan) : Store := (Store.fromExtensions p.urns p.decls).1

/-- textify/plan.rs L22-50 `PlanWriter::new`, L110-121 `fmt`; lib.rs L196-205
`format_with_registry`. -/
def textPlan [UTab] [FTab] (reg : Registry ExtArgs (List Nat)) (o : Opts) (p : Plan) : Out :=
  let st := p.store
  ⟨[], (Store.fromExtensions p.urns p.decls).2.map InsertError.token⟩ ++
    .s (writeVersion o.indent p.version) ++ .s (writeExts st o.indent) ++
    .s (if st.isEmpty then [] else cs!"\n") ++ .s (planHeader ++ cs!"\n") ++
    textPlanRels ⟨st, o, reg⟩ p.rels ++ .s cs!"\n"

/-! ## Parsing -/

/-- The languages of plan lines and of the extensions section. -/
def planLang : Lang where
  Rel := SLine
  Add := SAddendum
  top := topLine
  node := nodeLine
  Ext := ExtState
  extInit := .init
  extLine st l := (st.line l).mapErr fun _ => ()

/-- Reasons to reject a text. -/
inductive PlanErr where
  | text (e : PErr)
  | rel (e : RErr)

/-- structural.rs L1210-1234 `build_plan`. -/
def buildPlan [FTab] (reg : Registry ExtArgs (List Nat)) (st : PState planLang) : Res PlanErr Plan :=
  ((convPlanRels (st.ext : ExtState).store reg st.tree.finish).mapErr PlanErr.rel).bind fun rels =>
    .ok ⟨st.version, (st.ext : ExtState).store.toUrns, (st.ext : ExtState).store.toDecls, rels⟩

/-- structural.rs L963-986 `parse_plan`; lib.rs L86-93 `parse_with_registry`. -/
def parsePlan [FTab] (reg : Registry ExtArgs (List Nat)) (text : Str) : Res PlanErr Plan :=
  ((parseSections planLang text).mapErr PlanErr.text).bind (buildPlan reg)

end Verif
