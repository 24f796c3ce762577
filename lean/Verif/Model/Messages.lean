import Verif.Model.Store
import Verif.Model.Num
import Verif.Model.Located
/-!
# The text of errors about declarations and references, and of error contexts
-/

namespace Verif

set_option autoImplicit false

/-- simple.rs L34-43 `Display for ExtensionKind`. -/
def Kind.shown : Kind → Str
  | .function => cs!"Function"
  | .type => cs!"Type"
  | .typeVariation => cs!"Type Variation"

/-- simple.rs L45-86 `InsertError`, the `error` attributes. -/
def InsertError.shown : InsertError → Str
  | .missingMappingType => cs!"Extension declaration missing mapping type"
  | .duplicateUrnAnchor a prev name =>
    cs!"Duplicate URN anchor " ++ dec a ++ cs!" for " ++ prev ++ cs!" and " ++ name
  | .duplicateAnchor k a prev name =>
    cs!"Duplicate extension " ++ k.shown ++ cs!" anchor " ++ dec a ++ cs!" for " ++ prev ++ cs!" and " ++ name
  | .missingUrn k a name urn =>
    cs!"Missing URN anchor " ++ dec urn ++ cs!" for extension " ++ k.shown ++ cs!" anchor " ++ dec a ++ cs!" name " ++ name
  | .duplicateAndMissingUrn k a prev name urn =>
    cs!"Duplicate extension " ++ k.shown ++ cs!" anchor " ++ dec a ++ cs!" for " ++ prev ++ cs!" and " ++ name ++
      cs!", also missing URN " ++ dec urn
  | .invalidName k name =>
    cs!"Invalid " ++ k.shown ++ cs!" name '" ++ name ++ cs!"': u! prefix is only valid for type names"

/-- simple.rs L383-396 `MissingReference`, the `error` attributes. -/
def Store.MissingReference.shown : Store.MissingReference → Str
  | .missingUrn a => cs!"Missing URN for " ++ dec a
  | .missingAnchor k a => cs!"Missing anchor for " ++ k.shown ++ cs!": " ++ dec a
  | .missingName k n => cs!"Missing name for " ++ k.shown ++ cs!": " ++ n
  | .mismatched k n a => cs!"Mismatched " ++ k.shown ++ cs!": " ++ n ++ cs!"#" ++ dec a
  | .duplicateName k n => cs!"Duplicate name without anchor for " ++ k.shown ++ cs!": " ++ n

/-- foundation.rs L278-287: the two kinds of `FormatError` that come from the declarations. -/
inductive DeclError where
  | insert (e : InsertError)
  | lookup (e : Store.MissingReference)

/-- foundation.rs L282, L285. -/
def DeclError.shown : DeclError → Str
  | .insert e => cs!"Error adding simple extension: " ++ e.shown
  | .lookup e => cs!"Error finding simple extension: " ++ e.shown

/-- errors.rs L23-27 `Display for ParseContext`. -/
def Ctx.shown (c : Ctx) : Str := cs!"line " ++ dec c.no ++ cs!": '" ++ c.line ++ cs!"'"

end Verif
