import Verif.Conformance.TypeTests
/-!
# The unit tests of src/parser/types.rs, on the model
-/

namespace Verif.Conformance

open Store

set_option autoImplicit false

def readTy (st : Store) (s : Str) : Option Ty := exact pType (convTy st) s

/-- L377 `test_parse_simple_type`, L408 `test_parse_type` -/
example : exact pSimpleType (convTy empty) cs!"i64" = some i64 ∧
    exact pSimpleType (convTy empty) cs!"string?" = some (opt! .string) ∧
    readTy empty cs!"i64" = some i64 := by decide +kernel
/-- L426 `test_parse_list_type` -/
example : exact (pListWith pType) (convTy empty) cs!"list<i64>" = some (.list (some i64) .required 0) := by
  decide +kernel
/-- L450 `test_parse_interval_day_type` -/
example : readTy empty cs!"interval_day<9>" = some (.intervalDay (some 9) .required 0) ∧
    readTy empty cs!"interval_day?<6>" = some (.intervalDay (some 6) .nullable 0) := by decide +kernel
/-- L474 `test_parse_interval_day_type_invalid_precision` -/
example : refused pType (convTy empty) cs!"interval_day<13>" = true ∧
    refused pType (convTy empty) cs!"interval_day<-1>" = true := by decide +kernel
/-- L484 `test_parse_parameters` -/
example : (exact (pParamsWith pType) (convParams empty) cs!"<i64?,string>").any
    (Param.beqList [.ty (opt! .i64), .ty string]) = true := by decide +kernel
/-- L514 `test_udts` -/
example : readTy (decl! .type 4 42 cs!"udt" (urn! 4 cs!"some_source")) cs!"udt#42<i64?>" =
    some (.user 42 [.ty (opt! .i64)] .required 0) := by decide +kernel
/-- L548 `test_udts_with_u_prefix` -/
example :
    let st := decl! .type 4 7 cs!"u!json" (urn! 4 cs!"some_source")
    readTy st cs!"u!json#7" = some (.user 7 [] .required 0) ∧
    readTy st cs!"json?" = some (.user 7 [] .nullable 0) ∧
    readTy st cs!"u!json" = some (.user 7 [] .required 0) := by decide +kernel
/-- L616 `test_udt_u_prefix_matches_plain_registration` -/
example : readTy (decl! .type 1 3 cs!"json" (urn! 1 cs!"src")) cs!"u!json" =
    some (.user 3 [] .required 0) := by decide +kernel
/-- L641 `test_udt_plain_matches_u_prefix_registration` -/
example : readTy (decl! .type 1 3 cs!"u!json" (urn! 1 cs!"src")) cs!"json" =
    some (.user 3 [] .required 0) := by decide +kernel

end Verif.Conformance
