import Verif.Model.Exprs
import Verif.Model.Registry
/-!
# Schemas and extension columns

The conversions between `NamedStruct` and output columns of `src/extensions/registry.rs` L279-334.
-/

namespace Verif

set_option autoImplicit false

/-- `proto::type::Struct`. -/
structure StructTy where
  types : List Ty
  variation : Nat
  nullability : Nul

/-- `proto::NamedStruct`. -/
structure NamedStruct where
  names : List Str
  struct : Option StructTy

/-- extensions/args.rs L689-708 `ExtensionColumn`. -/
inductive ExtColumn where
  | named (name : Str) (ty : Ty)
  | expr (e : Expr)

/-- extensions/registry.rs L279-309, the loop. -/
def columnParts : List ExtColumn → Except ExtErr (List Str × List Ty)
  | [] => .ok ([], [])
  | .named n t :: l =>
    match columnParts l with
    | .ok (ns, ts) => .ok (n :: ns, t :: ts)
    | .error e => .error e
  | .expr _ :: _ => .error .expectedNamedColumn

/-- extensions/registry.rs L279-309: columns to a schema. -/
def toNamedStruct (cols : List ExtColumn) : Except ExtErr NamedStruct :=
  match columnParts cols with
  | .ok (ns, ts) => .ok ⟨ns, some ⟨ts, 0, .required⟩⟩
  | .error e => .error e

/-- `Iterator::zip` and `map` of L324-332. -/
def zipColumns : List Str → List Ty → List ExtColumn
  | n :: ns, t :: ts => .named n t :: zipColumns ns ts
  | _, _ => []

/-- extensions/registry.rs L311-334: a schema to columns. -/
def toColumns (s : NamedStruct) : Except ExtErr (List ExtColumn) :=
  let types := match s.struct with
    | some st => st.types
    | none => []
  if s.names.length ≠ types.length then .error (.countMismatch s.names.length types.length)
  else .ok (zipColumns s.names types)

end Verif
