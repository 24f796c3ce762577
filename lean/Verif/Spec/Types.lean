import Verif.Model.Types
import Verif.Spec.Store
/-!
# Which types the text can express

Written against the protobuf types and the declarations in force, not against the parser.
-/

namespace Verif
open StoreSpec

set_option autoImplicit false

/-- Words the grammar takes for a complete type even when more letters follow. -/
def reservedPrefixes : List Str :=
  [cs!"boolean", cs!"i8", cs!"i16", cs!"i32", cs!"i64", cs!"u8", cs!"u16", cs!"u32", cs!"u64",
   cs!"fp32", cs!"fp64", cs!"string", cs!"binary", cs!"timestamp", cs!"date", cs!"time",
   cs!"interval_year", cs!"uuid"]

/-- Words that introduce a built-in type when an angle bracket follows. -/
def bracketWords : List Str := [cs!"list", cs!"map", cs!"struct"]

/-- A name usable in type position; `bare` says that no parameter list follows. -/
def TypeName (n : Str) (bare : Prop) : Prop :=
  isIdentifier n = true ∧ (∀ w ∈ reservedPrefixes, ¬ w <+: n) ∧
    (bare ∨ n.map toLower ∉ bracketWords)

mutual
/-- The types that have a faithful text: no type variation, the kinds the parser builds, sub-second
precisions 0 to 12, user-defined types whose declared name is usable (type references are `u32`),
and such types as parameters. -/
def Writable (st : Store) : Ty → Prop
  | .simple _ _ v => v = 0
  | .intervalDay (some p) _ v => v = 0 ∧ 0 ≤ p ∧ p ≤ 12
  | .prec _ p _ v => v = 0 ∧ 0 ≤ p ∧ p ≤ 12
  | .list (some t) _ v => v = 0 ∧ Writable st t
  | .user ref ps _ v => v = 0 ∧ ref < 2 ^ 32 ∧
      (∃ n, Declared st .type ref n ∧ TypeName n (ps = [])) ∧ WritableParams st ps
  | _ => False
/-- A list of type parameters that have a faithful text. -/
def WritableParams (st : Store) : List Param → Prop
  | [] => True
  | .ty t :: ps => Writable st t ∧ WritableParams st ps
  | _ :: _ => False
end

/-- What may stand after a type: not something that would continue it. -/
def typeContinues (c : Char) : Bool :=
  isIdentChar c || c == '?' || c == '⁉' || c == '#' || c == '@' || c == '<' || c == '!'

/-- The nullability is one of the two the format defines. -/
def NulSet (n : Nul) : Prop := n ≠ .unspecified

/-- Variation 0 is the default; any other must be declared. -/
def VariationOk (st : Store) (v : Nat) : Prop := v = 0 ∨ ∃ n, Declared st .typeVariation v n

mutual
/-- A type with nothing missing: kind present, nullability given, every reference declared, no
function or alias type, and the same for every type inside. -/
def CompleteTy (st : Store) : Ty → Prop
  | .missing => False
  | .simple _ n v => NulSet n ∧ VariationOk st v
  | .intervalDay _ n v => NulSet n ∧ VariationOk st v
  | .intervalCompound _ n v => NulSet n ∧ VariationOk st v
  | .len _ _ n v => NulSet n ∧ VariationOk st v
  | .decimal _ _ n v => NulSet n ∧ VariationOk st v
  | .prec _ _ n v => NulSet n ∧ VariationOk st v
  | .struct ts n v => NulSet n ∧ VariationOk st v ∧ CompleteTys st ts
  | .list t n v => NulSet n ∧ VariationOk st v ∧ CompleteTyOpt st t
  | .map a b n v => NulSet n ∧ VariationOk st v ∧ CompleteTyOpt st a ∧ CompleteTyOpt st b
  | .user ref ps n v => (∃ m, Declared st .type ref m) ∧ NulSet n ∧ VariationOk st v ∧ CompleteParams st ps
  | .userRef ref => ∃ m, Declared st .type ref m
  | .func => False
  | .alias => False
/-- A present and complete type. -/
def CompleteTyOpt (st : Store) : Option Ty → Prop
  | none => False
  | some t => CompleteTy st t
/-- All complete. -/
def CompleteTys (st : Store) : List Ty → Prop
  | [] => True
  | t :: ts => CompleteTy st t ∧ CompleteTys st ts
/-- A present and complete parameter. -/
def CompleteParam (st : Store) : Param → Prop
  | .missing => False
  | .ty t => CompleteTy st t
  | _ => True
/-- All complete. -/
def CompleteParams (st : Store) : List Param → Prop
  | [] => True
  | p :: ps => CompleteParam st p ∧ CompleteParams st ps
end

mutual
/-- The types the parser can ever build. -/
def Producible (st : Store) : Ty → Prop
  | .simple _ _ v => v = 0
  | .intervalDay (some p) _ v => v = 0 ∧ 0 ≤ p ∧ p ≤ 12
  | .prec _ p _ v => v = 0 ∧ 0 ≤ p ∧ p ≤ 12
  | .list (some t) _ v => v = 0 ∧ Producible st t
  | .user ref ps _ v => v = 0 ∧ (∃ n, Declared st .type ref n) ∧ ProducibleParams st ps
  | _ => False
/-- Parameter lists the parser can ever build: types only. -/
def ProducibleParams (st : Store) : List Param → Prop
  | [] => True
  | .ty t :: ps => Producible st t ∧ ProducibleParams st ps
  | _ :: _ => False
end

/-! ## The written form of every kind -/

/-- The name of a built-in type, its nullability, its variation and its parameters as texts, given the texts of
the types in it. User-defined types, incomplete types and kinds without a text have none. -/
def writtenTy (inner : Ty → Str) : Ty → Option (Str × Nul × Nat × List Str)
  | .simple .boolean n v => some (cs!"boolean", n, v, [])
  | .simple .i8 n v => some (cs!"i8", n, v, [])
  | .simple .i16 n v => some (cs!"i16", n, v, [])
  | .simple .i32 n v => some (cs!"i32", n, v, [])
  | .simple .i64 n v => some (cs!"i64", n, v, [])
  | .simple .fp32 n v => some (cs!"fp32", n, v, [])
  | .simple .fp64 n v => some (cs!"fp64", n, v, [])
  | .simple .string n v => some (cs!"string", n, v, [])
  | .simple .binary n v => some (cs!"binary", n, v, [])
  | .simple .timestamp n v => some (cs!"timestamp", n, v, [])
  | .simple .timestampTz n v => some (cs!"timestamp_tz", n, v, [])
  | .simple .date n v => some (cs!"date", n, v, [])
  | .simple .time n v => some (cs!"time", n, v, [])
  | .simple .intervalYear n v => some (cs!"interval_year", n, v, [])
  | .simple .uuid n v => some (cs!"uuid", n, v, [])
  | .intervalDay (some p) n v => some (cs!"interval_day", n, v, [decInt p])
  | .intervalDay none n v => some (cs!"interval_day", n, v, [cs!"6"])
  | .intervalCompound p n v => some (cs!"interval_compound", n, v, [decInt p])
  | .len .fixedChar l n v => some (cs!"fixedchar", n, v, [decInt l])
  | .len .varchar l n v => some (cs!"varchar", n, v, [decInt l])
  | .len .fixedBinary l n v => some (cs!"fixedbinary", n, v, [decInt l])
  | .decimal p s n v => some (cs!"decimal", n, v, [decInt p, decInt s])
  | .prec .time p n v => some (cs!"precisiontime", n, v, [decInt p])
  | .prec .timestamp p n v => some (cs!"precisiontimestamp", n, v, [decInt p])
  | .prec .timestampTz p n v => some (cs!"precisiontimestamptz", n, v, [decInt p])
  | .struct ts n v => some (cs!"struct", n, v, ts.map inner)
  | .list (some t) n v => some (cs!"list", n, v, [inner t])
  | .map (some a) (some b) n v => some (cs!"map", n, v, [inner a, inner b])
  | _ => none

/-- The text of a parameter of a user-defined type, given the texts of the types in it. -/
def writtenParam (inner : Ty → Str) : Param → Option Str
  | .null => some cs!"null"
  | .bool b => some (if b then cs!"true" else cs!"false")
  | .int i => some (decInt i)
  | .enum e => some e
  | .str e => some e
  | .ty t => some (inner t)
  | .missing => none

/-- The mark of a nullability that is given. -/
def nulMark : Nul → Option Str
  | .nullable => some cs!"?"
  | .required => some []
  | .unspecified => none

end Verif
