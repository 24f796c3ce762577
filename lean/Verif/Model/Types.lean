import Verif.Model.Out
/-!
# Types

`substrait::proto::Type`, its printing (`src/textify/types.rs`), the type rules of
`src/parser/expression_grammar.pest` and their conversion (`src/parser/types.rs`).
-/

namespace Verif

/-- `proto::type::Nullability`.  The field is an `i32`; prost's accessor reads unknown numbers as
`Unspecified`, so only the three values exist here. -/
inductive Nul where
  | unspecified | nullable | required
  deriving DecidableEq, Repr

/-- The parameterless kinds of `proto::type::Kind`. -/
inductive SimpleKind where
  | boolean | i8 | i16 | i32 | i64 | fp32 | fp64 | string | binary | timestampTz | timestamp
  | date | time | intervalYear | uuid
  deriving DecidableEq, Repr

/-- Kinds with a length. -/
inductive LenKind where
  | fixedChar | varchar | fixedBinary
  deriving DecidableEq, Repr

/-- Kinds with a sub-second precision. -/
inductive PrecKind where
  | time | timestamp | timestampTz
  deriving DecidableEq, Repr

mutual
/-- `proto::Type`; `missing` has `kind: None`.  The function and alias kinds carry no content here
because the printer refuses them whatever they hold. -/
inductive Ty where
  | missing
  | simple (k : SimpleKind) (n : Nul) (v : Nat)
  | intervalDay (p : Option Int) (n : Nul) (v : Nat)
  | intervalCompound (p : Int) (n : Nul) (v : Nat)
  | len (k : LenKind) (l : Int) (n : Nul) (v : Nat)
  | decimal (p s : Int) (n : Nul) (v : Nat)
  | prec (k : PrecKind) (p : Int) (n : Nul) (v : Nat)
  | struct (ts : List Ty) (n : Nul) (v : Nat)
  | list (t : Option Ty) (n : Nul) (v : Nat)
  | map (a b : Option Ty) (n : Nul) (v : Nat)
  | user (ref : Nat) (ps : List Param) (n : Nul) (v : Nat)
  | userRef (ref : Nat)
  | func
  | alias
/-- `proto::type::Parameter`. -/
inductive Param where
  | missing
  | null
  | bool (b : Bool)
  | int (i : Int)
  | enum (s : Str)
  | str (s : Str)
  | ty (t : Ty)
end

instance : Inhabited Ty := ⟨.missing⟩

/-! ## Printing -/

/-- textify/types.rs L15-36. -/
def textNul : Nul → Out
  | .unspecified => ⟨cs!"⁉", [cs!"Nullability"]⟩
  | .nullable => .s cs!"?"
  | .required => .s []

/-- Kind names, textify/types.rs L399-445. -/
def SimpleKind.name : SimpleKind → Str
  | .boolean => cs!"boolean"
  | .i8 => cs!"i8"
  | .i16 => cs!"i16"
  | .i32 => cs!"i32"
  | .i64 => cs!"i64"
  | .fp32 => cs!"fp32"
  | .fp64 => cs!"fp64"
  | .string => cs!"string"
  | .binary => cs!"binary"
  | .timestampTz => cs!"timestamp_tz"
  | .timestamp => cs!"timestamp"
  | .date => cs!"date"
  | .time => cs!"time"
  | .intervalYear => cs!"interval_year"
  | .uuid => cs!"uuid"

/-- Kind names, textify/types.rs L460-483. -/
def LenKind.name : LenKind → Str
  | .fixedChar => cs!"fixedchar"
  | .varchar => cs!"varchar"
  | .fixedBinary => cs!"fixedbinary"

/-- Kind names, textify/types.rs L495-518. -/
def PrecKind.name : PrecKind → Str
  | .time => cs!"precisiontime"
  | .timestamp => cs!"precisiontimestamp"
  | .timestampTz => cs!"precisiontimestamptz"

/-- textify/types.rs L250-271 `TypeVariation`. -/
def textVariation (st : Store) (o : Opts) (v : Nat) : Out :=
  if v = 0 then .s [] else .s cs!"[" ++ textAnchor st o .typeVariation v ++ .s cs!"]"

/-- textify/types.rs L338-362 `Parameters`. -/
def textParamList : List Out → Out
  | [] => .s []
  | ps => .s cs!"<" ++ Out.sep cs!", " ps ++ .s cs!">"

/-- textify/types.rs L277-293 `textify_type`. -/
def textifyType (st : Store) (o : Opts) (name : Out) (n : Nul) (v : Nat) (ps : List Out) : Out :=
  name ++ textNul n ++ textVariation st o v ++ textParamList ps

/-- textify/types.rs L364-391 `UserDefined`. -/
def textUser (st : Store) (o : Opts) (ref : Nat) (n : Nul) (v : Nat) (ps : List Out) : Out :=
  textifyType st o (textAnchor st o .type ref) n v ps

/-- An integer parameter (textify/types.rs L321). -/
def textIntParam (i : Int) : Out := .s (decInt i)

mutual
/-- textify/types.rs L393-602. -/
def textTy (st : Store) (o : Opts) : Ty → Out
  | .missing => .fail cs!"Kind"
  | .simple k n v => textifyType st o (.s k.name) n v []
  | .intervalDay p n v => textifyType st o (.s cs!"interval_day") n v [textIntParam (p.getD 6)]
  | .intervalCompound p n v => textifyType st o (.s cs!"interval_compound") n v [textIntParam p]
  | .len k l n v => textifyType st o (.s k.name) n v [textIntParam l]
  | .decimal p s n v => textifyType st o (.s cs!"decimal") n v [textIntParam p, textIntParam s]
  | .prec k p n v => textifyType st o (.s k.name) n v [textIntParam p]
  | .struct ts n v => textifyType st o (.s cs!"struct") n v (textTys st o ts)
  | .list t n v => textifyType st o (.s cs!"list") n v [textTyOpt st o t]
  | .map a b n v => textifyType st o (.s cs!"map") n v [textTyOpt st o a, textTyOpt st o b]
  | .user ref ps n v => textUser st o ref n v (textParams st o ps)
  | .userRef ref => textUser st o ref .required 0 []
  | .func => .fail cs!"FuncType"
  | .alias => .fail cs!"AliasType"
/-- A type as a parameter, which must be present (textify/types.rs L349). -/
def textTyOpt (st : Store) (o : Opts) : Option Ty → Out
  | none => .fail cs!"Parameter"
  | some t => textTy st o t
/-- textify/types.rs L520-533, each element. -/
def textTys (st : Store) (o : Opts) : List Ty → List Out
  | [] => []
  | t :: ts => textTy st o t :: textTys st o ts
/-- textify/types.rs L308-336. -/
def textParam (st : Store) (o : Opts) : Param → Out
  | .missing => .fail cs!"Parameter"
  | .null => .s cs!"null"
  | .bool true => .s cs!"true"
  | .bool false => .s cs!"false"
  | .int i => textIntParam i
  | .enum s => .s s
  | .str s => .s s
  | .ty t => textTy st o t
/-- textify/types.rs L343-354, each element. -/
def textParams (st : Store) (o : Opts) : List Param → List Out
  | [] => []
  | p :: ps => textParam st o p :: textParams st o ps
end

/-! ## Syntax -/

/-- Texts joined by a separator. -/
def joinS (sp : Str) : List Str → Str
  | [] => []
  | [a] => a
  | a :: b :: l => a ++ sp ++ joinS sp (b :: l)

/-- Match the rule or leave the position alone (pest `?`). -/
def pOpt {α : Type} (p : Str → Option (α × Str)) (s : Str) : Option α × Str :=
  match p s with
  | some (a, r) => (some a, r)
  | none => (none, s)

/-- Change the value of a match. -/
def mapFst {α β : Type} (f : α → β) : Option (α × Str) → Option (β × Str)
  | some (a, r) => some (f a, r)
  | none => none

/-- pest `(sep ~ p)*` with at most `n` rounds. -/
def pStarN {α : Type} (sep : Str → Option Str) (p : Str → Option (α × Str)) :
    Nat → Str → List α × Str
  | 0, s => ([], s)
  | n + 1, s =>
    match sep s with
    | none => ([], s)
    | some s1 =>
      match p s1 with
      | none => ([], s)
      | some (a, s2) =>
        let r := pStarN sep p n s2
        (a :: r.1, r.2)

/-- pest `p ~ (sep ~ p)*`; every round consumes a separator, so `s.length` rounds are enough. -/
def pSep1 {α : Type} (sep : Str → Option Str) (p : Str → Option (α × Str)) (s : Str) :
    Option (List α × Str) :=
  match p s with
  | none => none
  | some (a, s1) =>
    let r := pStarN sep p s1.length s1
    some (a :: r.1, r.2)

/-- pest `(p ~ (sep ~ p)*)?`. -/
def pSep {α : Type} (sep : Str → Option Str) (p : Str → Option (α × Str)) (s : Str) : List α × Str :=
  match pSep1 sep p s with
  | some r => r
  | none => ([], s)

/-- `"," ~ sp`. -/
def commaSp (s : Str) : Option Str := (lit cs!"," s).map skipSp

/-- `sp ~ "," ~ sp`. -/
def spCommaSp (s : Str) : Option Str := (lit cs!"," (skipSp s)).map skipSp

/-- `nullability` (L77) with its conversion (parser/types.rs L69-77). -/
def pNullability : Str → Nul × Str
  | '?' :: s => (.nullable, s)
  | '⁉' :: s => (.unspecified, s)
  | s => (.required, s)

/-- First of a list of fixed strings to match. -/
def pFirst : List Str → Str → Option (Str × Str)
  | [], _ => none
  | k :: ks, s =>
    match lit k s with
    | some r => some (k, r)
    | none => pFirst ks s

/-- `simple_type_name` (L81-101), in order. -/
def simpleNames : List Str :=
  [cs!"boolean", cs!"i8", cs!"i16", cs!"i32", cs!"i64", cs!"u8", cs!"u16", cs!"u32", cs!"u64",
   cs!"fp32", cs!"fp64", cs!"string", cs!"binary", cs!"timestamp_tz", cs!"timestamp", cs!"date",
   cs!"time", cs!"interval_year", cs!"uuid"]

mutual
/-- Parse tree of `type` (L147). -/
inductive STy where
  | simple (name : Str) (n : Nul)
  | list (n : Nul) (t : STy)
  | map (n : Nul) (a b : STy)
  | struct (n : Nul) (ps : List SParam)
  | prec (k : PrecKind) (n : Nul) (i : IntTok)
  | intervalDay (n : Nul) (i : IntTok)
  | user (name : Str) (anchor urn : Option IntTok) (n : Nul) (ps : Option (List SParam))
/-- Parse tree of `parameter` (L64). -/
inductive SParam where
  | ty (t : STy)
  | int (i : IntTok)
  | name (s : Str)
end

/-- `anchor` (L61). -/
def pAnchor (s : Str) : Option (IntTok × Str) := do pInteger (skipSp (← lit cs!"#" s))

/-- `urn_anchor` (L62). -/
def pUrnAnchor (s : Str) : Option (IntTok × Str) := do pInteger (skipSp (← lit cs!"@" s))

/-- `simple_type` (L105). -/
def pSimpleType (s : Str) : Option (STy × Str) := do
  let (name, s) ← pFirst simpleNames s
  let (n, s) := pNullability s
  some (.simple name n, s)

/-- `parameter` (L64), given the rule for types. -/
def pParamWith (ty : Str → Option (STy × Str)) (s : Str) : Option (SParam × Str) :=
  ((mapFst .ty (ty s)).or (mapFst .int (pInteger s))).or (mapFst .name (pName s))

/-- The part of `parameters` (L74) after the opening bracket. -/
def pParamsTail (ty : Str → Option (STy × Str)) (s : Str) : Option (List SParam × Str) := do
  let (ps, s) := pSep commaSp (pParamWith ty) s
  let s ← lit cs!">" s
  some (ps, s)

/-- `parameters` (L74). -/
def pParamsWith (ty : Str → Option (STy × Str)) (s : Str) : Option (List SParam × Str) := do
  pParamsTail ty (← lit cs!"<" s)

/-- `^"kw" ~ nullability ~ "<"`, the common beginning of the compound types (L114-131). -/
def pKwOpen (kw : Str) (s : Str) : Option (Nul × Str) := do
  let s ← litI kw s
  let (n, s) := pNullability s
  let s ← lit cs!"<" s
  some (n, s)

/-- `list_type` (L114). -/
def pListWith (ty : Str → Option (STy × Str)) (s : Str) : Option (STy × Str) := do
  let (n, s) ← pKwOpen cs!"list" s
  let (t, s) ← ty s
  let s ← lit cs!">" s
  some (.list n t, s)

/-- `map_type` (L118). -/
def pMapWith (ty : Str → Option (STy × Str)) (s : Str) : Option (STy × Str) := do
  let (n, s) ← pKwOpen cs!"map" s
  let (a, s) ← ty s
  let s ← lit cs!"," s
  let (b, s) ← ty (skipSp s)
  let s ← lit cs!">" s
  some (.map n a b, s)

/-- `struct_type` (L120). -/
def pStructWith (ty : Str → Option (STy × Str)) (s : Str) : Option (STy × Str) := do
  let (n, s) ← pKwOpen cs!"struct" s
  let (ps, s) ← pParamsTail ty s
  some (.struct n ps, s)

/-- A keyword, a nullability and one integer in angle brackets (L124-131). -/
def pIntType (kw : Str) (f : Nul → IntTok → STy) (s : Str) : Option (STy × Str) := do
  let (n, s) ← pKwOpen kw s
  let (i, s) ← pInteger s
  let s ← lit cs!">" s
  some (f n i, s)

/-- `compound_type` (L135). -/
def pCompoundWith (ty : Str → Option (STy × Str)) (s : Str) : Option (STy × Str) :=
  ((((((pListWith ty s).or (pMapWith ty s)).or (pStructWith ty s)).or
    (pIntType cs!"precisiontimestamptz" (.prec .timestampTz) s)).or
    (pIntType cs!"precisiontimestamp" (.prec .timestamp) s)).or
    (pIntType cs!"precisiontime" (.prec .time) s)).or
    (pIntType cs!"interval_day" .intervalDay s)

/-- `"u!"?`. -/
def skipUBang (s : Str) : Str := (lit cs!"u!" s).getD s

/-- `user_defined_type` (L142-144). -/
def pUserWith (ty : Str → Option (STy × Str)) (s : Str) : Option (STy × Str) := do
  let (name, s) ← pIdent (skipUBang s)
  let (a, s) := pOpt pAnchor s
  let (u, s) := pOpt pUrnAnchor s
  let (n, s) := pNullability s
  let (ps, s) := pOpt (pParamsWith ty) s
  some (.user name a u n ps, s)

/-- `type` (L147) with nesting at most `n`. -/
def pTypeN : Nat → Str → Option (STy × Str)
  | 0, _ => none
  | n + 1, s => ((pSimpleType s).or (pCompoundWith (pTypeN n) s)).or (pUserWith (pTypeN n) s)

/-- `type` (L147).  Every nested type starts after at least one character, so `s.length + 1`
levels are enough. -/
def pType (s : Str) : Option (STy × Str) := pTypeN (s.length + 1) s

/-! ## Conversion -/

/-- Errors reported by the conversion of parse trees (`MessageParseError`).  Only their class is
kept. -/
inductive Err where
  /-- failed lookup in the extension store -/
  | lookup (e : Store.MissingReference)
  /-- any other rejected value -/
  | invalid (what : Str)
  deriving DecidableEq, Repr

/-- A store lookup as a parse result. -/
def ofLookup {α : Type} : Except Store.MissingReference α → Res Err α
  | .ok a => .ok a
  | .error e => .err (.lookup e)

/-- `unwrap` of a number parse. -/
def unwrap {ε α : Type} : Option α → Res ε α
  | some a => .ok a
  | none => .panic

/-- `map(.. unwrap)` over an optional token. -/
def unwrapU32 : Option IntTok → Res Err (Option Nat)
  | none => .ok none
  | some t =>
    match t.toU32 with
    | some a => .ok (some a)
    | none => .panic

/-- parser/types.rs L106-180; `u8` .. `u64` are accepted by the grammar and hit `unreachable!`. -/
def convSimple (name : Str) (n : Nul) : Res Err Ty :=
  if name = cs!"boolean" then .ok (.simple .boolean n 0)
  else if name = cs!"i64" then .ok (.simple .i64 n 0)
  else if name = cs!"i32" then .ok (.simple .i32 n 0)
  else if name = cs!"i16" then .ok (.simple .i16 n 0)
  else if name = cs!"i8" then .ok (.simple .i8 n 0)
  else if name = cs!"fp32" then .ok (.simple .fp32 n 0)
  else if name = cs!"fp64" then .ok (.simple .fp64 n 0)
  else if name = cs!"string" then .ok (.simple .string n 0)
  else if name = cs!"binary" then .ok (.simple .binary n 0)
  else if name = cs!"timestamp" then .ok (.simple .timestamp n 0)
  else if name = cs!"timestamp_tz" then .ok (.simple .timestampTz n 0)
  else if name = cs!"date" then .ok (.simple .date n 0)
  else if name = cs!"time" then .ok (.simple .time n 0)
  else if name = cs!"interval_year" then .ok (.simple .intervalYear n 0)
  else if name = cs!"uuid" then .ok (.simple .uuid n 0)
  else .panic

/-- parser/types.rs L205-221 `parse_precision`. -/
def convPrecision (i : IntTok) (what : Str) : Res Err Int :=
  match i.toI32 with
  | some p => if 0 ≤ p ∧ p ≤ 12 then .ok p else .err (.invalid what)
  | none => .err (.invalid what)

/-- One step of `while let Some(x) = iter.parse_if_next_scoped(..) { v.push(x?) }`: an error while
parse-tree nodes remain drops a non-empty `RuleIter` and panics (parser/common.rs L296-308). -/
def convCons {ε α : Type} (head : Res ε α) (isLast : Bool) (tail : Res ε (List α)) :
    Res ε (List α) :=
  match head with
  | .ok a => tail.map (a :: ·)
  | .err e => if isLast then .err e else .panic
  | .panic => .panic

mutual
/-- parser/types.rs L341-366, L182-198, L223-339. -/
def convTy (st : Store) : STy → Res Err Ty
  | .simple name n => convSimple name n
  | .list n t => (convTy st t).bind fun t => .ok (.list (some t) n 0)
  | .map _ _ _ => .panic
  | .struct _ _ => .panic
  | .prec k n i => (convPrecision i cs!"precision time type").bind fun p => .ok (.prec k p n 0)
  | .intervalDay n i => (convPrecision i cs!"interval day type").bind fun p => .ok (.intervalDay (some p) n 0)
  | .user name a u n ps =>
    (unwrapU32 a).bind fun a => (unwrapU32 u).bind fun _ =>
      (match ps with | some ps => convParams st ps | none => .ok []).bind fun ps =>
        (ofLookup (st.getAndValidateAnchor .type a name)).bind fun r => .ok (.user r ps n 0)
/-- parser/types.rs L89-103. -/
def convParam (st : Store) : SParam → Res Err Param
  | .ty t => (convTy st t).bind fun t => .ok (.ty t)
  | .int _ => .panic
  | .name _ => .panic
/-- parser/types.rs L290-302. -/
def convParams (st : Store) : List SParam → Res Err (List Param)
  | [] => .ok []
  | p :: ps => convCons (convParam st p) ps.isEmpty (convParams st ps)
end

end Verif
