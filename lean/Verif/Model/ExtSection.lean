import Verif.Model.Exprs
import Verif.Model.Sections
/-!
# The extensions section

Writing: `SimpleExtensions::write` (`src/extensions/simple.rs`).  Reading: `ExtensionParser`
(`src/parser/extensions.rs` L36-264).  Grammar references are lines of
`src/parser/expression_grammar.pest`.
-/

namespace Verif

set_option autoImplicit false

/-! ## Writing -/

/-- `{:3}` of a number: right aligned in three columns. -/
def width3 (n : Nat) : Str := List.replicate (3 - (dec n).length) ' ' ++ dec n

/-- simple.rs L10-13: the subsection headers. -/
def urnsHeader : Str := cs!"URNs:"
def Kind.header : Kind → Str
  | .function => cs!"Functions:"
  | .type => cs!"Types:"
  | .typeVariation => cs!"Type Variations:"

/-- simple.rs L345-347: one URN. -/
def urnLine (indent : Str) (u : Nat × Str) : Str := indent ++ cs!"@" ++ width3 u.1 ++ cs!": " ++ u.2 ++ cs!"\n"

/-- simple.rs L369-371: one declaration. -/
def declLine (indent : Str) (e : (Nat × Kind) × (Nat × Str)) : Str :=
  indent ++ cs!"#" ++ width3 e.1.1 ++ cs!" @" ++ width3 e.2.1 ++ cs!": " ++ e.2.2 ++ cs!"\n"

/-- simple.rs L358-372: the declarations of one kind. -/
def writeKind (s : Store) (indent : Str) (k : Kind) : Str :=
  match s.exts.filter fun e => e.1.2 == k with
  | [] => []
  | l => k.header ++ cs!"\n" ++ l.flatMap (declLine indent)

/-- simple.rs L336-374 `write`. -/
def writeExts (s : Store) (indent : Str) : Str :=
  if s.isEmpty then []
  else
    extensionsHeader ++ cs!"\n" ++
      (if s.urns.isEmpty then [] else urnsHeader ++ cs!"\n" ++ s.urns.flatMap (urnLine indent)) ++
      writeKind s indent .function ++ writeKind s indent .type ++ writeKind s indent .typeVariation

/-- `Result::map_err`. -/
def Res.mapErr {ε ε' α : Type} (f : ε → ε') : Res ε α → Res ε' α
  | .ok a => .ok a
  | .err e => .err (f e)
  | .panic => .panic

/-! ## Reading -/

/-- `extension_urn_declaration` (L207); `urn` (L205) is a nonempty run of characters other than
spaces. -/
def pUrnDecl (s : Str) : Option ((IntTok × Str) × Str) := do
  let (a, s) ← pUrnAnchor s
  let s ← lit cs!":" s
  let s := skipSp s
  let u := s.takeWhile (· != ' ')
  if u.isEmpty then none else some ((a, u), s.dropWhile (· != ' '))

/-- `simple_extension_name` (L214). -/
def pExtName (s : Str) : Option (Str × Str) :=
  match lit cs!"u!" s with
  | some r => mapFst (cs!"u!" ++ ·) (pFunSig r)
  | none => pFunSig s

/-- `simple_extension` (L215). -/
def pDecl (s : Str) : Option ((IntTok × IntTok × Str) × Str) := do
  let (a, s) ← pAnchor s
  let (u, s) ← pUrnAnchor (skipSp s)
  let s ← lit cs!":" (skipSp s)
  let (n, s) ← pExtName (skipSp s)
  some ((a, u, n), s)

/-- parser/extensions.rs L40-52 `ExpectedExtensionLine`. -/
inductive ExtExpect where
  | extensions
  | urns
  | decls (k : Kind)
  deriving DecidableEq, Repr

/-- parser/extensions.rs L72-85 `ExtensionParser`. -/
structure ExtState where
  expect : ExtExpect
  store : Store
  deriving DecidableEq, Repr

/-- parser/extensions.rs L28-34 `ExtensionParseError`, reduced to its cases. -/
inductive ExtLineErr where
  | unexpected
  | insert (e : InsertError)
  | syntax
  | name
  deriving DecidableEq, Repr

namespace ExtState

/-- parser/extensions.rs L79-86. -/
def init : ExtState := ⟨.extensions, .empty⟩

/-- parser/extensions.rs L106-127 `parse_subsection`. -/
def subsection (st : ExtState) (l : Indented) : Res ExtLineErr ExtState :=
  if l.depth = 0 ∧ l.body = urnsHeader then .ok { st with expect := .urns }
  else if l.depth = 0 ∧ l.body = Kind.header .function then .ok { st with expect := .decls .function }
  else if l.depth = 0 ∧ l.body = Kind.header .type then .ok { st with expect := .decls .type }
  else if l.depth = 0 ∧ l.body = Kind.header .typeVariation then .ok { st with expect := .decls .typeVariation }
  else .err .unexpected

/-- An insertion as a step of the parser. -/
def inserted (st : ExtState) : Store × Option InsertError → Res ExtLineErr ExtState
  | (s, none) => .ok { st with store := s }
  | (_, some e) => .err (.insert e)

/-- parser/extensions.rs L184-215 with parser/common.rs L170-177: text after the match and numbers
outside `u32` panic. -/
def urn (st : ExtState) (s : Str) : Res ExtLineErr ExtState :=
  match pUrnDecl s with
  | none => .err .syntax
  | some ((a, u), rest) =>
    if rest ≠ [] then .panic
    else match a.toU32 with
      | none => .panic
      | some a => st.inserted (st.store.addUrn u a)

/-- parser/extensions.rs L217-264 `parse_from_kind`; same panics. -/
def decl (st : ExtState) (k : Kind) (s : Str) : Res ExtLineErr ExtState :=
  match pDecl s with
  | none => .err .syntax
  | some ((a, u, n), rest) =>
    if rest ≠ [] then .panic
    else match a.toU32, u.toU32 with
      | some a, some u =>
        if k ≠ .type ∧ Store.hasUBang n then .err .name
        else if k ≠ .function ∧ hasColon n then .err .name
        else st.inserted (st.store.addExt k u a n)
      | _, _ => .panic

/-- parser/extensions.rs L88-163 `parse_line`, `parse_extension_urns`, `parse_declarations`. -/
def line (st : ExtState) (l : Indented) : Res ExtLineErr ExtState :=
  if l.body = [] then .ok { st with expect := .extensions }
  else
    match st.expect with
    | .extensions => st.subsection l
    | .urns =>
      if l.depth = 0 then st.subsection l else if l.depth = 1 then st.urn l.body else .err .unexpected
    | .decls k =>
      if l.depth = 0 then st.subsection l else if l.depth = 1 then st.decl k l.body else .err .unexpected

end ExtState

end Verif
