import Verif.Model.Chunks
import Verif.Model.Tree
import Verif.Model.Num
/-!
# Sections of a plan text

Model of `Parser` (`src/parser/structural.rs` L895-1234) without the conversion of relations.  It is
generic in the syntax of plan lines and of the extensions section; `Verif/Model/Plan.lean`
instantiates it.  Line numbers, used only in error messages, are not part of nodes and errors
here.
-/

namespace Verif

/-- What the structural parser needs from the rest of the code. -/
structure Lang where
  /-- syntax of a relation line -/
  Rel : Type
  /-- syntax of an addendum line -/
  Add : Type
  /-- pest parse of `top_level_relation` (structural.rs L128-164) -/
  top : Str → Option (LineNode Rel Add)
  /-- pest parse of `planNode` (structural.rs L97-125) -/
  node : Str → Option (LineNode Rel Add)
  /-- state of the extensions section (parser/extensions.rs L72-85) -/
  Ext : Type
  extInit : Ext
  /-- parser/extensions.rs L88-104 `ExtensionParser::parse_line` -/
  extLine : Ext → Indented → Res Unit Ext

/-- substrait `Version` (proto/plan.proto). -/
structure Version where
  major : Nat
  minor : Nat
  patch : Nat
  gitHash : Str
  producer : Str
  deriving DecidableEq, Repr

namespace Version
/-- `proto::Version::default()`. -/
def empty : Version := ⟨0, 0, 0, [], []⟩
end Version

/-- structural.rs L168-178 `State`. -/
inductive Sec where
  | initial | version | extensions | plan
  deriving DecidableEq, Repr

/-- structural.rs L185-192 `section_rank`. -/
def Sec.rank : Sec → Nat
  | .initial => 0
  | .version => 1
  | .extensions => 2
  | .plan => 3

/-- Reasons to reject a text before relations are converted. -/
inductive PErr where
  | initialLine
  | unknownHeader
  | sectionOrder
  | versionNumberMissing
  | versionNumberInvalid
  | versionTooManyParts
  | versionLine
  | versionNoColon
  | versionUnknownField
  | extensionLine
  | relationSyntax
  | tree (e : TreeError)
  deriving DecidableEq, Repr

/-- structural.rs L895-912 `Parser`, without cursor and line number. -/
structure PState (L : Lang) where
  sec : Sec
  version : Option Version
  ext : L.Ext
  tree : TreeBuilder L.Rel L.Add

namespace PState
variable {L : Lang}

/-- structural.rs L944-954 `Parser::new`. -/
def init : PState L := ⟨.initial, none, L.extInit, .empty⟩

end PState

/-- Pieces between dots (`str::split('.')`); at least one piece. -/
def splitDot : Str → List Str
  | [] => [[]]
  | c :: s =>
    if c = '.' then [] :: splitDot s
    else match splitDot s with
      | [] => [[c]]
      | p :: ps => (c :: p) :: ps

/-- One number of the version header (structural.rs L1125-1138). -/
def versionNumber : List Str → Except PErr (Nat × List Str)
  | [] => .error .versionNumberMissing
  | p :: ps =>
    if p.isEmpty then .error .versionNumberMissing
    else match parseU32 p with
      | none => .error .versionNumberInvalid
      | some n => .ok (n, ps)

/-- structural.rs L1116-1157 `parse_version_header`, on the text after `=== Version`. -/
def versionHeader (rest : Str) : Except PErr Version :=
  match versionNumber (splitDot (trim rest)) with
  | .error e => .error e
  | .ok (a, ps) =>
    match versionNumber ps with
    | .error e => .error e
    | .ok (b, ps) =>
      match versionNumber ps with
      | .error e => .error e
      | .ok (c, ps) =>
        match ps with
        | [] => .ok ⟨a, b, c, [], []⟩
        | _ :: _ => .error .versionTooManyParts

/-- `str::strip_prefix`. -/
def stripPrefix : Str → Str → Option Str
  | [], s => some s
  | _ :: _, [] => none
  | c :: p, d :: s => if c = d then stripPrefix p s else none

/-- `str::split_once(':')`. -/
def splitColon : Str → Option (Str × Str)
  | [] => none
  | c :: s => if c = ':' then some ([], s) else (splitColon s).map (fun (a, b) => (c :: a, b))

def extensionsHeader : Str := cs!"=== Extensions"
def planHeader : Str := cs!"=== Plan"
def versionPrefix : Str := cs!"=== Version"

namespace PState
variable {L : Lang}

/-- structural.rs L1090-1112 `parse_section_header`. -/
def sectionHeader (st : PState L) (line : Str) : Except PErr (PState L × Sec) :=
  if line = extensionsHeader then .ok (st, .extensions)
  else if line = planHeader then .ok (st, .plan)
  else match stripPrefix versionPrefix line with
    | some rest =>
      if rest.isEmpty || rest.head? == some ' ' then
        match versionHeader rest with
        | .error e => .error e
        | .ok v => .ok ({ st with version := some v }, .version)
      else .error .unknownHeader
    | none => .error .unknownHeader

/-- structural.rs L1178-1202 `parse_version_detail`; the `expect` of L1188 is `panic`. -/
def versionDetail (st : PState L) (line : Str) : Res PErr (PState L) :=
  match splitColon line with
  | none => .err .versionNoColon
  | some (key, value) =>
    match st.version with
    | none => .panic
    | some v =>
      if trim key = cs!"producer" then .ok { st with version := some { v with producer := trim value } }
      else if trim key = cs!"git_hash" then .ok { st with version := some { v with gitHash := trim value } }
      else .err .versionUnknownField

/-- structural.rs L1162-1174 `parse_version`. -/
def versionLine (st : PState L) (l : Indented) : Res PErr (PState L) :=
  if l.depth = 0 ∧ trim l.body = [] then .ok st
  else if l.depth = 1 then st.versionDetail l.body
  else .err .versionLine

/-- structural.rs L1067-1082: a line of the plan section. -/
def planLine (st : PState L) (l : Indented) : Res PErr (PState L) :=
  match (if l.depth = 0 then L.top l.body else L.node l.body) with
  | none => .err .relationSyntax
  | some n =>
    match st.tree.addLine l.depth n with
    | .error e => .err (.tree e)
    | .ok t => .ok { st with tree := t }

/-- structural.rs L1024-1084 `parse_line`. -/
def parseLine (st : PState L) (chunk : Str) : Res PErr (PState L) :=
  let l := indentedLine chunk
  if l.depth = 0 ∧ (stripPrefix cs!"===" l.body).isSome then
    match st.sectionHeader l.body with
    | .error e => .err e
    | .ok (st', next) =>
      if next.rank ≤ st.sec.rank then .err .sectionOrder
      else .ok { st' with sec := next }
  else
    match st.sec with
    | .initial => if l.depth = 0 ∧ trim l.body = [] then .ok st else .err .initialLine
    | .version => st.versionLine l
    | .extensions =>
      match L.extLine st.ext l with
      | .err _ => .err .extensionLine
      | .panic => .panic
      | .ok e => .ok { st with ext := e }
    | .plan => st.planLine l

/-- Merge policy of `next_chunk` (structural.rs L1006-1016). -/
def policy (sec : Sec) : Line → Cursor → Line → Bool :=
  if sec = .plan then dashPolicy else fun _ _ _ => false

/-- structural.rs L963-986 `parse_plan`, up to `build_plan`.  The fuel is the number of remaining
chunks, bounded by the text length; running out is impossible (`parseLoop_eq_runLines`). -/
def parseLoop : Nat → PState L → Option Cursor → Res PErr (PState L)
  | _, st, none => .ok st
  | 0, _, some _ => .panic
  | fuel + 1, st, some c =>
    match c.takeChunk (policy st.sec) with
    | none => .panic
    | some (chunk, _, rest) =>
      if (trim (trimNl chunk)).isEmpty then parseLoop fuel st rest
      else
        match st.parseLine (trimNl chunk) with
        | .err e => .err e
        | .panic => .panic
        | .ok st' => parseLoop fuel st' rest

end PState

/-- `Parser::parse_plan` up to the conversion of relations. -/
def parseSections (L : Lang) (text : Str) : Res PErr (PState L) :=
  PState.parseLoop text.length PState.init (Cursor.new text 1)

end Verif
