import Verif.Model.Base
/-!
# Physical lines and chunks

Model of `src/parser/chunks.rs` and of `Parser::next_chunk` (`src/parser/structural.rs`).
Offsets count characters instead of bytes.
-/

namespace Verif

/-- Rust `char::is_whitespace` (Unicode `White_Space`). -/
def isWs (c : Char) : Bool :=
  let n := c.toNat
  (9 ≤ n && n ≤ 13) || n == 0x20 || n == 0x85 || n == 0xA0 || n == 0x1680 ||
  (0x2000 ≤ n && n ≤ 0x200A) || n == 0x2028 || n == 0x2029 || n == 0x202F ||
  n == 0x205F || n == 0x3000

/-- Remove the longest suffix of characters satisfying `p` (`trim_end_matches`). -/
def dropEnd (p : Char → Bool) (s : Str) : Str := (s.reverse.dropWhile p).reverse

/-- Rust `str::trim_end`. -/
def trimEnd (s : Str) : Str := dropEnd isWs s

/-- Rust `str::trim_start`. -/
def trimStart (s : Str) : Str := s.dropWhile isWs

/-- Rust `str::trim`. -/
def trim (s : Str) : Str := trimEnd (trimStart s)

/-- chunks.rs L42-45 `Line`. -/
structure Line where
  line : Str
  stop : Nat
  deriving DecidableEq, Repr

/-- chunks.rs L68-79 `ChunkCursor`. -/
structure Cursor where
  text : Str
  currentEnd : Nat
  startLineNo : Nat
  nextLineNo : Nat
  deriving DecidableEq, Repr

/-- `rest.find('\n')`: number of characters before the first newline. -/
def findNewline : Str → Option Nat
  | [] => none
  | c :: cs => if c = '\n' then some 0 else (findNewline cs).map (· + 1)

/-- `s.strip_suffix('\r').unwrap_or(s)` (chunks.rs L113). -/
def stripCr (s : Str) : Str := if s.getLast? = some '\r' then s.dropLast else s

namespace Cursor

/-- chunks.rs L84-94 `ChunkCursor::new`. -/
def new (text : Str) (n : Nat) : Option Cursor :=
  if text.isEmpty then none else some ⟨text, 0, n, n⟩

/-- chunks.rs L103-125 `peek_line`. -/
def peekLine (c : Cursor) : Option Line :=
  if c.currentEnd ≥ c.text.length then none
  else
    let rest := c.text.drop c.currentEnd
    match findNewline rest with
    | some nl => some ⟨stripCr (rest.take nl), c.currentEnd + nl + 1⟩
    | none => some ⟨rest, c.text.length⟩

/-- chunks.rs L133-149 `merge`; the debug assertions are the theorem
`merge_assertions_hold`. -/
def merge (c : Cursor) (l : Line) : Cursor :=
  { c with currentEnd := l.stop, nextLineNo := c.nextLineNo + 1 }

/-- chunks.rs L153-169 `next`. -/
def next (c : Cursor) : Str × Option Cursor :=
  let rest := c.text.drop c.currentEnd
  (c.text.take c.currentEnd,
   if rest.isEmpty then none else some ⟨rest, 0, c.nextLineNo, c.nextLineNo⟩)

/-- The caller's loop "while the policy accepts the peeked line, merge it"
(structural.rs L1008-1015).  `fuel` bounds the number of lines. -/
def mergeWhile (pol : Cursor → Line → Bool) : Nat → Cursor → Cursor
  | 0, c => c
  | fuel + 1, c =>
    match c.peekLine with
    | none => c
    | some l => if pol c l then mergeWhile pol fuel (c.merge l) else c

/-- One chunk under a merge policy (structural.rs L993-1021 without the final trimming): the
first physical line always, then lines accepted by the policy.  `none` is the `expect` panic
of L1000, impossible by `takeChunk_isSome`. -/
def takeChunk (pol : Line → Cursor → Line → Bool) (c : Cursor) :
    Option (Str × Nat × Option Cursor) :=
  match c.peekLine with
  | none => none
  | some first =>
    let c := mergeWhile (pol first) c.text.length (c.merge first)
    let r := c.next
    some (r.1, c.startLineNo, r.2)

/-- The driver loop of `parse_plan` (structural.rs L963-986), collecting chunks.  The policy may
depend on everything seen so far. -/
def collect (pol : List (Str × Nat) → Line → Cursor → Line → Bool) :
    Nat → List (Str × Nat) → Option Cursor → List (Str × Nat)
  | 0, acc, _ => acc
  | _, acc, none => acc
  | fuel + 1, acc, some c =>
    match takeChunk (pol acc) c with
    | none => acc
    | some (t, n, c') => collect pol fuel (acc ++ [(t, n)]) c'

/-- All chunks of an input under a policy. -/
def chunks (pol : List (Str × Nat) → Line → Cursor → Line → Bool) (text : Str) :
    List (Str × Nat) :=
  collect pol text.length [] (new text 1)

end Cursor

/-- structural.rs L37 `IndentedLine`. -/
structure Indented where
  depth : Nat
  body : Str
  deriving DecidableEq, Repr

/-- structural.rs L39-57 `IndentedLine::from`. -/
def indentedLine (line : Str) : Indented :=
  let line := trimEnd line
  let spaces := (line.takeWhile (· = ' ')).length
  let indents := spaces / 2
  ⟨indents, line.drop (indents * 2)⟩

/-- `body.starts_with("- ")`. -/
def startsDash : Str → Bool
  | '-' :: ' ' :: _ => true
  | _ => false

/-- structural.rs L1007-1015: the merge policy of the plan section. -/
def dashPolicy (first : Line) (_ : Cursor) (l : Line) : Bool :=
  (indentedLine l.line).depth == (indentedLine first.line).depth + 1 &&
  startsDash (indentedLine l.line).body

/-- `chunk.trim_end_matches(['\r', '\n'])` (structural.rs L1020). -/
def trimNl (s : Str) : Str := dropEnd (fun c => c == '\r' || c == '\n') s

end Verif
