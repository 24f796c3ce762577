import Verif.Model.Plan
/-!
# Byte offsets

A Rust `&str` is indexed by bytes, and slicing it anywhere but between two characters panics.
The other modules count characters.  Here the code of `/repo` that computes with byte offsets is
modelled a second time, with byte offsets and with the panics of slicing:

* the cursor of `src/parser/chunks.rs`, including its debug assertions,
* `IndentedLine::from` and `Parser::next_chunk` of `src/parser/structural.rs`,
* `CompoundName` of `src/extensions/simple.rs`.

No other code in `/repo/src` slices a string (the grammar engine `pest` does, and is not modelled
at the level of bytes).
-/
set_option autoImplicit false

namespace Verif

/-- `str::len`: the number of bytes of the UTF-8 form. -/
def byteLen : Str → Nat
  | [] => 0
  | c :: s => c.utf8Size + byteLen s

/-- `str::split_at` (`(&s[..n], &s[n..])`): panics beyond the end and inside a character. -/
def sliceAt {ε : Type} : Str → Nat → Res ε (Str × Str)
  | s, 0 => .ok ([], s)
  | [], _ + 1 => .panic
  | c :: s, n + 1 =>
    if c.utf8Size ≤ n + 1 then (sliceAt s (n + 1 - c.utf8Size)).map fun r => (c :: r.1, r.2)
    else .panic

/-- `str::find(char)`: byte index of the first occurrence. -/
def findByte (x : Char) : Str → Option Nat
  | [] => none
  | c :: s => if c = x then some 0 else (findByte x s).map (· + c.utf8Size)

/-- chunks.rs L42-45 `Line`, with byte offsets into the text of the cursor.  `start` stands for
the address of the slice `line`, which `merge` compares (L141-145). -/
structure ByteLine where
  line : Str
  start : Nat
  stop : Nat
  deriving DecidableEq, Repr

/-- chunks.rs L68-79 `ChunkCursor`, `currentEnd` in bytes. -/
structure ByteCursor where
  text : Str
  currentEnd : Nat
  startLineNo : Nat
  nextLineNo : Nat
  deriving DecidableEq, Repr

namespace ByteCursor
variable {ε : Type}

/-- chunks.rs L84-94 `ChunkCursor::new`. -/
def new (text : Str) (n : Nat) : Option ByteCursor :=
  if text.isEmpty then none else some ⟨text, 0, n, n⟩

/-- chunks.rs L103-125 `peek_line`. -/
def peekLine (c : ByteCursor) : Res ε (Option ByteLine) :=
  if c.currentEnd ≥ byteLen c.text then .ok none
  else do
    let (_, rest) ← sliceAt c.text c.currentEnd
    match findByte '\n' rest with
    | some nl => do
      let (line, _) ← sliceAt rest nl
      .ok (some ⟨stripCr line, c.currentEnd, c.currentEnd + nl + 1⟩)
    | none => .ok (some ⟨rest, c.currentEnd, byteLen c.text⟩)

/-- chunks.rs L133-149 `merge`, with its debug assertions. -/
def merge (c : ByteCursor) (l : ByteLine) : Res ε ByteCursor :=
  if l.stop > c.currentEnd ∧ l.stop ≤ byteLen c.text then do
    let _ ← sliceAt c.text c.currentEnd
    if l.start = c.currentEnd then
      .ok { c with currentEnd := l.stop, nextLineNo := c.nextLineNo + 1 }
    else .panic
  else .panic

/-- chunks.rs L153-169 `next`. -/
def next (c : ByteCursor) : Res ε (Str × Option ByteCursor) := do
  let (chunk, _) ← sliceAt c.text c.currentEnd
  let (_, rest) ← sliceAt c.text c.currentEnd
  .ok (chunk, if rest.isEmpty then none else some ⟨rest, 0, c.nextLineNo, c.nextLineNo⟩)

end ByteCursor

/-- structural.rs L39-57 `IndentedLine::from`: spaces are counted as characters, the line is
split at a byte offset. -/
def byteIndented {ε : Type} (line : Str) : Res ε Indented := do
  let line := trimEnd line
  let spaces := (line.takeWhile (· = ' ')).length
  let indents := spaces / 2
  let (_, trimmed) ← sliceAt line (indents * 2)
  .ok ⟨indents, trimmed⟩

namespace ByteCursor
variable {ε : Type}

/-- structural.rs L1008-1015: the loop that merges dash lines.  `fuel` bounds the number of
lines. -/
def mergeDashes (base : Nat) : Nat → ByteCursor → Res ε ByteCursor
  | 0, c => .ok c
  | fuel + 1, c => do
    match ← c.peekLine with
    | none => .ok c
    | some l => do
      let ⟨depth, body⟩ ← byteIndented l.line
      if depth == base + 1 && startsDash body then mergeDashes base fuel (← c.merge l)
      else .ok c

/-- structural.rs L993-1021 `next_chunk`, up to the final trimming. -/
def nextChunk (plan : Bool) (c : ByteCursor) : Res ε (Str × Nat × Option ByteCursor) := do
  match ← c.peekLine with
  | none => .panic
  | some first => do
    let mut c' ← c.merge first
    if plan then
      let base := (← byteIndented first.line).depth
      c' ← mergeDashes base c.text.length c'
    let (chunk, rest) ← c'.next
    .ok (chunk, c'.startLineNo, rest)

end ByteCursor

namespace PState
variable {L : Lang}

/-- structural.rs L963-986 `parse_plan` up to `build_plan`, over byte offsets.  `parse_line`
(L1024-1084) splits the chunk with `byteIndented` before anything else. -/
def byteLoop : Nat → PState L → Option ByteCursor → Res PErr (PState L)
  | _, st, none => .ok st
  | 0, _, some _ => .panic
  | fuel + 1, st, some c => do
    let (chunk, _, rest) ← c.nextChunk (st.sec == .plan)
    if (trim (trimNl chunk)).isEmpty then byteLoop fuel st rest
    else do
      let _ ← byteIndented (trimNl chunk)
      byteLoop fuel (← st.parseLine (trimNl chunk)) rest

end PState

/-- `Parser::parse_plan` up to the conversion of relations, over byte offsets. -/
def byteSections (L : Lang) (text : Str) : Res PErr (PState L) :=
  PState.byteLoop text.length PState.init (ByteCursor.new text 1)

/-- structural.rs L963-986 `parse_plan`, over byte offsets. -/
def byteParsePlan [FTab] (reg : Registry ExtArgs (List Nat)) (text : Str) : Res PlanErr Plan :=
  ((byteSections planLang text).mapErr PlanErr.text).bind (buildPlan reg)

/-- simple.rs L95-100 `CompoundName`. -/
structure ByteName where
  name : Str
  index : Nat
  deriving DecidableEq, Repr

namespace ByteName

/-- simple.rs L103-107 `CompoundName::new`. -/
def new (name : Str) : ByteName := ⟨name, (findByte ':' name).getD (byteLen name)⟩

/-- simple.rs L110-112 `base`. -/
def base {ε : Type} (n : ByteName) : Res ε Str := do
  let (b, _) ← sliceAt n.name n.index
  .ok b

/-- simple.rs L120-122 `has_signature`. -/
def hasSignature (n : ByteName) : Bool := decide (n.index < byteLen n.name)

end ByteName

end Verif
