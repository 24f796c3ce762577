import Verif.Model.Chunks
/-!
# Physical lines, stated without cursors
-/

namespace Verif.ChunkSpec

/-- The physical lines of a text, each with its newline. -/
def physLines : Str → List Str
  | [] => []
  | c :: s =>
    if c = '\n' then [c] :: physLines s
    else match physLines s with
      | [] => [[c]]
      | l :: ls => (c :: l) :: ls

/-- A physical line without its line ending (`\n` or `\r\n`). -/
def content (l : Str) : Str :=
  if l.getLast? = some '\n' then
    (if l.dropLast.getLast? = some '\r' then l.dropLast.dropLast else l.dropLast)
  else l

/-- Number of newlines of a text. -/
def newlines (s : Str) : Nat := s.count '\n'

/-- Indentation depth of a line: pairs of leading spaces, not counting trailing white space. -/
def depthOf (l : Str) : Nat := ((trimEnd l).takeWhile (· = ' ')).length / 2

/-- A continuation line under a line of depth `d`: exactly `2 (d + 1)` spaces, a dash, a space and
something more than white space. -/
def DashUnder (d : Nat) (l : Str) : Prop :=
  ∃ body, l = List.replicate (2 * (d + 1)) ' ' ++ '-' :: ' ' :: body ∧ ∃ c ∈ body, isWs c = false

end Verif.ChunkSpec
