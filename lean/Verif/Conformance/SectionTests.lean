import Verif.Conformance.StoreTests
import Verif.Model.Plan
/-!
# The unit tests of src/parser/chunks.rs, on the model

The tests call the cursor with a policy of their own and collect the chunks.
-/

namespace Verif.Conformance

open Store

set_option autoImplicit false

/-- src/parser/chunks.rs L182-211 `collect`: the chunks with their first and last line. -/
def collectFrom (pol : Line → Bool) (text : Str) (n : Nat) : List (Str × Nat × Nat) :=
  go text.length (Cursor.new text n)
where
  go : Nat → Option Cursor → List (Str × Nat × Nat)
    | 0, _ => []
    | _, none => []
    | fuel + 1, some c =>
      match c.peekLine with
      | none => []
      | some first =>
        let c := Cursor.mergeWhile (fun _ l => pol l) c.text.length (c.merge first)
        (c.next.1, c.startLineNo, c.nextLineNo - 1) :: go fuel c.next.2

/-- src/parser/chunks.rs `one_per_line`. -/
def onePerLine (text : Str) : List (Str × Nat × Nat) := collectFrom (fun _ => false) text 1

/-- L213 `empty_input_has_no_chunks` -/
example : Cursor.new [] 1 = none := by decide +kernel

/-- L218 `single_line_no_trailing_newline` -/
example : onePerLine cs!"abc" = [(cs!"abc", 1, 1)] := by decide +kernel

/-- L223 `single_line_with_trailing_newline` -/
example : onePerLine cs!"abc\n" = [(cs!"abc\n", 1, 1)] := by decide +kernel

/-- L230 `multiple_lines_one_per_chunk` -/
example : onePerLine cs!"a\nb\nc" = [(cs!"a\n", 1, 1), (cs!"b\n", 2, 2), (cs!"c", 3, 3)] := by
  decide +kernel

/-- L242 `blank_lines_are_their_own_chunks` -/
example : onePerLine cs!"a\n\nb" = [(cs!"a\n", 1, 1), (cs!"\n", 2, 2), (cs!"b", 3, 3)] := by
  decide +kernel

/-- L255 `peek_does_not_consume` -/
example : (Cursor.new cs!"a\nb" 1).map (fun c => ((c.peekLine.map (·.line)), c.currentEnd))
    = some (some cs!"a", 0) := by decide +kernel

/-- L265 `merge_builds_a_contiguous_multiline_slice` -/
example : collectFrom (fun l => startsDash (trimStart l.line))
      cs!"Read:Virtual[\n  - (1, 'alice')\n  - => id:i64]\nNext" 1
    = [(cs!"Read:Virtual[\n  - (1, 'alice')\n  - => id:i64]\n", 1, 3), (cs!"Next", 4, 4)] := by
  decide +kernel

/-- L285 `carriage_returns_are_stripped_from_line_content_but_kept_in_chunk` -/
example : (Cursor.new cs!"a\r\nb" 1).bind (fun c => c.peekLine.map fun l => (l.line, (c.merge l).next.1))
    = some (cs!"a", cs!"a\r\n") := by decide +kernel

/-- L298 `line_numbers_account_for_a_custom_start` -/
example : (onePerLine cs!"x\ny").map (·.2) = [(1, 1), (2, 2)]
    ∧ (collectFrom (fun _ => false) cs!"x\ny" 10).map (·.2.1) = [10, 11] := by decide +kernel

/-- L317 `end_line_no_tracks_merged_lines` -/
example : collectFrom (fun _ => true) cs!"a\nb\nc\nd" 1 = [(cs!"a\nb\nc\nd", 1, 4)] := by decide +kernel

end Verif.Conformance
