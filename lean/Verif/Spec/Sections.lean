import Verif.Model.Sections
import Verif.Spec.Chunks
/-!
# Section headers of a text, stated on its physical lines
-/

namespace Verif.SectionSpec
open ChunkSpec

/-- A line starting with `===` in the first column. -/
def IsHeader (l : Str) : Prop := ∃ r, l = '=' :: '=' :: '=' :: r

/-- `names s l`: the line `l` is the header of section `s`, trailing white space aside. -/
def Names : Sec → Str → Prop
  | .initial, _ => False
  | .version, l => ∃ r, trimEnd l = cs!"=== Version" ++ r ∧ (r = [] ∨ ∃ r', r = ' ' :: r')
  | .extensions, l => trimEnd l = cs!"=== Extensions"
  | .plan, l => trimEnd l = cs!"=== Plan"

/-- A text whose header lines are, in order, the headers of the sections `ss`, and which has no
other header lines. -/
inductive HeadersAre : List Str → List Sec → Prop
  | nil : HeadersAre [] []
  | skip {l ls ss} : ¬ IsHeader l → HeadersAre ls ss → HeadersAre (l :: ls) ss
  | header {l ls s ss} : Names s l → HeadersAre ls ss → HeadersAre (l :: ls) (s :: ss)

/-- The three sections in document order. -/
def order : List Sec := [.version, .extensions, .plan]

/-- Does a line, after its leading spaces, start with a dash and a space? -/
def Dash (l : Str) : Prop := ∃ n r, l = List.replicate n ' ' ++ '-' :: ' ' :: r

/-- The lines that carry something, trailing white space removed. -/
def significant (text : Str) : List Str :=
  (physLines text).map trimEnd |>.filter (fun l => l ≠ [])

/-- Pieces with dots between them. -/
def joinDots : List Str → Str
  | [] => []
  | [p] => p
  | p :: ps => p ++ '.' :: joinDots ps

end Verif.SectionSpec
