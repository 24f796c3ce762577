import Verif.Spec.Sections
/-!
# Texts that differ only in the width of their spaces
-/

set_option autoImplicit false

namespace Verif.SpaceSpec

/-- Where in a text we are: outside of quotes, after a space or not; or inside of quotes, after a backslash that
makes the next character an ordinary one, or not. -/
inductive Place where
  | out (space : Bool)
  | within (quote : Char) (escaped : Bool)

/-- The text with every run of spaces outside of quotes reduced to one space. -/
def squeezeFrom : Place → Str → Str
  | _, [] => []
  | .out sp, c :: s =>
    if c = ' ' then
      if sp then squeezeFrom (.out true) s else ' ' :: squeezeFrom (.out true) s
    else if c = '\'' ∨ c = '"' then c :: squeezeFrom (.within c false) s
    else c :: squeezeFrom (.out false) s
  | .within q true, c :: s => c :: squeezeFrom (.within q false) s
  | .within q false, c :: s =>
    if c = '\\' then c :: squeezeFrom (.within q true) s
    else if c = q then c :: squeezeFrom (.out false) s
    else c :: squeezeFrom (.within q false) s

/-- The text with every run of spaces outside of quotes reduced to one space. -/
def squeeze (s : Str) : Str := squeezeFrom (.out false) s

/-- The two texts differ at most in the width of runs of spaces outside of quotes. -/
def SameButSpaces (a b : Str) : Prop := squeeze a = squeeze b

/-- Where one is after a text. -/
def placeAfter : Place → Str → Place
  | p, [] => p
  | .out _, c :: s =>
    if c = ' ' then placeAfter (.out true) s
    else if c = '\'' ∨ c = '"' then placeAfter (.within c false) s
    else placeAfter (.out false) s
  | .within q true, _ :: s => placeAfter (.within q false) s
  | .within q false, c :: s =>
    if c = '\\' then placeAfter (.within q true) s
    else if c = q then placeAfter (.out false) s
    else placeAfter (.within q false) s

/-- Every quote that is opened is closed. -/
def Closed (s : Str) : Prop := ∃ b, placeAfter (.out false) s = .out b

/-- Two lines with the same indentation that differ at most in the width of runs of spaces outside of quotes. -/
def Alike (l l' : Str) : Prop :=
  ∃ n x y, l = List.replicate n ' ' ++ x ∧ l' = List.replicate n ' ' ++ y ∧ x.head? ≠ some ' ' ∧
    SameButSpaces x y ∧ Closed x

/-- Lines alike, one by one. -/
inductive AllAlike : List Str → List Str → Prop
  | nil : AllAlike [] []
  | cons {l l' : Str} {ls ls' : List Str} : Alike l l' → AllAlike ls ls' → AllAlike (l :: ls) (l' :: ls')

end Verif.SpaceSpec
