import Verif.Model.Escape
/-!
# Strings the textual format can spell

Independent of the printer: which characters have a spelling inside quotes that the reader
understands.
-/

namespace Verif.TextSpec

/-- Characters with a two-character escape known to both sides. -/
def Special (c : Char) : Prop :=
  c = '\t' ∨ c = '\r' ∨ c = '\n' ∨ c = '\\' ∨ c = '"' ∨ c = '\''

/-- A character that survives: specially escaped, or printed as itself. -/
def SpellChar [UTab] (first : Bool) (c : Char) : Prop :=
  Special c ∨ (c ≠ '\x00' ∧ UTab.printable c = true ∧ (first = true → UTab.graphemeExt c = false))

/-- A string all of whose characters survive. -/
def Spellable [UTab] : Str → Prop
  | [] => True
  | c :: s => SpellChar true c ∧ ∀ d ∈ s, SpellChar false d

end Verif.TextSpec
